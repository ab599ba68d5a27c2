import Verif.Conc.OrderCounter

/-! C63: the orderings of the atomic accesses and fences that the lifter emits are as strong as the guest instructions ask for. -/

set_option linter.constructorNameAsVariable false

namespace Verif.Conc

open Verif.IR

/-- All accesses in the code. -/
inductive Code.hasAcc {σ : Type} (e : Acc) : Code σ → Prop where
  | here {k : Val (8 * e.n) → Code σ} : Code.hasAcc e (.acc e k)
  | acc {e' : Acc} {k : Val (8 * e'.n) → Code σ} (v : Val (8 * e'.n)) : Code.hasAcc e (k v) → Code.hasAcc e (.acc e' k)
  | fence {o : Ord} {k : Code σ} : Code.hasAcc e k → Code.hasAcc e (.fence o k)

theorem Code.not_hasAcc_done {σ : Type} {e : Acc} {s : σ} : ¬ Code.hasAcc e (.done s) := fun h => by cases h
theorem Code.not_hasAcc_ub {σ : Type} {e : Acc} : ¬ Code.hasAcc e (.ub : Code σ) := fun h => by cases h

/-! ### RV64 -/

namespace RV64

open Verif.RV64

/-- "If the aq bit is set, then no later memory operations in this RISC-V hart can be observed to take place before the AMO.  If the rl
bit is set, then other RISC-V harts will not observe the AMO before memory accesses preceding the AMO in this RISC-V hart."  In the
decoder, aq is bit 1 and rl bit 0 of the immediate. -/
def aq (i : Frv) : Prop := i.imm.toNat.testBit 1 = true
def rl (i : Frv) : Prop := i.imm.toNat.testBit 0 = true

/-- C63, RV64: all accesses of an AMO are one atomic read-modify-write, which is an acquire operation if aq is set, a release operation
if rl is set, and sequentially consistent if both are. -/
theorem C63_rv64_amo (slide : BitVec 64) (i : Frv) (hi : (Spec.amoKind i.mnem).isSome) (start : BitVec 64) (len : Nat) (m : St) (e : Acc)
    (he : Code.hasAcc e (code slide i start len m)) :
    e.upd.isSome ∧ e.ord ≠ .notAtomic ∧ (aq i → e.ord.acq) ∧ (rl i → e.ord.rel) ∧ (aq i → rl i → e.ord = .seqCst) := by
  have main : ∀ (n : Nat) (op : RmwOp) (s : St),
      Code.hasAcc e (amoCode s i n op fun s => .done { s with pc := .const (start + BitVec.ofNat 64 len) }) →
      e.upd.isSome ∧ e.ord ≠ .notAtomic ∧ (aq i → e.ord.acq) ∧ (rl i → e.ord.rel) ∧ (aq i → rl i → e.ord = .seqCst) := by
    intro n op s h
    unfold amoCode at h
    split at h
    · exact absurd h Code.not_hasAcc_ub
    · rename_i o ho
      unfold rmwCode at h
      split at h
      · exact absurd h Code.not_hasAcc_ub
      · have hord : e.ord = o ∧ e.upd.isSome := by
          cases h with
          | here => exact ⟨rfl, rfl⟩
          | acc v h => exact absurd h Code.not_hasAcc_done
        obtain ⟨ho', hu⟩ := hord
        unfold aq rl
        rw [ho']
        unfold amoOrd at ho
        generalize i.imm.toNat = imm at ho ⊢
        refine ⟨hu, ?_⟩
        unfold amoOrdering at ho
        match imm with
        | 0 => cases ho; exact ⟨by simp, by simp [Nat.testBit], by simp [Nat.testBit], by simp [Nat.testBit]⟩
        | 1 => cases ho; exact ⟨by simp, by simp [Nat.testBit], fun _ => trivial, by simp [Nat.testBit]⟩
        | 2 => cases ho; exact ⟨by simp, fun _ => trivial, by simp [Nat.testBit], by simp [Nat.testBit]⟩
        | 3 => cases ho; exact ⟨by simp, fun _ => trivial, fun _ => trivial, fun _ _ => rfl⟩
        | n + 4 => cases ho
  unfold code memCode at he
  obtain ⟨mn, rd, rs1, rs2, imm, x, y⟩ := i
  cases mn <;> first | exact main _ _ _ he | cases hi

/-- `sd x1, (x2); lr.d x7, (x4); sc.d.rl x8, x3, (x4)` and `lr.d.aq x6, (x4); ld x5, (x2)`. -/
def lrscProgram (pc : BitVec 64) : Option (Frv × Nat) :=
  if pc = 0x1000#64 then some (⟨.sd, 0, 2, 1, 0#32, 0, 0⟩, 4)
  else if pc = 0x1004#64 then some (⟨.lrd, 7, 4, 0, 0#32, 0, 0⟩, 4)
  else if pc = 0x1008#64 then some (⟨.scd, 8, 4, 3, 1#32, 0, 0⟩, 4)
  else if pc = 0x2000#64 then some (⟨.lrd, 6, 4, 0, 2#32, 0, 0⟩, 4)
  else if pc = 0x2004#64 then some (⟨.ld, 5, 2, 0, 0#32, 0, 0⟩, 4)
  else none

def lrscOk (g : Harts Bool) : Bool := !((g.hart true).pc = 0x2008#64 && (g.hart true).gp 6 = 1#64) || (g.hart true).gp 5 = 42#64

/-- C63 fails for RV64: the bits aq and rl of LR and SC are ignored and the accesses are not atomic.  On the harts LR.aq is before the
load and SC.rl after the store, so that who reads the flag reads the data; in the lifted code the data are `undef`. -/
theorem C63_rv64_lrsc_counterexample :
    (∀ t, Rel 0 { mpRegs t with mem := mpHarts.mem.toV } (mpHarts.at t)) ∧
    (∀ order g, runG (Harts.step lrscProgram) order mpHarts = some g → lrscOk g = true) ∧
    Bad (fun _ => prog lrscProgram 0) { threads := fun t => .done (mpRegs t), mem := mpHarts.mem.toV } (·.gp 6) := by
  refine ⟨C63_rv64_fence_counterexample.1, fun order g h => ?_, ?_⟩
  · exact explore_sound (labels := [false, true]) (by decide) 5 mpHarts (by decide +kernel) order g h
  · exact bad_of [false, false, false, false, false, false, true, true, true, true] 0 4 (by decide +kernel)

/-- The state in question is reached. -/
example : ((runG (Harts.step lrscProgram) [false, false, false, true, true] mpHarts).map fun g =>
    ((g.hart true).pc, (g.hart true).gp 6, (g.hart true).gp 5)) = some (0x2008#64, 1#64, 42#64) := by decide +kernel

/-- `amoadd.d.aqrl x5, x6, (x2)` has an access. -/
example : ∃ e, Code.hasAcc e (code 0 ⟨.amoaddd, 5, 2, 6, 3#32, 0, 0⟩ 0x1000#64 4 (mpRegs true)) ∧ e.n = 8 :=
  ⟨_, .here, rfl⟩

end RV64

/-! ### x86-64 -/

namespace X86

open Verif.X86

/-- Instructions with the LOCK prefix whose destination is in memory, and XCHG with memory, which "implies the LOCK prefix"; the source
is a register or an immediate (there are no instructions with two memory operands in these groups). -/
def Locked : Instr → Prop
  | .arith _ _ lock d s | .cmpxchg _ lock d s | .logic _ _ lock d s | .bittest _ _ lock d s => lock = true ∧ isMem d = 1 ∧ isMem s = 0
  | .not _ lock d | .incdec _ _ lock d => lock = true ∧ isMem d = 1
  | .xchg _ d s => isMem d = 1 ∧ isMem s = 0
  | _ => False

variable {slide : BitVec 64} {e : Acc}

theorem hasAcc_pure {α : Type} {x : Option α} {k : α → Code St} {P : Prop} (h : Code.hasAcc e (pure' x k))
    (hk : ∀ v, Code.hasAcc e (k v) → P) : P := by
  cases x with
  | none => exact absurd h Code.not_hasAcc_ub
  | some v => exact hk v h

theorem hasAcc_rmw {a : Val 64} {n : Nat} {f : Val (8 * n) → Val (8 * n)} {k : Val (8 * n) → Code St}
    (h : Code.hasAcc e (cRmw a n f k)) (hk : ∀ v, ¬ Code.hasAcc e (k v)) : e.ord = .seqCst ∧ e.upd.isSome := by
  cases a with
  | none => exact absurd h Code.not_hasAcc_ub
  | some a =>
    cases h with
    | here => exact ⟨rfl, rfl⟩
    | acc v h => exact absurd h (hk v)

theorem hasAcc_atomicRmw {m : St} {z : Sz} {o : Op} {f : Val z.bits → Val z.bits} {k : Val z.bits → Code St}
    (h : Code.hasAcc e (cAtomicRmw slide m z o f k)) (hk : ∀ v, ¬ Code.hasAcc e (k v)) : e.ord = .seqCst ∧ e.upd.isSome := by
  cases o with
  | mem a => exact hasAcc_pure h fun a h => hasAcc_rmw h hk
  | _ => exact absurd h Code.not_hasAcc_ub

theorem hasAcc_opLoad {m : St} {z : Sz} {o : Op} {ds : Bool} {k : Val z.bits → Code St} {P : Prop} (ho : isMem o = 0)
    (h : Code.hasAcc e (cOpLoad slide m z o ds k)) (hk : ∀ v, Code.hasAcc e (k v) → P) : P := by
  cases o with
  | mem a => cases ho
  | reg r => exact hasAcc_pure (x := opLoad slide m z (.reg r) ds) h hk
  | regH r => exact hasAcc_pure (x := opLoad slide m z (.regH r) ds) h hk
  | imm v => exact hasAcc_pure (x := opLoad slide m z (.imm v) ds) h hk

theorem hasAcc_opStore {m : St} {z : Sz} {o : Op} {v : Val z.bits} {k : St → Code St} {P : Prop} (ho : isMem o = 0)
    (h : Code.hasAcc e (cOpStore slide m z o v k)) (hk : ∀ v, Code.hasAcc e (k v) → P) : P := by
  cases o with
  | mem a => cases ho
  | reg r => exact hasAcc_pure (x := opStore slide m z (.reg r) v) h hk
  | regH r => exact hasAcc_pure (x := opStore slide m z (.regH r) v) h hk
  | imm x => exact hasAcc_pure (x := opStore slide m z (.imm x) v) h hk

theorem hasAcc_opStoreIf {m : St} {c : Bool} {z : Sz} {o : Op} {v : Val z.bits} {k : St → Code St} {P : Prop}
    (ho : c = false ∨ isMem o = 0) (h : Code.hasAcc e (cOpStoreIf slide m c z o v k)) (hk : ∀ v, Code.hasAcc e (k v) → P) : P := by
  cases c with
  | false => exact hk _ h
  | true => exact hasAcc_opStore (ho.resolve_left (by simp)) h hk

/-- C63, x86-64: all accesses of an instruction with the LOCK prefix, and of XCHG with memory, are one sequentially consistent atomic
read-modify-write. -/
theorem C63_x86_lock (cfg : Cfg) (i : Instr) (hi : Locked i) (start : BitVec 64) (len : Nat) (m : St) (c : Code St)
    (hc : xCode slide cfg i start len m = some c) (he : Code.hasAcc e c) : e.ord = .seqCst ∧ e.upd.isSome := by
  unfold xCode at hc
  cases i with
  | arith k z lock d s =>
    obtain ⟨rfl, hd, hs⟩ := hi
    cases hc
    refine hasAcc_opLoad hs he fun op2 he => hasAcc_atomicRmw he fun op1 he => ?_
    exact hasAcc_opStoreIf (.inl (by simp)) he fun m he => hasAcc_opStoreIf (.inr hs) he fun m he => Code.not_hasAcc_done he
  | cmpxchg z lock d s =>
    obtain ⟨rfl, hd, hs⟩ := hi
    cases hc
    exact hasAcc_opLoad hs he fun src he => hasAcc_atomicRmw he fun op1 he => Code.not_hasAcc_done he
  | xchg z d s =>
    obtain ⟨hd, hs⟩ := hi
    cases hc
    cases d with
    | mem a =>
      exact hasAcc_opLoad hs he fun op2 he => hasAcc_atomicRmw he fun op1 he => hasAcc_opStore hs he fun m he => Code.not_hasAcc_done he
    | _ => cases hd
  | logic k z lock d s =>
    obtain ⟨rfl, hd, hs⟩ := hi
    cases hc
    unfold cLogic at he
    split at he
    · rename_i h
      cases d with
      | mem a => cases s <;> cases h.2.1
      | _ => cases hd
    · refine hasAcc_opLoad hs he fun op2 he => hasAcc_atomicRmw he fun op1 he => ?_
      exact hasAcc_opStoreIf (.inl (by simp)) he fun m he => Code.not_hasAcc_done he
  | not z lock d =>
    obtain ⟨rfl, hd⟩ := hi
    cases hc
    exact hasAcc_atomicRmw he fun op1 he => Code.not_hasAcc_done he
  | incdec dec z lock d =>
    obtain ⟨rfl, hd⟩ := hi
    cases hc
    refine hasAcc_atomicRmw he fun op1 he => ?_
    exact hasAcc_opStoreIf (.inl (by simp)) he fun m he => Code.not_hasAcc_done he
  | bittest k z lock d s =>
    obtain ⟨rfl, hd, hs⟩ := hi
    cases hc
    unfold cBittest at he
    split at he
    · exact absurd he Code.not_hasAcc_ub
    · have hacc : ∀ m index mask fin, (∀ v c, ¬ Code.hasAcc e (fin v c)) → Code.hasAcc e (cBtAccess slide m k z true d s index mask fin) →
          e.ord = .seqCst ∧ e.upd.isSome := by
        intro m index mask fin hfin he
        unfold cBtAccess at he
        cases d with
        | mem a => exact hasAcc_pure he fun a he => hasAcc_rmw he fun v => hfin v m
        | _ => cases hd
      cases s with
      | mem a => cases hs
      | imm v => exact hasAcc_pure he fun v he => hacc _ _ _ _ (fun v c => Code.not_hasAcc_done) he
      | reg r => exact hasAcc_opLoad hs he fun v he => hacc _ _ _ _ (fun v c => Code.not_hasAcc_done) he
      | regH r => exact hasAcc_opLoad hs he fun v he => hacc _ _ _ _ (fun v c => Code.not_hasAcc_done) he
  | _ => cases hi

/-- C63, x86-64: LFENCE, SFENCE and MFENCE are sequentially consistent fences. -/
theorem C63_x86_fence (cfg : Cfg) (start : BitVec 64) (len : Nat) (m : St) :
    ∃ k, xCode slide cfg (.sse .fence) start len m = some (.fence .seqCst k) := ⟨_, rfl⟩

/-- `lock add [rbx], rax` has an access. -/
example : ∃ c e, xCode 0 {} (.arith .add .q true (.mem { base := .reg 3 }) (.reg 0)) 0x1000#64 4 (mpRegs true) = some c ∧ Code.hasAcc e c :=
  ⟨_, _, rfl, .here⟩

end X86

/-! ### AArch64 -/

namespace A64

open Verif.A64

variable {slide : BitVec 64} {e : Acc}

theorem hasAcc_loadGp {m : St} {rt : Reg} {w : Nat} {x : Ext} {mo : Bool} {a : Val 64} {fin : St → Code St}
    (h : Code.hasAcc e (cLoadGp m rt w x mo a fin)) (hk : ∀ m, ¬ Code.hasAcc e (fin m)) : e.ord = loadOrd mo ∧ e.upd = none := by
  cases a with
  | none => exact absurd h Code.not_hasAcc_ub
  | some a =>
    cases h with
    | here => exact ⟨rfl, rfl⟩
    | acc v h =>
      dsimp only at h
      cases hx : extend v w x 0 with
      | none => rw [hx] at h; exact absurd h Code.not_hasAcc_ub
      | some v' => rw [hx] at h; exact absurd h (hk _)

theorem hasAcc_storeGp {m : St} {rt : Reg} {w : Nat} {x : Ext} {mo : Bool} {a : Val 64} {c : Code St}
    (h : Code.hasAcc e (cStoreGp m rt w x mo a c)) (hk : ¬ Code.hasAcc e c) : e.ord = storeOrd mo ∧ e.upd.isSome := by
  unfold cStoreGp at h
  split at h
  · cases a with
    | none => exact absurd h Code.not_hasAcc_ub
    | some a =>
      cases h with
      | here => exact ⟨rfl, rfl⟩
      | acc v h => exact absurd h hk
  · exact absurd h Code.not_hasAcc_ub

/-- C63, AArch64: the access of LDAR and LDAXR is an atomic load with acquire semantics. -/
theorem C63_a64_ldar (cfg : Cfg) (w32 : Bool) (x : Ext) (mode : AM) (rt rn : Reg) (start : BitVec 64) (len : Nat) (m : St)
    (he : Code.hasAcc e (aCode slide cfg (.ldr w32 x mode true rt rn) start len m)) :
    e.upd = none ∧ e.ord ≠ .notAtomic ∧ e.ord.acq := by
  simp only [aCode, memCode] at he
  obtain ⟨h1, h2⟩ := hasAcc_loadGp he fun m => Code.not_hasAcc_done
  rw [h1]
  exact ⟨h2, by decide, trivial⟩

/-- C63, AArch64: the access of STLR and STLXR is an atomic store with release semantics. -/
theorem C63_a64_stlr (cfg : Cfg) (w32 : Bool) (x : Ext) (mode : AM) (excl : Option Reg) (rt rn : Reg) (start : BitVec 64) (len : Nat)
    (m : St) (he : Code.hasAcc e (aCode slide cfg (.str w32 x mode true excl rt rn) start len m)) :
    e.upd.isSome ∧ e.ord ≠ .notAtomic ∧ e.ord.rel := by
  simp only [aCode, memCode] at he
  obtain ⟨h1, h2⟩ := hasAcc_storeGp he Code.not_hasAcc_done
  rw [h1]
  exact ⟨h2, by decide, trivial⟩

/-- C63, AArch64: DMB with the types of accesses "loads" (bit 0 of CRm), "stores" (bit 1) or both is a fence with acquire semantics,
release semantics, or sequentially consistent. -/
theorem C63_a64_dmb (cfg : Cfg) (crm : Nat) (hc : crm % 4 ≠ 0) (start : BitVec 64) (len : Nat) (m : St) :
    ∃ o k, aCode slide cfg (.dmb crm) start len m = .fence o k ∧ (crm % 4 = 1 → o.acq) ∧ (crm % 4 = 2 → o.rel) ∧
      (crm % 4 = 3 → o = .seqCst) := by
  have main : ∀ o, dmbOrd crm = some o → ∃ k, aCode slide cfg (.dmb crm) start len m = .fence o k := by
    intro o ho
    refine ⟨.done { m with pc := .const (start + BitVec.ofNat 64 len) }, ?_⟩
    simp only [aCode, memCode, ho, pure']
  have h : crm % 4 = 1 ∨ crm % 4 = 2 ∨ crm % 4 = 3 := by omega
  rcases h with h | h | h
  · obtain ⟨k, hk⟩ := main .acquire (by simp only [dmbOrd, h])
    exact ⟨_, k, hk, fun _ => trivial, by omega, by omega⟩
  · obtain ⟨k, hk⟩ := main .release (by simp only [dmbOrd, h])
    exact ⟨_, k, hk, by omega, fun _ => trivial, by omega⟩
  · obtain ⟨k, hk⟩ := main .seqCst (by simp only [dmbOrd, h])
    exact ⟨_, k, hk, by omega, by omega, fun _ => rfl⟩

/-- `ldar x6, [x4]` has an access. -/
example : ∃ e, Code.hasAcc e (aCode 0 {} (.ldr false .uxtx .simple true (.x 6) (.x 4)) 0x1000#64 4 (mpRegs true)) := ⟨_, .here⟩

/-- `stlr x3, [x4]` has an access. -/
example : ∃ e, Code.hasAcc e (aCode 0 {} (.str false .uxtx .simple true none (.x 3) (.x 4)) 0x1000#64 4 (mpRegs false)) := ⟨_, .here⟩

end A64

end Verif.Conc
