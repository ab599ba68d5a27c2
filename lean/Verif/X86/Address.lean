import Verif.X86.Props
import Verif.RV64.Model

/-!
C56: how addresses of memory operands are computed, in detail: with a global base
(`ll_config_set_global_base`), native segment bases (`ll_config_set_use_native_segment_base`), and
depending on what the lifter knows about the registers while it generates code.

`X86.opAddr` and `RV64.addr`, which the other theorems are about, have one formula for all these
cases; here it is derived from the code.
-/

namespace Verif.X86

open Verif.IR

set_option linter.unusedSimpArgs false

/-- What the generator sees of a register: a value computed at run time, an integer constant, or some
other constant expression. -/
inductive Known where
  | var
  | int (v : BitVec 64)
  | expr
  deriving DecidableEq

/-- Configuration and knowledge of the generator that `OpAddr` looks at.  `globalBase` has the
address set with `ll_config_set_global_base` and the address the given value has at run time. -/
structure AddrCfg where
  globalBase : Option (BitVec 64 × BitVec 64) := none
  nativeSeg : Bool := false

/-- `AddrConst`, /repo/src/lifter-base.cc:34-44. -/
def addrConst (c : AddrCfg) (a : BitVec 64) : BitVec 64 :=
  if a = 0 then 0
  else
    match c.globalBase with
    | some (base, value) => value + (a - base)
    | none => a

/-- `CreateGEP` with an element type of `size` bytes, not `inbounds`. -/
def gep (size : Nat) (p i : Val 64) : Val 64 := IR.add p (IR.mul (some (BitVec.ofNat 64 size)) i)

/-- `Op::scale()`, /repo/src/instr.h:110-115. -/
def MemOp.scale (o : MemOp) : Nat :=
  match o.idx with
  | none => 0
  | some (_, k) => 2 ^ k.val

/-- The pointer before the index is added, /repo/src/x86-64/lifter-operand.cc:107-126, and whether it
is a constant null pointer (`isNullValue`).  The element type of the first `GEP` is `op.scale()`
bytes large. -/
def addrBase (c : AddrCfg) (K : Fin 16 → Known) (m : St) (o : MemOp) : Val 64 × Bool :=
  match o.base with
  | .reg r =>
    match K r with
    | .int v => (some (addrConst c (v + o.off)), addrConst c (v + o.off) == 0)
    | .expr => (IR.add (m.gp r) (some o.off), false)
    | .var =>
      if o.off ≠ 0 then
        if o.scale ≠ 0 ∧ o.off.toInt.tmod o.scale = 0 then
          (gep o.scale (m.gp r) (some (BitVec.ofInt 64 (o.off.toInt.tdiv o.scale))), false)
        else (gep 1 (m.gp r) (some o.off), false)
      else (m.gp r, false)
  | _ => (some (addrConst c o.off), addrConst c o.off == 0)

/-- Adding the index, /repo/src/x86-64/lifter-operand.cc:128-140. -/
def addrIndex (m : St) (o : MemOp) (b : Val 64 × Bool) : Val 64 :=
  match o.idx with
  | none => b.1
  | some (r, _) =>
    if b.2 then IR.mul (m.gp r) (some (BitVec.ofNat 64 o.scale)) else gep o.scale b.1 (m.gp r)

/-- `OpAddr`, /repo/src/x86-64/lifter-operand.cc:59-143: address space (0, or that of FS or GS) and
address.  `none`: a register that does not exist (`MapReg` of RIP) or addition of integers of
different widths. -/
def opAddrD (c : AddrCfg) (K : Fin 16 → Known) (slide : BitVec 64) (m : St) (o : MemOp)
    (ds : Bool := false) : Option (Seg × Val 64) :=
  let seg := if ds then .none else o.seg
  if seg ≠ .none ∨ o.a32 = true then
    match o.base with
    | .ip => none
    | base =>
      let w := if o.a32 then 32 else 64
      let res : Val w := some (o.off.setWidth w)
      let res := match base with
        | .reg r => IR.add res (trunc w (m.gp r))
        | _ => res
      let res := match o.idx with
        | none => res
        | some (r, _) => IR.add res (IR.mul (trunc w (m.gp r)) (some (BitVec.ofNat w o.scale)))
      if seg ≠ .none then
        if c.nativeSeg then some (seg, zext 64 res)
        else if o.a32 then none
        else some (.none, IR.add (zext 64 res) (match seg with | .fs => m.fs | _ => m.gs))
      else some (.none, zext 64 res)
  else
    match o.base with
    | .ip => some (.none, m.ipRel slide o.off)
    | _ => some (.none, addrIndex m o (addrBase c K m o))

namespace Spec

/-- Linear address of a pointer in one of the address spaces: LLVM's address spaces 256 and 257 are
relative to the segment bases of the processor that executes the lifted code (`hw`). -/
def linear (hw : Seg → BitVec 64) : Seg × Val 64 → Val 64
  | (.none, v) => v
  | (g, v) => IR.add (some (hw g)) v

/-- What the generator assumes about constants is true of the run-time state. -/
def Sound (K : Fin 16 → Known) (m : St) : Prop := ∀ r v, K r = .int v → m.gp r = some v

/-- The value given as global base "points to globalOffsetBase" (/repo/src/config.h:69-71). -/
def GlobalOk (c : AddrCfg) : Prop := ∀ base value, c.globalBase = some (base, value) → value = base

theorem addrConst_ok {c : AddrCfg} (hc : GlobalOk c) (a : BitVec 64) : addrConst c a = a := by
  unfold addrConst
  split
  · next h => exact h.symm
  · split
    · next base value h =>
      rw [hc _ _ h]
      rw [BitVec.add_comm, BitVec.sub_add_cancel]
    · rfl

theorem scale_tdiv (off : BitVec 64) (n : Nat) (h : off.toInt.tmod n = 0) :
    BitVec.ofNat 64 n * BitVec.ofInt 64 (off.toInt.tdiv n) = off := by
  have h1 : (n : Int) * off.toInt.tdiv n = off.toInt := by
    have := Int.tmod_add_mul_tdiv off.toInt n
    omega
  have h2 : BitVec.ofNat 64 n = BitVec.ofInt 64 n := by simp
  rw [h2, ← BitVec.ofInt_mul, h1, BitVec.ofInt_toInt]

theorem ofNat_scale (k : Fin 4) : BitVec.ofNat 64 (2 ^ k.val) = 1#64 <<< k.val := by
  revert k; decide

theorem addrBase_ok {c : AddrCfg} (hc : GlobalOk c) {K : Fin 16 → Known} {m : St} (hK : Sound K m)
    (o : MemOp) (hip : o.base ≠ .ip) :
    (addrBase c K m o).1 = (match o.base with
      | .reg r => IR.add (m.gp r) (some o.off)
      | _ => some o.off) ∧
    ((addrBase c K m o).2 = true → (addrBase c K m o).1 = some 0) := by
  unfold addrBase
  cases hb : o.base with
  | none =>
    simp only [addrConst_ok hc]
    exact ⟨trivial, fun h => by rw [eq_of_beq h]⟩
  | ip => exact absurd hb hip
  | reg r =>
    simp only
    cases hk : K r with
    | int v =>
      simp only [addrConst_ok hc, hK r v hk]
      exact ⟨by simp [add_some], fun h => by rw [eq_of_beq h]⟩
    | expr => exact ⟨rfl, by simp⟩
    | var =>
      simp only
      split
      · split
        · next h1 h2 =>
          refine ⟨?_, by simp⟩
          simp only [gep, mul_some, scale_tdiv _ _ h2.2]
        · refine ⟨?_, by simp⟩
          simp only [gep, mul_some]
          rw [show BitVec.ofNat 64 1 * o.off = o.off by simp]
      · next h =>
        simp only [ne_eq, Decidable.not_not] at h
        refine ⟨?_, by simp⟩
        rw [h]
        cases m.gp r with
        | none => rfl
        | some v => simp [add_some]

theorem addrIndex_ok {c : AddrCfg} (hc : GlobalOk c) {K : Fin 16 → Known} {m : St} (hK : Sound K m)
    (o : MemOp) (hip : o.base ≠ .ip) :
    addrIndex m o (addrBase c K m o) = IR.add (match o.base with
      | .reg r => IR.add (m.gp r) (some o.off)
      | _ => some o.off) (idxVal m o.idx) := by
  obtain ⟨h1, h2⟩ := addrBase_ok hc hK o hip
  unfold addrIndex idxVal MemOp.scale
  cases hi : o.idx with
  | none =>
    simp only
    rw [h1]
    generalize (match o.base with
      | .reg r => IR.add (m.gp r) (some o.off)
      | _ => some o.off : Val 64) = x
    cases x <;> simp [IR.add, IR.bin]
  | some rk =>
    obtain ⟨r, k⟩ := rk
    simp only [ofNat_scale]
    split
    · next h =>
      rw [← h1, h2 h]
      cases m.gp r <;> simp [IR.add, IR.mul, IR.bin]
    · rw [← h1, gep, ofNat_scale]
      cases m.gp r with
      | none => rfl
      | some v => simp only [mul_some, BitVec.mul_comm]

/-- **C56, integer segment bases**: whatever the lifter knows about registers and whether or not a
global base is set, the address of a memory operand is the same. -/
theorem C56_x86_address {c : AddrCfg} (hc : GlobalOk c) (hn : c.nativeSeg = false)
    {K : Fin 16 → Known} {m : St} (hK : Sound K m) (slide : BitVec 64) (o : MemOp) (ds : Bool) :
    opAddrD c K slide m o ds = (X86.opAddr slide m o ds).map (fun a => (.none, a)) := by
  have hadd : ∀ {w : Nat} (x : Val w), IR.add x (some 0#w) = x := by
    intro w x; cases x <;> simp [IR.add, IR.bin]
  have h0 : trunc 32 (some 0#64) = some 0#32 := rfl
  have hz : ∀ (x : Val 64), zext 64 x = x := by
    intro x; cases x <;> simp [zext, IR.un]
  have ht : ∀ (x : Val 64), trunc 64 x = x := by
    intro x; cases x <;> simp [trunc, IR.un]
  have hs32 : ∀ k : Fin 4, BitVec.ofNat 32 (2 ^ k.val) = 1#32 <<< k.val := by decide
  unfold opAddrD X86.opAddr
  generalize (if ds then Seg.none else o.seg) = seg
  by_cases hseg : seg ≠ .none ∨ o.a32 = true
  · simp only [hseg, if_true, hn]
    obtain ⟨oseg, a32, base, idx, off⟩ := o
    cases base <;> cases idx <;> cases seg <;> cases a32 <;>
      simp [MemOp.scale, hadd, h0, hz, ht, idxVal, ofNat_scale, hs32] at hseg ⊢
  · simp only [hseg, if_false]
    cases hb : o.base with
    | ip => rfl
    | none =>
      have := addrIndex_ok hc hK o (by rw [hb]; simp)
      rw [hb] at this
      simp only [Option.map_some, this]
    | reg r =>
      have := addrIndex_ok hc hK o (by rw [hb]; simp)
      rw [hb] at this
      simp only [Option.map_some, this]

/-- **C56, native segment bases, against the specification**: if the processor that executes the lifted code has the guest's FS
and GS bases, the accessed linear address is the architectural one, here also for FS and GS with a
32-bit address size (without native segment bases: `C41_gs_addr32_counterexample`).  Not covered:
RIP-relative operands with a segment or with a 32-bit address size, and there is no encoding for
RIP with an index. -/
theorem C56_x86_native_arch {c : AddrCfg} (hc : GlobalOk c) (hn : c.nativeSeg = true)
    {K : Fin 16 → Known} {slide : BitVec 64} {m : St} {s : S} (h : Rel slide m s) (hK : Sound K m)
    (hw : Seg → BitVec 64) (hfs : hw .fs = s.fs) (hgs : hw .gs = s.gs) (o : MemOp)
    (hip : o.base = .ip → o.seg = .none ∧ o.a32 = false ∧ o.idx = none) :
    (opAddrD c K slide m o).map (linear hw) = some (some (s.ea o)) := by
  by_cases hseg : o.seg ≠ .none ∨ o.a32 = true
  · have hz : ∀ (x : BitVec 64), x.extractLsb' 0 64 = x := by intro x; simp
    obtain ⟨seg, a32, base, idx, off⟩ := o
    cases base <;> cases idx <;> cases seg <;> cases a32 <;> simp at hseg hip <;>
      simp [opAddrD, hn, linear, S.ea, S.offset, S.segBase, MemOp.scale, h.gp, h.fs, h.gs, hfs, hgs,
        add_some, mul_some, trunc_some, zext_some, extract0, setWidth_add32, setWidth_mul32,
        setWidth_pow32] <;> ac_rfl
  · have h1 : o.seg = .none ∧ o.a32 = false := by
      simpa [not_or] using hseg
    have hp : MemOp.plain o = true := by
      unfold MemOp.plain
      rw [h1.1, h1.2]
      by_cases hb : o.base = .ip
      · simp [(hip hb).2.2]
      · simp [hb]
    have h2 := C56_x86_address (c := { c with nativeSeg := false })
      (fun base value hg => hc base value hg) rfl hK slide o false
    have h3 : opAddrD c K slide m o = opAddrD { c with nativeSeg := false } K slide m o := by
      have hs : ¬ (o.seg ≠ .none ∨ o.a32 = true) := hseg
      simp only [opAddrD, Bool.false_eq_true, if_false, hs]
      cases o.base <;> rfl
    rw [h3, h2, opAddr_plain h o hp]
    rfl

/-- **C56, native segment bases**: if the processor that executes the lifted code has the guest's FS and GS bases, every operand for
which there is code without native segment bases refers to the same linear address with them.  (The other operands: with a 32-bit
address size there is code only with native segment bases, and `C56_x86_native_arch` says that it is right; for RIP-relative operands
with a segment or a 32-bit address size there is no code in either case, `C56_no_code`.) -/
theorem C56_x86_native {c : AddrCfg} (hc : GlobalOk c) {K : Fin 16 → Known} {m : St} (hK : Sound K m) (slide : BitVec 64)
    (hw : Seg → BitVec 64) (hfs : m.fs = some (hw .fs)) (hgs : m.gs = some (hw .gs)) (o : MemOp) (ds : Bool) (a : Val 64)
    (ha : X86.opAddr slide m o ds = some a) :
    (opAddrD { c with nativeSeg := true } K slide m o ds).map (linear hw) = some a := by
  have h2 := C56_x86_address (c := { c with nativeSeg := false }) (fun base value hg => hc base value hg) rfl hK slide o ds
  rw [ha, Option.map_some] at h2
  have hcomm : ∀ x y : Val 64, IR.add x y = IR.add y x := by
    intro x y
    cases x <;> cases y <;> simp [IR.add, IR.bin, BitVec.add_comm]
  generalize hseg : (if ds then Seg.none else o.seg) = seg at *
  unfold opAddrD at h2 ⊢
  simp only [hseg] at h2 ⊢
  split at h2
  · rename_i hs
    rw [if_pos hs]
    cases hb : o.base with
    | ip => simp [hb] at h2
    | none =>
      simp only [hb, Bool.false_eq_true, if_false] at h2 ⊢
      cases seg with
      | none => simp only [ne_eq, not_true_eq_false, if_false, Option.some.injEq, Prod.mk.injEq, true_and] at h2 ⊢; rw [h2]; rfl
      | fs =>
        simp only [ne_eq, reduceCtorEq, not_false_eq_true, if_true] at h2 ⊢
        split at h2
        · cases h2
        · simp only [Option.some.injEq, Prod.mk.injEq, true_and] at h2
          rw [← h2, hfs, hcomm]; rfl
      | gs =>
        simp only [ne_eq, reduceCtorEq, not_false_eq_true, if_true] at h2 ⊢
        split at h2
        · cases h2
        · simp only [Option.some.injEq, Prod.mk.injEq, true_and] at h2
          rw [← h2, hgs, hcomm]; rfl
    | reg r =>
      simp only [hb, Bool.false_eq_true, if_false] at h2 ⊢
      cases seg with
      | none => simp only [ne_eq, not_true_eq_false, if_false, Option.some.injEq, Prod.mk.injEq, true_and] at h2 ⊢; rw [h2]; rfl
      | fs =>
        simp only [ne_eq, reduceCtorEq, not_false_eq_true, if_true] at h2 ⊢
        split at h2
        · cases h2
        · simp only [Option.some.injEq, Prod.mk.injEq, true_and] at h2
          rw [← h2, hfs, hcomm]; rfl
      | gs =>
        simp only [ne_eq, reduceCtorEq, not_false_eq_true, if_true] at h2 ⊢
        split at h2
        · cases h2
        · simp only [Option.some.injEq, Prod.mk.injEq, true_and] at h2
          rw [← h2, hgs, hcomm]; rfl
  · rename_i hs
    rw [if_neg hs]
    cases hb : o.base <;> simp only [hb, Option.some.injEq, Prod.mk.injEq, true_and] at h2 ⊢ <;>
      simp only [Option.map_some, linear] <;> exact congrArg some h2

/-- There is no code for RIP-relative operands with a segment or a 32-bit address size, with or without native segment bases. -/
theorem C56_no_code (c : AddrCfg) (K : Fin 16 → Known) (slide : BitVec 64) (m : St) (o : MemOp) (hb : o.base = .ip)
    (hs : o.seg ≠ .none ∨ o.a32 = true) : opAddrD c K slide m o = none ∧ X86.opAddr slide m o = none := by
  unfold opAddrD X86.opAddr
  simp only [Bool.false_eq_true, if_false, if_pos hs, hb, and_self]

/-- The assumption on the global base is needed: the global base is 0x1000, but the
given value is at 0x5000.  For `mov rax, [rbx]` with `rbx = 0x1010` the address is 0x5010 if `rbx` is
known while lifting (it was set to a constant in the same block) and 0x1010 if not. -/
theorem C56_global_base_needed (slide : BitVec 64) (m : St) (hm : m.gp 3 = some 0x1010#64) :
    let c : AddrCfg := { globalBase := some (0x1000#64, 0x5000#64) }
    let o : MemOp := { base := .reg 3 }
    Sound (fun r => if r = 3 then .int 0x1010#64 else .var) m ∧ Sound (fun _ => .var) m ∧
    opAddrD c (fun r => if r = 3 then .int 0x1010#64 else .var) slide m o = some (.none, some 0x5010#64) ∧
    opAddrD c (fun _ => .var) slide m o = some (.none, some 0x1010#64) := by
  refine ⟨?_, ?_, ?_, ?_⟩
  · intro r v hr
    simp only at hr
    split at hr
    · next h => cases hr; rw [h]; exact hm
    · cases hr
  · intro r v hr; cases hr
  · rfl
  · simp [opAddrD, addrIndex, addrBase, hm]

/-- `gs:[ebx + 4 * ecx - 8]` with native segment bases: all branches that add are taken. -/
example (m : St) : ((opAddrD { nativeSeg := true } (fun _ => .var) 0
    ({ m with gp := fun r => if r = 3 then some 0x1_0000_0010 else some 0x2 })
    { seg := .gs, a32 := true, base := .reg 3, idx := some (1, 2), off := -8 }).map
      (linear (fun _ => 0x7000))) = some (some 0x7010) := rfl

/-- `[rbx + 4 * rcx - 8]`: the offset is a multiple of the scale, so the code has a `GEP` of 32-bit
integers with the index -2. -/
example (m : St) : (opAddrD {} (fun _ => .var) 0
    ({ m with gp := fun r => if r = 3 then some 0x1010 else some 0x2 })
    { base := .reg 3, idx := some (1, 2), off := -8 }) = some (.none, some 0x1010) := rfl

/-- With the base register known to be 8, the pointer is null before the index is added. -/
example (m : St) : (opAddrD {} (fun r => if r = 3 then .int 8 else .var) 0
    ({ m with gp := fun r => if r = 3 then some 8 else some 0x2 })
    { base := .reg 3, idx := some (1, 2), off := -8 }) = some (.none, some 8) := rfl

end Spec

end Verif.X86

namespace Verif.RV64

open Verif.IR

/-- `Addr`, /repo/src/rv64/lifter.cc:66-80, in detail; x0 reads as the constant 0. -/
def addrD (c : X86.AddrCfg) (K : Nat → X86.Known) (s : St) (i : Frv) : Val 64 :=
  match (if i.rs1 = 0 then .int 0 else K i.rs1 : X86.Known) with
  | .int v => some (X86.addrConst c (v + i.imm64))
  | .expr => IR.add (loadGp s i.rs1 64) (some i.imm64)
  | .var => if i.imm ≠ 0 then X86.gep 1 (loadGp s i.rs1 64) (some i.imm64) else loadGp s i.rs1 64

/-- **C56, RV64**: whatever the lifter knows about registers and whether or not a global base is set,
the address of an access is the same. -/
theorem C56_rv64_address {c : X86.AddrCfg} (hc : X86.Spec.GlobalOk c) {K : Nat → X86.Known} {s : St}
    (hK : ∀ r v, K r = .int v → s.gp r = some v) (i : Frv) : addrD c K s i = addr s i := by
  have ht : ∀ (x : Val 64), trunc 64 x = x := by
    intro x; cases x <;> simp [trunc, IR.un]
  unfold addrD addr
  by_cases h0 : i.rs1 = 0
  · simp only [h0, if_true, X86.Spec.addrConst_ok hc, loadGp]
    rfl
  · simp only [if_neg h0, loadGp, ht]
    cases hk : K i.rs1 with
    | int v => simp only [X86.Spec.addrConst_ok hc, hK _ _ hk]; rfl
    | expr => rfl
    | var =>
      simp only
      split
      · cases s.gp i.rs1 <;> simp [X86.gep, IR.add, IR.mul, IR.bin]
      · next h =>
        have : i.imm64 = 0 := by
          simp only [ne_eq, Decidable.not_not] at h
          simp [Frv.imm64, h]
        rw [this]
        cases s.gp i.rs1 <;> simp [IR.add, IR.bin]

/-- `ld x3, 16(x5)` where x5 is known to be 0x1000, with a global base at 0x800. -/
example (s : St) :
    addrD { globalBase := some (0x800#64, 0x800#64) } (fun r => if r = 5 then .int 0x1000#64 else .var) s
      ⟨.ld, 3, 5, 0, 16, 0, 7⟩ = some 0x1010#64 := rfl

end Verif.RV64
