import Verif.RV64.Props

/-! Properties of the RV64 lifter: control flow (C31), loads, stores and atomics (C43), and
floating-point moves and classification (C44). -/

namespace Verif.RV64

set_option linter.unusedSimpArgs false

open Verif.IR

theorem add_slide (a b slide : BitVec 64) : a + b + slide = a + slide + b := by
  rw [BitVec.add_assoc, BitVec.add_comm b, ← BitVec.add_assoc]

/-! ### C31: branches, jumps, calls and returns -/

/-- **C31** (RV64 conditional branches) The pc after a branch is the target exactly if the condition
holds, otherwise the next instruction; nothing else changes. -/
theorem C31_rv64_branch (cfg : Cfg) (slide : BitVec 64) (i : Frv) (start : BitVec 64) (len : Nat)
    (m : St) (s : Spec.State) (t : Bool)
    (hr : Rel slide m s) (hs : s.pc = start + slide)
    (ht : Spec.taken i.mnem (s.x i.rs1) (s.x i.rs2) = some t) :
    ∃ m', lift cfg slide i start len m = some { st := m' } ∧
      Rel slide m' { s with pc := if t then s.pc + i.imm.signExtend 64
                                  else s.pc + BitVec.ofNat 64 len } := by
  have hr' : RegRel { m with pc := .const start } s := hr.1
  have hb : ∀ p : Pred, p.eval (s.x i.rs1) (s.x i.rs2) = t →
      Rel slide (liftBranch { m with pc := .const start } i start (start + BitVec.ofNat 64 len) p)
        { s with pc := if t then s.pc + i.imm.signExtend 64 else s.pc + BitVec.ofNat 64 len } := by
    intro p hp
    refine ⟨hr.1, ?_⟩
    simp only [liftBranch, loadGp64_rel hr', ir, Frv.imm64, hp, hs]
    cases t <;> simp [add_slide]
  rcases i with ⟨mn, rd, rs1, rs2, imm, rs3, misc⟩
  cases mn <;> simp only [Spec.taken, Option.some.injEq, reduceCtorEq] at ht <;>
    refine ⟨_, rfl, hb _ ?_⟩ <;> rw [← ht] <;> simp only [Pred.eval]
  · rw [Bool.eq_iff_iff]; simp
  · rw [Bool.eq_iff_iff]; simp
  · rfl
  · rfl
  · rfl
  · rfl

example : ∃ m', lift {} 0x10#64 ⟨.bltu, 0, 1, 2, -8, 0, 7⟩ 0x400000#64 4 (exSt 0x400010#64)
      = some { st := m' } ∧
    Rel 0x10#64 m' { exSpec 0x400010#64 with pc := 0x400008#64 } :=
  C31_rv64_branch _ _ _ _ _ _ _ true (exRel _ _) (by decide) (by decide)

/-- The state the emitted code of a jump has after computing target and link register. -/
theorem jump_rel {slide start : BitVec 64} {m : St} {s : Spec.State} (hr : RegRel m s)
    (hs : s.pc = start + slide) (rd len : Nat) (p : Pc) (pc : BitVec 64)
    (hp : p.val slide = some pc) :
    Rel slide (storeGp { m with pc := p } rd
        ((Pc.const start).get slide (BitVec.ofNat 64 len)))
      { s.setX rd (s.pc + BitVec.ofNat 64 len) with pc := pc } := by
  have h1 : (Pc.const start).get slide (BitVec.ofNat 64 len)
      = some (s.pc + BitVec.ofNat 64 len) := by
    simp only [Pc.get, addrPCBase, hs, add_slide]
  rw [h1]
  refine ⟨storeGp64_rel (regRel_pc hr p) rd _, ?_⟩
  have : (storeGp { m with pc := p } rd (some (s.pc + BitVec.ofNat 64 len))).pc = p := by
    unfold storeGp; split <;> rfl
  rw [this, hp]

/-- What a jump instruction must do architecturally. -/
def Spec.jump (i : Frv) (len : Nat) (s : Spec.State) : Spec.State :=
  if i.mnem = .jalr then Spec.jalr s i.rd i.rs1 (i.imm.signExtend 64) len
  else Spec.jal s i.rd (i.imm.signExtend 64) len

/-- The registers the RISC-V ABI uses for return addresses. -/
def Spec.link (r : Nat) : Prop := r = 1 ∨ r = 5

instance (r : Nat) : Decidable (Spec.link r) := inferInstanceAs (Decidable (r = 1 ∨ r = 5))

/-- Return-address-stack hints of the ISA manual: pop without push is a return ... -/
def Spec.isReturn (i : Frv) : Prop := i.mnem = .jalr ∧ ¬ Spec.link i.rd ∧ Spec.link i.rs1
/-- ... and push without pop is a call. -/
def Spec.isCall (i : Frv) : Prop :=
  Spec.link i.rd ∧ (i.mnem = .jalr → ¬ Spec.link i.rs1 ∨ i.rs1 = i.rd)

/-- **C31** (RV64 jumps, partial) `JAL` and `JALR` write the return address to `rd` and go to the
target computed from the *old* `rs1`.  A jump that is a return by the ABI hints returns from the
lifted function, a call is passed to the configured call function in exactly the architectural
state after the jump, with the pc checked against the return address afterwards; the run-time pc
after the call is what the callee left.  Missing: `JALR` with an odd `rs1 + imm`, where the code
does not clear bit 0 (`C31_jalr_counterexample`). -/
theorem C31_rv64_jump_partial (cfg : Cfg) (slide : BitVec 64) (i : Frv) (start : BitVec 64) (len : Nat)
    (m : St) (s : Spec.State)
    (hr : Rel slide m s) (hs : s.pc = start + slide)
    (hm : (i.mnem = .jal ∧ i.rs1 = regInv) ∨ (i.mnem = .jalr ∧ i.rs1 ≠ regInv))
    (heven : i.mnem = .jalr → (s.x i.rs1 + i.imm.signExtend 64).getLsbD 0 = false) :
    ∃ m', Rel slide m' (Spec.jump i len s) ∧
      (cfg.callFunction = none → lift cfg slide i start len m = some { st := m' }) ∧
      (∀ f, cfg.callFunction = some f →
        (Spec.isReturn i → lift cfg slide i start len m = some { st := m', returned := true }) ∧
        (¬ Spec.isReturn i → ¬ Spec.isCall i →
          lift cfg slide i start len m = some { st := m' }) ∧
        (Spec.isCall i →
          lift cfg slide i start len m
            = (f { m' with pc := .value (some (Spec.jump i len s).pc) }).map (fun r =>
                { st := { r with pc := .check ((Pc.value (r.pc.val slide)).val slide)
                                    (start + BitVec.ofNat 64 len) } }))) := by
  have hr' : RegRel { m with pc := .const start } s := hr.1
  -- the state after the common part
  obtain ⟨p, hp, hpv⟩ : ∃ p : Pc, (if i.rs1 ≠ regInv then
        ({ m with pc := .value (IR.add (loadGp { m with pc := .const start } i.rs1 64)
          (some i.imm64)) } : St)
      else { m with pc := .const (start + i.imm64) }) = { m with pc := p } ∧
      p.val slide = some (Spec.jump i len s).pc := by
    rcases hm with ⟨h1, h2⟩ | ⟨h1, h2⟩
    · refine ⟨.const (start + i.imm64), by simp [h2], ?_⟩
      simp only [Spec.jump, h1, ir, reduceCtorEq, if_false, Spec.jal, hs, Frv.imm64, add_slide]
    · refine ⟨_, by rw [if_pos h2], ?_⟩
      simp only [loadGp64_rel hr', ir, Spec.jump, h1, if_true, Spec.jalr, Frv.imm64]
      congr 1
      have := heven h1
      apply BitVec.eq_of_getLsbD_eq
      intro k hk
      rw [BitVec.getLsbD_and, BitVec.getLsbD_not, BitVec.getLsbD_one]
      by_cases h0 : k = 0
      · subst h0; rw [this]; rfl
      · simp [hk, h0]
  have hrel : Rel slide (storeGp { m with pc := p } i.rd
      ((Pc.const start).get slide (BitVec.ofNat 64 len))) (Spec.jump i len s) := by
    have h := jump_rel hr.1 hs i.rd len p _ hpv
    have e : Spec.jump i len s = { s.setX i.rd (s.pc + BitVec.ofNat 64 len) with
        pc := (Spec.jump i len s).pc } := by
      unfold Spec.jump Spec.jalr Spec.jal; split <;> rfl
    rw [e]; exact h
  have hl : lift cfg slide i start len m
      = liftJal cfg slide i start (start + BitVec.ofNat 64 len) len { m with pc := .const start } := by
    rcases i with ⟨mn, rd, rs1, rs2, imm, rs3, misc⟩
    rcases hm with ⟨h1, _⟩ | ⟨h1, _⟩ <;> (simp only at h1; subst h1; rfl)
  have hst : jalState slide i start len { m with pc := .const start }
      = storeGp { m with pc := p } i.rd ((Pc.const start).get slide (BitVec.ofNat 64 len)) := by
    rw [← hp]; rfl
  rw [← hst] at hrel
  have hlink : ∀ r, isLink r = true ↔ Spec.link r := by
    intro r; unfold isLink Spec.link; simp
  have hinv : ¬ Spec.link regInv := by decide
  refine ⟨_, hrel, ?_, ?_⟩
  · intro hc
    rw [hl, liftJal, jalFinish, hc]
  · intro f hf
    simp only [hl, liftJal, jalFinish, hf]
    refine ⟨?_, ?_, ?_⟩
    · rintro ⟨_, h2, h3⟩
      rw [← hlink] at h2 h3
      rw [if_pos (by simp [h2, h3])]
    · intro h1 h2
      have a1 : (!isLink i.rd && isLink i.rs1) = false := by
        rcases hm with ⟨hj, hreg⟩ | ⟨hj, hreg⟩
        · have : isLink i.rs1 = false := by rw [hreg]; rfl
          simp [this]
        · rw [Bool.eq_false_iff]
          intro hh
          rw [Bool.and_eq_true, Bool.not_eq_true', ← Bool.not_eq_true, hlink, hlink] at hh
          exact h1 ⟨hj, hh.1, hh.2⟩
      have a2 : (isLink i.rd && (!isLink i.rs1 || i.rs1 == i.rd)) = false := by
        rw [Bool.eq_false_iff]
        intro hh
        rw [Bool.and_eq_true, Bool.or_eq_true, Bool.not_eq_true', ← Bool.not_eq_true, hlink, hlink,
          beq_iff_eq] at hh
        exact h2 ⟨hh.1, fun _ => hh.2⟩
      simp only [a1, a2, Bool.false_eq_true, if_false]
    · rintro ⟨h1, h2⟩
      have a0 : isLink i.rd = true := (hlink _).mpr h1
      have a2 : (!isLink i.rs1 || i.rs1 == i.rd) = true := by
        rcases hm with ⟨hj, hreg⟩ | ⟨hj, hreg⟩
        · have : isLink i.rs1 = false := by rw [hreg]; rfl
          simp [this]
        · rw [Bool.or_eq_true, Bool.not_eq_true', ← Bool.not_eq_true, hlink, beq_iff_eq]
          exact h2 hj
      simp only [a0, a2, Bool.not_true, Bool.false_and, Bool.false_eq_true, if_false, Bool.and_self,
        if_true]
      unfold callExt
      rw [hrel.2, Option.map_map]
      rfl

/-- `jalr x1, 3(x1)` with `x1 = 5`: link and target register are the same. -/
example : ∃ m', Rel 0#64 m' { (exSpec 0x400000#64).setX 1 0x400004#64 with pc := 8#64 } ∧
    lift {} 0#64 ⟨.jalr, 1, 1, 0, 3, 0, 7⟩ 0x400000#64 4 (exSt 0x400000#64) = some { st := m' } := by
  obtain ⟨m', h1, h2, _⟩ := C31_rv64_jump_partial {} 0#64 ⟨.jalr, 1, 1, 0, 3, 0, 7⟩ 0x400000#64 4
    (exSt 0x400000#64) (exSpec 0x400000#64) (exRel _ _) (by decide) (Or.inr ⟨rfl, by decide⟩)
    (by decide)
  exact ⟨m', h1, h2 rfl⟩

/-- **C31 is false for odd targets**: `jalr x0, 0(x1)` with `x1 = 5` must go to 4; the lifted code
goes to 5. -/
theorem C31_jalr_counterexample :
    (lift {} 0#64 ⟨.jalr, 0, 1, 0, 0, 0, 7⟩ 0x400000#64 4 (exSt 0x400000#64)).map
      (fun o => o.st.pc.val 0#64) = some (some 5#64) ∧
    (Spec.jump ⟨.jalr, 0, 1, 0, 0, 0, 7⟩ 4 (exSpec 0x400000#64)).pc = 4#64 := by
  decide +kernel

/-- **C31** (RV64 `ECALL`) without position-independent code: execution continues after the
instruction, in the state the system call function leaves. -/
theorem C31_rv64_ecall (cfg : Cfg) (i : Frv) (start : BitVec 64) (len : Nat)
    (m : St) (s : Spec.State) (hr : Rel 0#64 m s) (hs : s.pc = start)
    (hm : i.mnem = .ecall) (hi : i.imm = 0#32) :
    ∃ m', Rel 0#64 m' { s with pc := s.pc + BitVec.ofNat 64 len } ∧
      (cfg.syscall = none → lift cfg 0#64 i start len m = some { st := m' }) ∧
      (∀ f, cfg.syscall = some f → lift cfg 0#64 i start len m = (f m').map (fun r =>
        { st := { r with pc := .value (r.pc.val 0#64) } })) := by
  rcases i with ⟨mn, rd, rs1, rs2, imm, rs3, misc⟩
  simp only at hm hi
  subst hm; subst hi
  refine ⟨{ m with pc := .value (some (start + BitVec.ofNat 64 len)) }, ⟨hr.1, ?_⟩, ?_, ?_⟩
  · simp [ir, hs]
  · intro hc
    simp [lift, liftEcall, hc]
  · intro f hf
    simp only [lift, liftEcall, hf, callExt, if_true, ir]
    cases f { m with pc := .value (some (start + BitVec.ofNat 64 len)) } <;> rfl

example : ∃ m', lift {} 0#64 ⟨.ecall, 0, 0, 0, 0, 0, 7⟩ 0x400000#64 4 (exSt 0x400000#64) = some { st := m' } ∧
    Rel 0#64 m' (exSpec 0x400004#64) := by
  obtain ⟨m', h1, h2, _⟩ := C31_rv64_ecall {} ⟨.ecall, 0, 0, 0, 0, 0, 7⟩ 0x400000#64 4
    (exSt 0x400000#64) (exSpec 0x400000#64) (exRel _ _) rfl rfl rfl
  exact ⟨m', h2 rfl, h1⟩

/-- **C36 is false for `ECALL`**: with the code loaded 0x1000 bytes above its link address the pc
after the instruction is the link-time address. -/
theorem C36_ecall_counterexample :
    (lift {} 0x1000#64 ⟨.ecall, 0, 0, 0, 0, 0, 7⟩ 0x400000#64 4 (exSt 0x401000#64)).map
      (fun o => o.st.pc.val 0x1000#64) = some (some 0x400004#64) := by
  decide +kernel

/-- **C36 is false for unhandled instructions**: the lifter stores the link-time address of the
instruction as the pc to resume at. -/
theorem C36_unhandled_counterexample :
    (lift {} 0x1000#64 ⟨.unknown, 0, 0, 0, 0, 0, 7⟩ 0x400000#64 4 (exSt 0x401000#64)).map
      (fun o => (o.lifted, o.st.pc.val 0x1000#64)) = some (false, some 0x400000#64) := by
  decide +kernel

/-! ### C43: loads, stores, atomics -/

theorem loadN_rel {m : St} {s : Spec.State} (hr : RegRel m s) (a : BitVec 64) (n : Nat)
    (ha : a.toNat % n = 0) : loadN m (some a) n = some (some (s.mem.read a n)) := by
  simp only [loadN, ha, if_true, hr.2.2, ir]

theorem storeN_rel {m : St} {s : Spec.State} (hr : RegRel m s) (a : BitVec 64) (n : Nat)
    (v : BitVec (8 * n)) (ha : a.toNat % n = 0) :
    ∃ m', storeN m (some a) n (some v) = some m' ∧ RegRel m' { s with mem := s.mem.write a n v } := by
  refine ⟨{ m with mem := m.mem.write a n (some v) }, by simp only [storeN, ha, if_true],
    hr.1, hr.2.1, ?_⟩
  show m.mem.write a n (some v) = _
  rw [hr.2.2, VMem.write_toV]

/-- **C43** (loads, partial) A naturally aligned load reads the addressed little-endian bytes and
extends them as the mnemonic says.  Missing: misaligned addresses, for which the emitted load has
undefined behaviour (`C43_misaligned_counterexample`). -/
theorem C43_rv64_load_partial (cfg : Cfg) (slide : BitVec 64) (i : Frv) (start : BitVec 64) (len : Nat)
    (m : St) (s : Spec.State) (n : Nat) (signed : Bool)
    (hr : Rel slide m s) (hs : s.pc = start + slide)
    (hk : Spec.loadKind i.mnem = some (n, signed))
    (hal : (s.x i.rs1 + i.imm.signExtend 64).toNat % n = 0) :
    ∃ m', lift cfg slide i start len m = some { st := m' } ∧
      Rel slide m' (s.wr i.rd
        (let v := s.mem.read (s.x i.rs1 + i.imm.signExtend 64) n
         if signed then v.signExtend 64 else v.setWidth 64) len) := by
  have hr' : RegRel { m with pc := .const start } s := hr.1
  have h : liftPlain slide i { m with pc := .const start }
      = some (some (storeGp { m with pc := .const start } i.rd (some
        (let v := s.mem.read (s.x i.rs1 + i.imm.signExtend 64) n
         if signed then v.signExtend 64 else v.setWidth 64)))) := by
    rcases i with ⟨mn, rd, rs1, rs2, imm, rs3, misc⟩
    cases mn <;> simp only [Spec.loadKind, Option.some.injEq, reduceCtorEq, Prod.mk.injEq] at hk <;>
      obtain ⟨rfl, rfl⟩ := hk <;>
      simp only [liftPlain, liftLoad, addr, loadGp64_rel hr', Frv.imm64, ir,
        loadN_rel hr' _ _ hal, Option.map_some, if_true, Bool.false_eq_true, if_false]
  have := lift_rel (cfg := cfg) (len := len) h (storeGp64_rel hr' i.rd _)
  rwa [← hs] at this

/-- `lh x3, 3(x1)` with `x1 = 5`: address 8, bytes 0x80 0x80, sign-extended. -/
example : ∃ m', lift {} 0#64 ⟨.lh, 3, 1, 0, 3, 0, 7⟩ 0x400000#64 4 (exSt 0x400000#64)
      = some { st := m' } ∧
    Rel 0#64 m' ((exSpec 0x400000#64).wr 3 0xffffffffffff8080#64 4) :=
  C43_rv64_load_partial {} 0#64 ⟨.lh, 3, 1, 0, 3, 0, 7⟩ 0x400000#64 4 _ _ 2 true
    (exRel _ _) (by decide) rfl (by decide)

/-- The lifted code of a misaligned load or store has undefined behaviour: `lh x3, 0(x1)` with
`x1 = 5`, and the same for `sh`. -/
theorem C43_misaligned_counterexample :
    (lift {} 0#64 ⟨.lh, 3, 1, 0, 0, 0, 7⟩ 0x400000#64 4 (exSt 0x400000#64)).isNone ∧
    (lift {} 0#64 ⟨.sh, 3, 1, 2, 0, 0, 7⟩ 0x400000#64 4 (exSt 0x400000#64)).isNone := by
  decide +kernel

/-- **C43** (stores, partial) A naturally aligned store writes the low bytes of `rs2` to exactly the
addressed bytes.  Missing: misaligned addresses. -/
theorem C43_rv64_store_partial (cfg : Cfg) (slide : BitVec 64) (i : Frv) (start : BitVec 64) (len : Nat)
    (m : St) (s : Spec.State) (n : Nat)
    (hr : Rel slide m s) (hs : s.pc = start + slide)
    (hk : Spec.storeKind i.mnem = some n)
    (hal : (s.x i.rs1 + i.imm.signExtend 64).toNat % n = 0) :
    ∃ m', lift cfg slide i start len m = some { st := m' } ∧
      Rel slide m' { s with
        mem := s.mem.write (s.x i.rs1 + i.imm.signExtend 64) n ((s.x i.rs2).setWidth (8 * n))
        pc := s.pc + BitVec.ofNat 64 len } := by
  have hr' : RegRel { m with pc := .const start } s := hr.1
  obtain ⟨m', h1, h2⟩ := storeN_rel hr' (s.x i.rs1 + i.imm.signExtend 64) n
    ((s.x i.rs2).setWidth (8 * n)) hal
  have h : liftPlain slide i { m with pc := .const start } = some (some m') := by
    rcases i with ⟨mn, rd, rs1, rs2, imm, rs3, misc⟩
    cases mn <;> simp only [Spec.storeKind, Option.some.injEq, reduceCtorEq] at hk <;>
      subst hk <;>
      simp only [liftPlain, liftStore, addr, loadGp_rel hr' rs1, loadGp_rel hr' rs2, Frv.imm64, ir,
        BitVec.setWidth_eq] <;>
      simp only [BitVec.setWidth_eq] at h1 <;>
      rw [h1] <;> rfl
  have := lift_rel (cfg := cfg) (len := len) h h2
  rwa [← hs] at this

example : ∃ m', lift {} 0#64 ⟨.sw, 0, 1, 2, 3, 0, 7⟩ 0x400000#64 4 (exSt 0x400000#64)
      = some { st := m' } ∧
    Rel 0#64 m' { exSpec 0x400004#64 with
      mem := (exSpec 0#64).mem.write 8#64 4 0xffffffff#32 } :=
  C43_rv64_store_partial {} 0#64 ⟨.sw, 0, 1, 2, 3, 0, 7⟩ 0x400000#64 4 _ _ 4
    (exRel _ _) (by decide) rfl (by decide)

/-- **C43** (AMO) In a sequential execution an atomic memory operation on a naturally aligned
address (the ISA requires alignment) loads the old value, sign-extended, to `rd` and stores the
combination of the old value with `rs2`; `rs2` and `rs1` are read before `rd` is written. -/
theorem C43_rv64_amo (cfg : Cfg) (slide : BitVec 64) (i : Frv) (start : BitVec 64) (len : Nat)
    (m : St) (s : Spec.State) (n : Nat) (f : BitVec (8 * n) → BitVec (8 * n) → BitVec (8 * n))
    (hr : Rel slide m s) (hs : s.pc = start + slide)
    (hk : Spec.amoKind i.mnem = some ⟨n, f⟩)
    (himm : i.imm.toNat < 4)
    (hal : (s.x i.rs1).toNat % n = 0) :
    ∃ m', lift cfg slide i start len m = some { st := m' } ∧
      Rel slide m'
        (let old := s.mem.read (s.x i.rs1) n
         { s with mem := s.mem.write (s.x i.rs1) n (f old ((s.x i.rs2).setWidth (8 * n))) }.wr
            i.rd (old.signExtend 64) len) := by
  have hr' : RegRel { m with pc := .const start } s := hr.1
  obtain ⟨m', h1, h2⟩ := storeN_rel hr' (s.x i.rs1) n
    (f (s.mem.read (s.x i.rs1) n) ((s.x i.rs2).setWidth (8 * n))) hal
  have hamo : ∀ op : RmwOp, (∀ a b : BitVec (8 * n), op.eval (some a) (some b) = some (f a b)) →
      liftAmo { m with pc := .const start } i n op
        = some (storeGp m' i.rd (some (s.mem.read (s.x i.rs1) n))) := by
    intro op hop
    unfold liftAmo
    rw [if_pos (by omega)]
    simp only [loadGp64_rel hr', loadGp_rel hr', loadN_rel hr' _ _ hal, Option.bind_some, hop, h1,
      Option.map_some]
  have h : liftPlain slide i { m with pc := .const start }
      = some (some (storeGp m' i.rd (some (s.mem.read (s.x i.rs1) n)))) := by
    rcases i with ⟨mn, rd, rs1, rs2, imm, rs3, misc⟩
    cases mn <;> simp only [Spec.amoKind, Option.some.injEq, reduceCtorEq, Sigma.mk.injEq] at hk <;>
      obtain ⟨rfl, hf⟩ := hk <;> cases hf <;>
      simp only [liftPlain] <;>
      rw [hamo] <;> first
        | rfl
        | (intro a b; simp only [RmwOp.eval, ir, smax_le, smin_le, umax_le, umin_le])
  have := lift_rel (cfg := cfg) (len := len) h (storeGp_rel h2 i.rd _)
  rwa [← hs] at this

/-- `amomax.w x1, x1, (x4)`-like case with equal destination and value register. -/
example : ∃ m', lift {} 0#64 ⟨.amomaxw, 1, 0, 1, 3, 0, 7⟩ 0x400000#64 4 (exSt 0x400000#64)
      = some { st := m' } ∧
    Rel 0#64 m' ({ exSpec 0x400000#64 with mem := (exSpec 0#64).mem.write 0#64 4 5#32 }.wr 1
      0xffffffff80808080#64 4) :=
  C43_rv64_amo {} 0#64 ⟨.amomaxw, 1, 0, 1, 3, 0, 7⟩ 0x400000#64 4 _ _ 4
    (fun o v => if o.toInt ≤ v.toInt then v else o)
    (exRel _ _) (by decide) rfl (by decide) (by decide)

/-- **C43** (LR) `LR` on an aligned address loads and sign-extends. -/
theorem C43_rv64_lr (cfg : Cfg) (slide : BitVec 64) (i : Frv) (start : BitVec 64) (len : Nat)
    (m : St) (s : Spec.State) (n : Nat)
    (hr : Rel slide m s) (hs : s.pc = start + slide)
    (hm : (i.mnem = .lrw ∧ n = 4) ∨ (i.mnem = .lrd ∧ n = 8))
    (hal : (s.x i.rs1).toNat % n = 0) :
    ∃ m', lift cfg slide i start len m = some { st := m' } ∧
      Rel slide m' (s.wr i.rd ((s.mem.read (s.x i.rs1) n).signExtend 64) len) := by
  have hr' : RegRel { m with pc := .const start } s := hr.1
  have h : liftPlain slide i { m with pc := .const start }
      = some (some (storeGp { m with pc := .const start } i.rd (some (s.mem.read (s.x i.rs1) n)))) := by
    rcases i with ⟨mn, rd, rs1, rs2, imm, rs3, misc⟩
    rcases hm with ⟨h1, rfl⟩ | ⟨h1, rfl⟩ <;> simp only at h1 <;> subst h1 <;>
      simp only [liftPlain, loadGp64_rel hr', loadN_rel hr' _ _ hal, Option.map_some]
  have := lift_rel (cfg := cfg) (len := len) h (storeGp_rel hr' i.rd _)
  rwa [← hs] at this

/-- **C43** (SC, partial) A store-conditional stores `rs2` and reports success (0) in `rd`, if `rd`
is not also the address or value register.  Missing: overlapping registers, where the code writes
`rd` before it reads the operands (`C43_sc_counterexample`). -/
theorem C43_rv64_sc_partial (cfg : Cfg) (slide : BitVec 64) (i : Frv) (start : BitVec 64) (len : Nat)
    (m : St) (s : Spec.State) (n : Nat)
    (hr : Rel slide m s) (hs : s.pc = start + slide)
    (hm : (i.mnem = .scw ∧ n = 4) ∨ (i.mnem = .scd ∧ n = 8))
    (hal : (s.x i.rs1).toNat % n = 0)
    (hrd : i.rd ≠ 0 → i.rd ≠ i.rs1 ∧ i.rd ≠ i.rs2) :
    ∃ m', lift cfg slide i start len m = some { st := m' } ∧
      Rel slide m' ({ s with
        mem := s.mem.write (s.x i.rs1) n ((s.x i.rs2).setWidth (8 * n)) }.wr i.rd 0#64 len) := by
  have hr' : RegRel { m with pc := .const start } s := hr.1
  have hr2 : RegRel (storeGp { m with pc := .const start } i.rd (some 0#32)) (s.setX i.rd 0#64) :=
    storeGp_rel hr' i.rd 0#32
  have hx : ∀ r, (i.rd ≠ 0 → i.rd ≠ r) → (s.setX i.rd 0#64).x r = s.x r := by
    intro r h
    unfold Spec.State.setX Spec.State.x
    by_cases h0 : i.rd = 0
    · simp [h0]
    · simp [h0, Ne.symm (h h0)]
  have hx1 := hx i.rs1 (fun h => (hrd h).1)
  have hx2 := hx i.rs2 (fun h => (hrd h).2)
  obtain ⟨m', h1, h2⟩ := storeN_rel hr2 (s.x i.rs1) n ((s.x i.rs2).setWidth (8 * n)) hal
  have h : liftPlain slide i { m with pc := .const start } = some (some m') := by
    rcases i with ⟨mn, rd, rs1, rs2, imm, rs3, misc⟩
    rcases hm with ⟨hm, rfl⟩ | ⟨hm, rfl⟩ <;> simp only at hm <;> subst hm <;>
      simp only [liftPlain, loadGp_rel hr2, hx1, hx2, BitVec.setWidth_eq] <;>
      simp only [BitVec.setWidth_eq] at h1 <;>
      rw [h1] <;> rfl
  have := lift_rel (cfg := cfg) (len := len) h h2
  rw [← hs] at this
  have e : ({ s with mem := s.mem.write (s.x i.rs1) n ((s.x i.rs2).setWidth (8 * n)) } :
      Spec.State).wr i.rd 0#64 len = { s.setX i.rd 0#64 with
        mem := (s.setX i.rd 0#64).mem.write (s.x i.rs1) n ((s.x i.rs2).setWidth (8 * n))
        pc := s.pc + BitVec.ofNat 64 len } := by
    unfold Spec.State.wr Spec.State.setX; split <;> rfl
  rw [e]; exact this

example : ∃ m', lift {} 0#64 ⟨.scd, 3, 0, 1, 0, 0, 7⟩ 0x400000#64 4 (exSt 0x400000#64)
      = some { st := m' } ∧
    Rel 0#64 m' ({ exSpec 0x400000#64 with mem := (exSpec 0#64).mem.write 0#64 8 5#64 }.wr 3 0#64 4) :=
  C43_rv64_sc_partial {} 0#64 ⟨.scd, 3, 0, 1, 0, 0, 7⟩ 0x400000#64 4 _ _ 8
    (exRel _ _) (by decide) (Or.inr ⟨rfl, rfl⟩) (by decide) (by decide)

/-- **C43 is false for SC with `rd = rs2`**: `sc.d x1, x1, (x0)` with `x1 = 5` must store 5; the
lifted code stores 0. -/
theorem C43_sc_counterexample :
    (lift {} 0#64 ⟨.scd, 1, 0, 1, 0, 0, 7⟩ 0x400000#64 4 (exSt 0x400000#64)).map
      (fun o => o.st.mem.read 0#64 8) = some (some 0#64) := by
  decide +kernel

/-- **C43** (orderings) The `aq`/`rl` bits give the LLVM ordering that is at least as strong: bit 0
(`rl`) requires release, bit 1 (`aq`) requires acquire. -/
theorem C43_amo_ordering (imm : Nat) (h : imm < 4) :
    amoOrdering imm = some (match imm.testBit 1, imm.testBit 0 with
      | false, false => .monotonic
      | false, true => .release
      | true, false => .acquire
      | true, true => .seqCst) := by
  rcases imm with _ | _ | _ | _ | n
  · rfl
  · rfl
  · rfl
  · rfl
  · omega

/-! ### C44: floating-point moves -/

/-- **C44** (moves, double precision) `FLD`, `FSD`, `FMV.X.D`, `FMV.D.X` move all 64 bits and
`FSW`, `FMV.X.W` move the low 32 bits unchanged. -/
theorem C44_rv64_fmove (cfg : Cfg) (slide : BitVec 64) (i : Frv) (start : BitVec 64) (len : Nat)
    (m : St) (s : Spec.State)
    (hr : Rel slide m s) (hs : s.pc = start + slide) :
    let a := s.x i.rs1 + i.imm.signExtend 64
    let setF (v : BitVec 64) : Spec.State :=
      { s with fp := fun k => if k = i.rd then v else s.fp k, pc := s.pc + BitVec.ofNat 64 len }
    let setM (n : Nat) (v : BitVec (8 * n)) : Spec.State :=
      { s with mem := s.mem.write a n v, pc := s.pc + BitVec.ofNat 64 len }
    (i.mnem = .fld → a.toNat % 8 = 0 →
      ∃ m', lift cfg slide i start len m = some { st := m' } ∧ Rel slide m' (setF (s.mem.read a 8))) ∧
    (i.mnem = .fsd → a.toNat % 8 = 0 →
      ∃ m', lift cfg slide i start len m = some { st := m' } ∧ Rel slide m' (setM 8 (s.fp i.rs2))) ∧
    (i.mnem = .fsw → a.toNat % 4 = 0 →
      ∃ m', lift cfg slide i start len m = some { st := m' } ∧
        Rel slide m' (setM 4 ((s.fp i.rs2).setWidth 32))) ∧
    (i.mnem = .fmvdx → ∃ m', lift cfg slide i start len m = some { st := m' } ∧
        Rel slide m' (setF (s.x i.rs1))) ∧
    (i.mnem = .fmvxd → ∃ m', lift cfg slide i start len m = some { st := m' } ∧
        Rel slide m' (s.wr i.rd (s.fp i.rs1) len)) ∧
    (i.mnem = .fmvxw → ∃ m', lift cfg slide i start len m = some { st := m' } ∧
        Rel slide m' (s.wr i.rd (((s.fp i.rs1).setWidth 32).signExtend 64) len)) := by
  intro a setF setM
  have hr' : RegRel { m with pc := .const start } s := hr.1
  have hfp : ∀ v : BitVec 64, RegRel (storeFp { m with pc := .const start } i.rd (some v))
      { s with fp := fun k => if k = i.rd then v else s.fp k } := by
    intro v
    have := storeFp_rel hr' i.rd v
    rwa [BitVec.setWidth_eq] at this
  rcases i with ⟨mn, rd, rs1, rs2, imm, rs3, misc⟩
  refine ⟨?_, ?_, ?_, ?_, ?_, ?_⟩
  · rintro hm hal; simp only at hm; subst hm
    have h : liftPlain slide ⟨.fld, rd, rs1, rs2, imm, rs3, misc⟩ { m with pc := .const start } =
        some (some (storeFp { m with pc := .const start } rd (some (s.mem.read a 8)))) := by
      simp only [liftPlain, liftLoadFp, addr, loadGp64_rel hr', Frv.imm64, ir]
      rw [loadN_rel hr' _ _ hal]; rfl
    have := lift_rel (cfg := cfg) (len := len) h (hfp _)
    rwa [← hs] at this
  · rintro hm hal; simp only at hm; subst hm
    obtain ⟨m', h1, h2⟩ := storeN_rel hr' a 8 (s.fp rs2) hal
    have h : liftPlain slide ⟨.fsd, rd, rs1, rs2, imm, rs3, misc⟩ { m with pc := .const start } =
        some (some m') := by
      simp only [liftPlain, liftStoreFp, addr, loadGp64_rel hr', loadFp_rel hr', Frv.imm64, ir,
        BitVec.setWidth_eq]
      rw [h1]; rfl
    have := lift_rel (cfg := cfg) (len := len) h h2
    rwa [← hs] at this
  · rintro hm hal; simp only at hm; subst hm
    obtain ⟨m', h1, h2⟩ := storeN_rel hr' a 4 ((s.fp rs2).setWidth 32) hal
    have h : liftPlain slide ⟨.fsw, rd, rs1, rs2, imm, rs3, misc⟩ { m with pc := .const start } =
        some (some m') := by
      simp only [liftPlain, liftStoreFp, addr, loadGp64_rel hr', loadFp_rel hr', Frv.imm64, ir]
      rw [h1]; rfl
    have := lift_rel (cfg := cfg) (len := len) h h2
    rwa [← hs] at this
  · rintro hm; simp only at hm; subst hm
    have h : liftPlain slide ⟨.fmvdx, rd, rs1, rs2, imm, rs3, misc⟩ { m with pc := .const start } =
        some (some (storeFp { m with pc := .const start } rd (some (s.x rs1)))) := by
      simp only [liftPlain, loadGp64_rel hr']
    have := lift_rel (cfg := cfg) (len := len) h (hfp _)
    rwa [← hs] at this
  · rintro hm; simp only at hm; subst hm
    have h : liftPlain slide ⟨.fmvxd, rd, rs1, rs2, imm, rs3, misc⟩ { m with pc := .const start } =
        some (some (storeGp { m with pc := .const start } rd (some (s.fp rs1)))) := by
      simp only [liftPlain, loadFp_rel hr', BitVec.setWidth_eq]
    have := lift_rel (cfg := cfg) (len := len) h (storeGp64_rel hr' rd _)
    rwa [← hs] at this
  · rintro hm; simp only at hm; subst hm
    have h : liftPlain slide ⟨.fmvxw, rd, rs1, rs2, imm, rs3, misc⟩ { m with pc := .const start } =
        some (some (storeGp { m with pc := .const start } rd (some ((s.fp rs1).setWidth 32)))) := by
      simp only [liftPlain, loadFp_rel hr']
    have := lift_rel (cfg := cfg) (len := len) h (storeGp_rel hr' rd _)
    rwa [← hs] at this

/-- **C44** (single precision, partial) `FLW` and `FMV.W.X` put the 32-bit value into the low half of
the register.  Missing: the ISA requires the upper half to be all ones; the code leaves zeros
(`C44_nanbox_counterexample`). -/
theorem C44_rv64_fmove32_partial (cfg : Cfg) (slide : BitVec 64) (i : Frv) (start : BitVec 64)
    (len : Nat) (m : St) (s : Spec.State) (hr : Rel slide m s)
    (hm : i.mnem = .flw ∨ i.mnem = .fmvwx)
    (hal : i.mnem = .flw → (s.x i.rs1 + i.imm.signExtend 64).toNat % 4 = 0) :
    ∃ m' v, lift cfg slide i start len m = some { st := m' } ∧
      m'.fp = upd m.fp i.rd (some v) ∧ m'.gp = m.gp ∧ m'.mem = m.mem ∧
      v.setWidth 32 = (Spec.nanBox (if i.mnem = .flw then
        s.mem.read (s.x i.rs1 + i.imm.signExtend 64) 4 else (s.x i.rs1).setWidth 32)).setWidth 32 := by
  have hr' : RegRel { m with pc := .const start } s := hr.1
  have hbox : ∀ v : BitVec 32, (Spec.nanBox v).setWidth 32 = v := by
    intro v
    unfold Spec.nanBox
    apply BitVec.eq_of_getLsbD_eq
    intro k hk
    rw [BitVec.getLsbD_setWidth, BitVec.getLsbD_append]
    simp [hk]
  have hz : ∀ v : BitVec 32, ((v.setWidth 64).setWidth 32) = v := by
    intro v
    apply BitVec.eq_of_toNat_eq
    have := v.isLt
    rw [BitVec.toNat_setWidth, BitVec.toNat_setWidth]; omega
  rcases i with ⟨mn, rd, rs1, rs2, imm, rs3, misc⟩
  rcases hm with hm | hm <;> simp only at hm <;> subst hm
  · have h : liftPlain slide ⟨.flw, rd, rs1, rs2, imm, rs3, misc⟩ { m with pc := .const start } =
        some (some (storeFp { m with pc := .const start } rd
          (some (s.mem.read (s.x rs1 + imm.signExtend 64) 4)))) := by
      simp only [liftPlain, liftLoadFp, addr, loadGp64_rel hr', Frv.imm64, ir]
      rw [loadN_rel hr' _ _ (hal rfl)]; rfl
    refine ⟨_, (s.mem.read (s.x rs1 + imm.signExtend 64) 4).setWidth 64, lift_of_plain h, rfl, rfl, rfl, ?_⟩
    simp only [if_true, hbox]
    exact hz _
  · have h : liftPlain slide ⟨.fmvwx, rd, rs1, rs2, imm, rs3, misc⟩ { m with pc := .const start } =
        some (some (storeFp { m with pc := .const start } rd (some ((s.x rs1).setWidth 32)))) := by
      simp only [liftPlain, loadGp_rel hr']
    refine ⟨_, ((s.x rs1).setWidth 32).setWidth 64, lift_of_plain h, rfl, rfl, rfl, ?_⟩
    simp only [reduceCtorEq, if_false, hbox]
    exact hz _

/-- **C44 is false**: `fmv.w.x f3, x1` with `x1 = 5` must leave the NaN-boxed value. -/
theorem C44_nanbox_counterexample :
    (lift {} 0#64 ⟨.fmvwx, 3, 1, 0, 0, 0, 7⟩ 0x400000#64 4 (exSt 0x400000#64)).map (fun o => o.st.fp 3)
      = some (some 5#64) ∧ Spec.nanBox 5#32 = 0xffffffff00000005#64 := by
  decide +kernel

end Verif.RV64
