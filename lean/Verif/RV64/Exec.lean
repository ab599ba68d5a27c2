import Verif.RV64.Static

/-!
The RV64 machine step: one function from the per-class specifications, and the theorem that the code
of every modelled instruction does the same.
-/

namespace Verif.RV64

set_option linter.unusedSimpArgs false

open Verif.IR

namespace Spec

/-- Writing a floating-point register and advancing the pc. -/
def State.wrF (s : State) (rd : Nat) (v : BitVec 64) (len : Nat) : State :=
  { s with fp := fun k => if k = rd then v else s.fp k, pc := s.pc + BitVec.ofNat 64 len }

/-- Writing memory and advancing the pc. -/
def State.wrM (s : State) (a : BitVec 64) (n : Nat) (v : BitVec (8 * n)) (len : Nat) : State :=
  { s with mem := s.mem.write a n v, pc := s.pc + BitVec.ofNat 64 len }

/-- Instructions that are not covered by the tables of values. -/
def execOther (i : Frv) (len : Nat) (s : State) : Option State :=
  let a := s.x i.rs1 + i.imm.signExtend 64
  match i.mnem with
  | .jal | .jalr => some (jump i len s)
  | .lrw => some (s.wr i.rd ((s.mem.read (s.x i.rs1) 4).signExtend 64) len)
  | .lrd => some (s.wr i.rd ((s.mem.read (s.x i.rs1) 8).signExtend 64) len)
  | .scw => some ({ s with mem := s.mem.write (s.x i.rs1) 4 ((s.x i.rs2).setWidth (8 * 4)) }.wr i.rd 0#64 len)
  | .scd => some ({ s with mem := s.mem.write (s.x i.rs1) 8 ((s.x i.rs2).setWidth (8 * 8)) }.wr i.rd 0#64 len)
  | .fence => some { s with pc := s.pc + BitVec.ofNat 64 len }
  | .fld => some (s.wrF i.rd (s.mem.read a 8) len)
  | .fsd => some (s.wrM a 8 (s.fp i.rs2) len)
  | .fsw => some (s.wrM a 4 ((s.fp i.rs2).setWidth 32) len)
  | .fmvdx => some (s.wrF i.rd (s.x i.rs1) len)
  | .fmvxd => some (s.wr i.rd (s.fp i.rs1) len)
  | .fmvxw => some (s.wr i.rd (((s.fp i.rs1).setWidth 32).signExtend 64) len)
  | .fsgnjd | .fsgnjnd | .fsgnjxd => some (s.wrF i.rd (sgnj (w := 63) i.mnem (s.fp i.rs1) (s.fp i.rs2)) len)
  | _ => none

/-- One step of an RV64 hart without interrupts on a decoded instruction of `len` bytes.  `none` for
instructions whose effect is left to the environment or that are not specified here (`ECALL`, CSR
accesses); single-precision register writes and floating-point arithmetic are added by `Spec.execF`.  `SC` always succeeds, which
the ISA allows only after a matching `LR`. -/
def exec (i : Frv) (len : Nat) (s : State) : Option State :=
  let x := s.x i.rs1
  let y := s.x i.rs2
  let imm := i.imm.signExtend 64
  match aluVal i.mnem x y imm s.pc with
  | some v => some (s.wr i.rd v len)
  | none =>
  match divVal i.mnem x y with
  | some v => some (s.wr i.rd v len)
  | none =>
  match bitVal i.mnem x y imm with
  | some v => some (s.wr i.rd v len)
  | none =>
  match taken i.mnem x y with
  | some t => some { s with pc := if t then s.pc + imm else s.pc + BitVec.ofNat 64 len }
  | none =>
  match loadKind i.mnem with
  | some (n, signed) => some (s.wr i.rd
      (let v := s.mem.read (x + imm) n
       if signed then v.signExtend 64 else v.setWidth 64) len)
  | none =>
  match storeKind i.mnem with
  | some n => some { s with
      mem := s.mem.write (x + imm) n (y.setWidth (8 * n))
      pc := s.pc + BitVec.ofNat 64 len }
  | none =>
  match amoKind i.mnem with
  | some ⟨n, f⟩ => some
      (let old := s.mem.read x n
       { s with mem := s.mem.write x n (f old (y.setWidth (8 * n))) }.wr i.rd (old.signExtend 64) len)
  | none => execOther i len s

/-- Number of bytes of a memory access and whether the immediate is part of the address. -/
def access (m : Mnem) : Option (Nat × Bool) :=
  match loadKind m with
  | some (n, _) => some (n, true)
  | none =>
  match storeKind m with
  | some n => some (n, true)
  | none =>
  match amoKind m with
  | some ⟨n, _⟩ => some (n, false)
  | none =>
  match m with
  | .fld | .fsd => some (8, true)
  | .fsw => some (4, true)
  | .lrw | .scw => some (4, false)
  | .lrd | .scd => some (8, false)
  | _ => none

/-- Does a memory access of the instruction have a naturally aligned address? -/
def aligned (i : Frv) (s : State) : Bool :=
  match access i.mnem with
  | none => true
  | some (n, withImm) =>
    decide ((if withImm then s.x i.rs1 + i.imm.signExtend 64 else s.x i.rs1).toNat % n = 0)

end Spec

/-- The decoder produces operands that exist: `frvdec` gives 5-bit register numbers, `JAL` has no
`rs1`, `JALR` has one, shift amounts and AMO ordering bits are in range. -/
def Decoded (i : Frv) : Prop :=
  i.rd < 32 ∧ (i.mnem = .jal → i.rs1 = regInv) ∧ (i.mnem = .jalr → i.rs1 ≠ regInv) ∧
  (i.mnem = .slliuw → i.imm.toNat < 64) ∧ ((Spec.amoKind i.mnem).isSome = true → i.imm.toNat < 4)

instance (i : Frv) : Decidable (Decoded i) := by unfold Decoded; infer_instance

/-- The situations in which the lifter is known to deviate from the ISA do not occur: signed division
by -1 (`C28_div_counterexample`), `CLMULR` with bit 63 (`C29_clmulr_counterexample`), `JALR` to an odd
address (`C31_jalr_counterexample`), misaligned accesses (`C43_misaligned_counterexample`), and `SC`
with `rd` among its operands (`C43_sc_counterexample`). -/
def NoDefect (i : Frv) (s : Spec.State) : Prop :=
  (i.mnem = .div → s.x i.rs2 = BitVec.allOnes 64 →
    s.x i.rs1 = BitVec.intMin 64 ∨ s.x i.rs1 = 0#64) ∧
  (i.mnem = .divw → (s.x i.rs2).setWidth 32 = BitVec.allOnes 32 →
    (s.x i.rs1).setWidth 32 = BitVec.intMin 32 ∨ (s.x i.rs1).setWidth 32 = 0#32) ∧
  (i.mnem = .clmulr → (s.x i.rs2).getLsbD 63 = false) ∧
  (i.mnem = .jalr → (s.x i.rs1 + i.imm.signExtend 64).getLsbD 0 = false) ∧
  Spec.aligned i s = true ∧
  ((i.mnem = .scw ∨ i.mnem = .scd) → i.rd ≠ 0 → i.rd ≠ i.rs1 ∧ i.rd ≠ i.rs2)

instance (i : Frv) (s : Spec.State) : Decidable (NoDefect i s) := by unfold NoDefect; infer_instance

theorem aligned_imm {i : Frv} {s : Spec.State} (h : Spec.aligned i s = true) {n : Nat}
    (ha : Spec.access i.mnem = some (n, true)) :
    (s.x i.rs1 + i.imm.signExtend 64).toNat % n = 0 := by
  unfold Spec.aligned at h
  rw [ha] at h
  simpa using h

theorem aligned_reg {i : Frv} {s : Spec.State} (h : Spec.aligned i s = true) {n : Nat}
    (ha : Spec.access i.mnem = some (n, false)) : (s.x i.rs1).toNat % n = 0 := by
  unfold Spec.aligned at h
  rw [ha] at h
  simpa using h

/-- The code of every instruction makes the step of the machine. -/
theorem lift_exec (slide : BitVec 64) (i : Frv) (start : BitVec 64) (len : Nat) (m : St)
    (s s' : Spec.State) (hr : Rel slide m s) (hs : s.pc = start + slide)
    (hd : Decoded i) (hn : NoDefect i s) (he : Spec.exec i len s = some s') :
    ∃ m', lift {} slide i start len m = some { st := m' } ∧ Rel slide m' s' := by
  obtain ⟨-, d1, d2, d3, d4⟩ := hd
  obtain ⟨n1, n2, n3, n4, n5, n6⟩ := hn
  unfold Spec.exec at he
  simp only at he
  cases h1 : Spec.aluVal i.mnem (s.x i.rs1) (s.x i.rs2) (i.imm.signExtend 64) s.pc with
  | some v => rw [h1] at he; cases he; exact C27_rv64_alu _ _ _ _ _ _ _ _ hr hs h1
  | none =>
  rw [h1] at he; simp only at he; clear h1
  cases h2 : Spec.divVal i.mnem (s.x i.rs1) (s.x i.rs2) with
  | some v => rw [h2] at he; cases he; exact C28_rv64_div_partial _ _ _ _ _ _ _ _ hr hs n1 n2 h2
  | none =>
  rw [h2] at he; simp only at he; clear h2
  cases h3 : Spec.bitVal i.mnem (s.x i.rs1) (s.x i.rs2) (i.imm.signExtend 64) with
  | some v => rw [h3] at he; cases he; exact C29_rv64_bitmanip_partial _ _ _ _ _ _ _ _ hr hs d3 n3 h3
  | none =>
  rw [h3] at he; simp only at he; clear h3
  cases h4 : Spec.taken i.mnem (s.x i.rs1) (s.x i.rs2) with
  | some t => rw [h4] at he; cases he; exact C31_rv64_branch _ _ _ _ _ _ _ _ hr hs h4
  | none =>
  rw [h4] at he; simp only at he; clear h4
  cases h5 : Spec.loadKind i.mnem with
  | some p =>
    obtain ⟨n, sg⟩ := p
    rw [h5] at he; cases he
    exact C43_rv64_load_partial _ _ _ _ _ _ _ _ _ hr hs h5
      (aligned_imm n5 (by simp only [Spec.access, h5]))
  | none =>
  rw [h5] at he; simp only at he
  cases h6 : Spec.storeKind i.mnem with
  | some n =>
    rw [h6] at he; cases he
    exact C43_rv64_store_partial _ _ _ _ _ _ _ _ hr hs h6
      (aligned_imm n5 (by simp only [Spec.access, h5, h6]))
  | none =>
  rw [h6] at he; simp only at he
  cases h7 : Spec.amoKind i.mnem with
  | some p =>
    obtain ⟨n, f⟩ := p
    rw [h7] at he; cases he
    exact C43_rv64_amo _ _ _ _ _ _ _ _ _ hr hs h7 (d4 (by rw [h7]; rfl))
      (aligned_reg n5 (by simp only [Spec.access, h5, h6, h7]))
  | none =>
  rw [h7] at he; simp only at he
  have hfm := C44_rv64_fmove {} slide i start len m s hr hs
  simp only at hfm
  obtain ⟨f1, f2, f3, f4, f5, f6⟩ := hfm
  have hacc : Spec.access i.mnem = (match i.mnem with
      | .fld | .fsd => some (8, true)
      | .fsw => some (4, true)
      | .lrw | .scw => some (4, false)
      | .lrd | .scd => some (8, false)
      | _ => none) := by
    simp only [Spec.access, h5, h6, h7]
  cases hmn : i.mnem <;> simp only [Spec.execOther, hmn, reduceCtorEq] at he <;> rw [hmn] at hacc <;>
    simp only [Option.some.injEq] at he <;> try subst he
  · -- jal
    obtain ⟨m', h1, h2, -⟩ := C31_rv64_jump_partial {} slide i start len m s hr hs
      (.inl ⟨hmn, d1 hmn⟩) (by rw [hmn]; simp)
    exact ⟨m', h2 rfl, h1⟩
  · obtain ⟨m', h1, h2, -⟩ := C31_rv64_jump_partial {} slide i start len m s hr hs
      (.inr ⟨hmn, d2 hmn⟩) n4
    exact ⟨m', h2 rfl, h1⟩
  · exact C43_rv64_lr _ _ _ _ _ _ _ 4 hr hs (.inl ⟨hmn, rfl⟩) (aligned_reg n5 (by rw [hmn, hacc]))
  · exact C43_rv64_lr _ _ _ _ _ _ _ 8 hr hs (.inr ⟨hmn, rfl⟩) (aligned_reg n5 (by rw [hmn, hacc]))
  · exact C43_rv64_sc_partial _ _ _ _ _ _ _ 4 hr hs (.inl ⟨hmn, rfl⟩)
      (aligned_reg n5 (by rw [hmn, hacc])) (n6 (.inl hmn))
  · exact C43_rv64_sc_partial _ _ _ _ _ _ _ 8 hr hs (.inr ⟨hmn, rfl⟩)
      (aligned_reg n5 (by rw [hmn, hacc])) (n6 (.inr hmn))
  · -- fence
    have h : liftPlain slide i { m with pc := .const start } = some (some { m with pc := .const start }) := by
      simp only [liftPlain, hmn]
    have := lift_rel (cfg := {}) (len := len) h (regRel_pc hr.1 _)
    rwa [← hs] at this
  · exact f3 hmn (aligned_imm n5 (by rw [hmn, hacc]))
  · exact f1 hmn (aligned_imm n5 (by rw [hmn, hacc]))
  · exact f2 hmn (aligned_imm n5 (by rw [hmn, hacc]))
  · exact f6 hmn
  · exact f5 hmn
  · exact f4 hmn
  · rw [← hmn]
    exact C44_rv64_fsgnjd _ _ _ _ _ _ _ hr hs (.inl hmn)
  · rw [← hmn]
    exact C44_rv64_fsgnjd _ _ _ _ _ _ _ hr hs (.inr (.inl hmn))
  · rw [← hmn]
    exact C44_rv64_fsgnjd _ _ _ _ _ _ _ hr hs (.inr (.inr hmn))

end Verif.RV64
