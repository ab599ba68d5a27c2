import Verif.RV64.FlowProps

/-! Properties of the RV64 lifter: control and status registers of the floating-point unit (C54). -/

namespace Verif.RV64

open Verif.IR

/-! ### Specification: Zicsr and the F extension -/

/-- CSRRW, CSRRS, CSRRC. -/
inductive CsrOp where
  | rw | rs | rc

/-- The part of fcsr a register number stands for: fflags, frm, fcsr. -/
def Spec.csrRead (n : BitVec 32) (f : BitVec 8) : Option (BitVec 64) :=
  if n = 1 then some ((f.extractLsb' 0 5).setWidth 64)
  else if n = 2 then some ((f.extractLsb' 5 3).setWidth 64)
  else if n = 3 then some (f.setWidth 64)
  else none

/-- fcsr after a write to fflags, frm or fcsr. -/
def Spec.csrWrite (n : BitVec 32) (f : BitVec 8) (v : BitVec 64) : BitVec 8 :=
  if n = 1 then f.extractLsb' 5 3 ++ v.extractLsb' 0 5
  else if n = 2 then v.extractLsb' 0 3 ++ f.extractLsb' 0 5
  else v.extractLsb' 0 8

/-- A CSR instruction on a hart with floating-point control and status register `f`; `imm` marks the forms
with a 5-bit immediate in place of rs1. -/
def Spec.csr (k : CsrOp) (imm : Bool) (i : Frv) (len : Nat) (s : Spec.State) (f : BitVec 8) :
    Option (Spec.State × BitVec 8) := do
  let old ← Spec.csrRead i.imm f
  let x := if imm then BitVec.ofNat 64 (i.rs1 % 32) else s.x i.rs1
  let new := match k with
    | .rw => x
    | .rs => old ||| x
    | .rc => old &&& ~~~x
  return (s.wr i.rd old len, Spec.csrWrite i.imm f new)

/-! ### C54 -/

/-- Accesses to fflags, frm and fcsr that leave the registers at their initial value 0 are right, for all six
CSR instructions (one case of the lifter).

Missing: writes of other values (`C54_rv64_counterexample`), which are ignored, and exception flags, which
are not recorded. -/
theorem C54_rv64_csr_partial (cfg : Cfg) (slide : BitVec 64) (k : CsrOp) (imm : Bool) (i : Frv)
    (start : BitVec 64) (len : Nat) (m : St) (s s' : Spec.State) (hr : Rel slide m s)
    (hs : s.pc = start + slide) (hm : i.mnem = .csr) (hv : Spec.csr k imm i len s 0 = some (s', 0)) :
    ∃ m', lift cfg slide i start len m = some { st := m' } ∧ Rel slide m' s' := by
  obtain ⟨old, h1, h2⟩ := Option.bind_eq_some_iff.1 hv
  simp only [pure, Option.some.injEq, Prod.mk.injEq] at h2
  obtain ⟨rfl, -⟩ := h2
  have hi : (i.imm = 1 ∨ i.imm = 2 ∨ i.imm = 3) ∧ old = 0 := by
    unfold Spec.csrRead at h1
    split at h1
    next h => cases h1; exact ⟨.inl h, by decide⟩
    · split at h1
      next h => cases h1; exact ⟨.inr (.inl h), by decide⟩
      · split at h1
        next h => cases h1; exact ⟨.inr (.inr h), by decide⟩
        · cases h1
  obtain ⟨hi, rfl⟩ := hi
  have h := lift_rel (cfg := cfg) (slide := slide) (i := i) (start := start) (len := len) (m := m)
    (m' := storeGp { m with pc := .const start } i.rd (some 0#32)) (s' := s.setX i.rd 0)
    (by simp only [liftPlain, hm]; exact if_pos hi) (by
      have := storeGp_rel (regRel_pc hr.1 (.const start)) i.rd 0#32
      exact this)
  rwa [← hs] at h

-- `fsrm x3, x0` and `frflags x3`
example : ∃ s', Spec.csr .rw false ⟨.csr, 3, 0, 0, 2, 0, 0⟩ 4 (exSpec 0x1000) 0 = some (s', 0) ∧ s'.gp 3 = 0 :=
  ⟨_, rfl, by decide⟩
example : ∃ s', Spec.csr .rs true ⟨.csr, 3, 0, 0, 1, 0, 0⟩ 4 (exSpec 0x1000) 0 = some (s', 0) := ⟨_, rfl⟩

/-- Accesses to all other control and status registers are left to the caller: the lifted code returns in
front of the instruction, without changing anything. -/
theorem C54_rv64_other (cfg : Cfg) (i : Frv) (start : BitVec 64) (len : Nat) (m : St) (s : Spec.State)
    (hr : Rel 0 m s) (hs : s.pc = start) (hm : i.mnem = .csr) (hi : ∀ f, Spec.csrRead i.imm f = none) :
    ∃ m', lift cfg 0 i start len m = some { st := m', lifted := false } ∧ Rel 0 m' s := by
  have hi : ¬ (i.imm = 1 ∨ i.imm = 2 ∨ i.imm = 3) := by
    have := hi 0
    unfold Spec.csrRead at this
    split at this
    · cases this
    · split at this
      · cases this
      · split at this
        · cases this
        next h1 h2 h3 => rintro (h | h | h) <;> contradiction
  refine ⟨{ m with pc := .value (some start) }, ?_, hr.1, ?_⟩
  · have : liftPlain 0 i { m with pc := .const start } = some none := by
      simp only [liftPlain, hm]; exact if_neg hi
    simp only [lift, hm, this, finishPlain]
  · rw [Pc.val_value, hs]

-- `rdcycle x3`
example : ∀ f, Spec.csrRead 0xc00 f = none := fun _ => rfl

/-- **C54 is false** for written values: after `fscsr x0, x2` with `x2 = -1` the hart reads 255 from fcsr,
the lifted code 0. -/
theorem C54_rv64_counterexample :
    ∃ s1 s2, Spec.csr .rw false ⟨.csr, 0, 2, 0, 3, 0, 0⟩ 4 (exSpec 0x1000) 0 = some (s1, 255) ∧
      Spec.csr .rs false ⟨.csr, 3, 0, 0, 3, 0, 0⟩ 4 s1 255 = some (s2, 255) ∧ s2.gp 3 = 255 ∧
      ∀ m, lift {} 0 ⟨.csr, 0, 2, 0, 3, 0, 0⟩ 0x1000 4 (exSt 0x1000) = some m →
        (lift {} 0 ⟨.csr, 3, 0, 0, 3, 0, 0⟩ 0x1004 4 m.st).map (fun o => o.st.gp 3) = some (some 0) := by
  refine ⟨_, _, rfl, rfl, by decide, fun m hm => ?_⟩
  cases hm
  decide +kernel

end Verif.RV64
