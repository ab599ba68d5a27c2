import Verif.X86.Lemmas

/-! The flag computations of the lifter give the architectural flags. -/

set_option linter.unusedSimpArgs false

namespace Verif.X86.Spec

open Verif.IR

variable {slide : BitVec 64} {m : St} {s : S}

/-- Forgetting some flags keeps the relation. -/
theorem Rel.mono (h : Rel slide m s) {s' : S} (h1 : s'.gp = s.gp) (h2 : s'.fs = s.fs)
    (h3 : s'.gs = s.gs) (h4 : s'.mem = s.mem) (h5 : s'.ip = s.ip)
    (h6 : ∀ f b, s'.fl f = some b → s.fl f = some b) (h7 : s'.vec = s.vec := by rfl) : Rel slide m s' where
  gp := h1 ▸ h.gp
  vec := h7 ▸ h.vec
  fs := h2 ▸ h.fs
  gs := h3 ▸ h.gs
  mem := h4 ▸ h.mem
  pc := h5 ▸ h.pc
  fl f b hb := h.fl f b (h6 f b hb)

theorem Rel.forget (h : Rel slide m s) (fs : Flag → Bool) : Rel slide m (s.forget fs) := by
  refine h.mono rfl rfl rfl rfl rfl ?_
  intro f b hb
  simp only [S.forget] at hb
  split at hb
  · simp at hb
  · exact hb

theorem Rel.flags (h : Rel slide m s) {m' : St} {s' : S}
    (hm : m' = { m with fl := m'.fl, pf := m'.pf }) (hs : s' = { s with fl := s'.fl })
    (hf : ∀ f b, s'.fl f = some b → m'.getF f = some (BitVec.ofBool b)) : Rel slide m' s' := by
  rw [hm, hs]
  constructor
  · exact h.gp
  · exact h.vec
  · exact h.fs
  · exact h.gs
  · exact h.mem
  · exact h.pc
  · intro f b hb
    rw [← hm]; exact hf f b hb

theorem getF_pf (x : BitVec 8) (m : St) (h : m.pf = some x) :
    m.getF .pf = some (BitVec.ofBool (parity x)) := by
  have : x.setWidth 8 = x := BitVec.setWidth_eq x
  simp only [St.getF, h, ctpop, un_some, trunc_some, not_some, pf_eq, parity, this]

theorem parity_trunc {w : Nat} (x : BitVec w) : parity (x.setWidth 8) = parity x := by
  simp only [parity]
  rw [BitVec.setWidth_setWidth_of_le _ (by decide)]

theorem zero_eq {w : Nat} (x : BitVec w) : (x == 0#w) = decide (x = 0#w) := by
  rw [Bool.eq_iff_iff]; simp

/-- `FlagCalcAdd`. -/
theorem Rel.flagAdd (h : Rel slide m s) (cfg : Cfg) {w : Nat} (hw : 4 < w) (a b : BitVec w)
    (skip : Bool) :
    Rel slide (X86.flagAdd cfg m (some (a + b)) (some a) (some b) skip)
      (s.resFl (a + b) (if skip then s.fl .cf else some (addCf a b false))
        (some (addOf a b false)) (some (addAf a b false))) := by
  refine h.flags ?_ rfl ?_
  · cases skip <;> simp only [X86.flagAdd, St.setF, St.setPf] <;> split <;> rfl
  · intro f x hx
    have hdf := h.fl .df; have hcf := h.fl .cf
    cases hov : cfg.overflowIntrinsics <;> cases skip <;> cases f <;>
      simp only [S.resFl, Option.some.injEq, if_true, if_false, Bool.false_eq_true] at hx <;>
      first
      | (subst hx
         simp [X86.flagAdd, hov, St.setF, St.setPf, St.getF, isZero, isNeg, auxFlag, addOverflow,
          icmp_some, Pred.eval, msb_slt, zero_eq, cf_add, af_add hw, of_add, and_some, xor_some,
          not_some, of_add' (by omega : 0 < w), bin_some]
         done)
      | (subst hx
         rw [getF_pf ((a + b).setWidth 8)]
         · rw [parity_trunc]
         · simp [X86.flagAdd, hov, St.setF, St.setPf, trunc_some])
      | (simpa [X86.flagAdd, hov, St.setF, St.setPf, St.getF] using hdf x hx)
      | (simpa [X86.flagAdd, hov, St.setF, St.setPf, St.getF] using hcf x hx)

/-- `FlagCalcSub`. -/
theorem Rel.flagSub (h : Rel slide m s) {w : Nat} (hw : 4 < w) (a b : BitVec w)
    (skip alt : Bool) :
    Rel slide (X86.flagSub m (some (a - b)) (some a) (some b) skip alt)
      (s.resFl (a - b) (if skip then s.fl .cf else some (subCf a b false))
        (some (subOf a b false)) (some (subAf a b false))) := by
  refine h.flags ?_ rfl ?_
  · cases skip <;> simp only [X86.flagSub, St.setF, St.setPf] <;> rfl
  · intro f x hx
    have hdf := h.fl .df; have hcf := h.fl .cf
    have hz : (a == b) = decide (a - b = 0#w) := by
      rw [Bool.eq_iff_iff]
      simp only [beq_iff_eq, decide_eq_true_eq]
      constructor
      · rintro rfl; simp
      · intro e
        have := congrArg (· + b) e
        simpa [BitVec.sub_add_cancel] using this
    have hne : ∀ p q : Bool, (BitVec.ofBool p != BitVec.ofBool q) = (p != q) := by decide
    have hof := of_sub a b
    rw [msb_slt] at hof
    cases alt <;> cases skip <;> cases f <;>
      simp only [S.resFl, Option.some.injEq, if_true, if_false, Bool.false_eq_true] at hx <;>
      first
      | (subst hx
         simp [X86.flagSub, St.setF, St.setPf, St.getF, isZero, isNeg, auxFlag, hz,
          icmp_some, Pred.eval, msb_slt, zero_eq, cf_sub, af_sub hw, and_some, xor_some,
          not_some, hne, hof]
         done)
      | (subst hx
         rw [getF_pf ((a - b).setWidth 8)]
         · rw [parity_trunc]
         · simp [X86.flagSub, St.setF, St.setPf, trunc_some])
      | (simpa [X86.flagSub, St.setF, St.setPf, St.getF] using hdf x hx)
      | (simpa [X86.flagSub, St.setF, St.setPf, St.getF] using hcf x hx)

/-- The flags of the logical instructions. -/
theorem Rel.flagLogic (h : Rel slide m s) {w : Nat} (r : BitVec w) :
    Rel slide (((flagSap (flagZ m (some r)) (some r)).setF .cf (some 0#1)).setF .of (some 0#1))
      (s.resFl r (some false) (some false) none) := by
  refine h.flags rfl rfl ?_
  intro f x hx
  have hdf := h.fl .df
  cases f <;> simp only [S.resFl, Option.some.injEq, reduceCtorEq] at hx <;>
    first
    | (subst hx
       simp [flagSap, flagZ, St.setF, St.setPf, St.getF, isZero, isNeg, icmp_some, Pred.eval,
        msb_slt, zero_eq]
       done)
    | (subst hx
       rw [getF_pf (r.setWidth 8)]
       · rw [parity_trunc]
       · simp [flagSap, flagZ, St.setF, St.setPf, trunc_some])
    | (simpa [flagSap, flagZ, St.setF, St.setPf, St.getF] using hdf x hx)

end Verif.X86.Spec
