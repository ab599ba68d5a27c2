import Verif.A64.FpuLanes
import Verif.A64.SimdMem
import Verif.A64.FpOps

/-! The code lifted from the floating-point instructions simulates the specification. -/

set_option linter.unusedSimpArgs false
set_option linter.constructorNameAsVariable false

namespace Verif.A64.Spec

open Verif.IR Verif.Bits Verif.Fp

variable {slide : BitVec 64} {m : St} {s s' : S}

/-- For all lanes. -/
def lanes (n : Nat) (p : Nat → Bool) : Bool := (List.range n).all p

theorem lanes_get {n : Nat} {p : Nat → Bool} (h : lanes n p = true) {i : Nat} (hi : i < n) : p i = true := by
  rw [lanes, List.all_eq_true] at h
  exact h i (List.mem_range.2 hi)

/-- Operands for which the lifted code computes the result of the architecture.  See `binFine`, `fmaFine`,
`accFine`, `intFine`: the result is not NaN (for square roots, rounding and conversion as well), products of
multiply-accumulate instructions are exact, minimum and maximum have no NaN operands and no zeros of opposite
sign, values converted to integers fit.  No condition on immediates and conversions from integers. -/
def Fpu.fine (s : S) : Fpu → Bool
  | .bin op sz _ rn rm => (FSz.bits sz).all fun w => binFine op (s.scalar rn w) (s.scalar rm w)
  | .sqrt sz _ rn => (FSz.bits sz).all fun w => !isNaN (Fp.sqrt (s.scalar rn w))
  | .madd neg sub sz _ rn rm ra =>
    (FSz.bits sz).all fun w => fmaFine neg sub (s.scalar rn w) (s.scalar rm w) (s.scalar ra w)
  | .rint _ _ sz _ rn => (FSz.bits sz).all fun w => !isNaN (s.scalar rn w)
  | .cvt _ sz _ rn => (FSz.bits sz).all fun w => !isNaN (s.scalar rn w)
  | .toGp sgn w32 mode fbits sz _ rn =>
    (FSz.bits sz).all fun w => (roundDir mode).all fun d => intFine sgn d fbits (W w32) (s.scalar rn w)
  | .ofGp .. => true
  | .movImm .. => true
  | .vbin op va _ rn rm => lanes va.n fun i => binFine op (s.el rn va.w i) (s.el rm va.w i)
  | .vsqrt va _ rn => lanes va.n fun i => !isNaN (Fp.sqrt (s.el rn va.w i))
  | .vrint _ _ va _ rn => lanes va.n fun i => !isNaN (s.el rn va.w i)
  | .vacc sub va rd rn rm => lanes va.n fun i =>
      accFine (if sub then .mls else .mla) false (s.el rd va.w i) (s.el rn va.w i) (s.el rm va.w i)
  | .elem op scalar va rd rn rm idx => lanes (if scalar then 1 else va.n) fun i =>
      accFine op scalar (s.el rd va.w i) (s.el rn va.w i) (s.el rm va.w idx)
  | .toInt sgn mode fbits scalar va _ rn => (roundDir mode).all fun d =>
      lanes (if scalar then 1 else va.n) fun i => intFine sgn d fbits va.w (s.el rn va.w i)
  | .ofInt .. => true
  | .cvtn va _ rn => lanes (64 / va.w) fun i => !isNaN (s.el rn (2 * va.w) i)
  | .cvtl va _ rn => lanes (64 / va.w) fun i => !isNaN (s.el rn va.w (VA.base va + i))
  | .pair op va _ rn rm => lanes va.n fun i =>
      if i < va.n / 2 then binFine op (s.el rn va.w (2 * i)) (s.el rn va.w (2 * i + 1))
      else binFine op (s.el rm va.w (2 * i - va.n)) (s.el rm va.w (2 * i + 1 - va.n))
  | .addp va _ rn => binFine (.arith .add) (s.el rn va.w 0) (s.el rn va.w 1)
  | .across op va _ rn =>
    if va.n = 2 then binFine op (s.el rn va.w 0) (s.el rn va.w 1)
    else lanes va.n fun i => !isNaN (s.el rn va.w i) && lanes va.n fun j => !zeros (s.el rn va.w i) (s.el rn va.w j)
  | .vmovImm .. => true

/-- The code emitted for a floating-point instruction takes `m` to a representation of `s'`. -/
def FpuTo (slide : BitVec 64) (m : St) (i : Fpu) (s' : S) : Prop := ∃ m', i.lift m = some m' ∧ Rel slide m' s'

/-! ### Formats -/

theorem bits_format {sz : FSz} {w : Nat} (h : FSz.bits sz = some w) : Format w := by
  cases sz <;> simp only [FSz.bits, Option.some.injEq] at h <;>
    first | exact .inl h.symm | exact .inr h.symm | cases h

theorem fscal_format {va : VA} (h : fscal va = true) : Format va.w ∧ va.fp = true := by
  revert h; cases va <;> first | (intro h; cases h; done) | exact fun _ => ⟨.inl rfl, rfl⟩ | exact fun _ => ⟨.inr rfl, rfl⟩

theorem fvec_format {va : VA} (h : fvec va = true) : Format va.w ∧ va.fp = true := by
  simp only [fvec, Bool.and_eq_true] at h
  exact fscal_format h.1

theorem ifFp_of {va : VA} (h : va.fp = true) (m : St) : ifFp va m = some m := by simp [ifFp, h]

theorem W_format (w32 : Bool) : Format (W w32) ∧ W w32 ≤ 64 := by cases w32 <;> simp [W, Format]

theorem format_le {w : Nat} (h : Format w) : w ≤ 64 := by rcases h with rfl | rfl <;> decide

/-! ### Scalars -/

theorem sim_fbin (h : Rel slide m s) {op : FBin} {sz : FSz} {rd rn rm : Fin 32}
    (hok : Fpu.fine s (.bin op sz rd rn rm) = true) (hs : s.fpu (.bin op sz rd rn rm) = some s') :
    FpuTo slide m (.bin op sz rd rn rm) s' := by
  simp only [S.fpu, Option.map_eq_some_iff] at hs
  obtain ⟨w, hw, rfl⟩ := hs
  simp only [Fpu.fine, hw, Option.all_some] at hok
  refine ⟨_, by simp only [Fpu.lift, fpBits_eq, hw, Option.map_some]; rfl, ?_⟩
  rw [h.getV, h.getV, laneBin_eq (bits_format hw) op hok]
  exact h.setV rd _

theorem sim_fsqrt (h : Rel slide m s) {sz : FSz} {rd rn : Fin 32}
    (hok : Fpu.fine s (.sqrt sz rd rn) = true) (hs : s.fpu (.sqrt sz rd rn) = some s') :
    FpuTo slide m (.sqrt sz rd rn) s' := by
  simp only [S.fpu, Option.map_eq_some_iff] at hs
  obtain ⟨w, hw, rfl⟩ := hs
  simp only [Fpu.fine, hw, Option.all_some, Bool.not_eq_true'] at hok
  refine ⟨_, by simp only [Fpu.lift, fpBits_eq, hw, Option.map_some]; rfl, ?_⟩
  rw [h.getV, fpSqrt_of (bits_format hw) hok]
  exact h.setV rd _

theorem sim_fmadd (h : Rel slide m s) {neg sub : Bool} {sz : FSz} {rd rn rm ra : Fin 32}
    (hok : Fpu.fine s (.madd neg sub sz rd rn rm ra) = true) (hs : s.fpu (.madd neg sub sz rd rn rm ra) = some s') :
    FpuTo slide m (.madd neg sub sz rd rn rm ra) s' := by
  simp only [S.fpu, Option.map_eq_some_iff] at hs
  obtain ⟨w, hw, rfl⟩ := hs
  simp only [Fpu.fine, hw, Option.all_some] at hok
  refine ⟨_, by simp only [Fpu.lift, fpBits_eq, hw, Option.map_some]; rfl, ?_⟩
  rw [h.getV, h.getV, h.getV, laneFma_eq (bits_format hw) neg sub hok]
  exact h.setV rd _

theorem sim_frint (h : Rel slide m s) {mode : Rnd} {b : Nat} {sz : FSz} {rd rn : Fin 32}
    (hok : Fpu.fine s (.rint mode b sz rd rn) = true) (hs : s.fpu (.rint mode b sz rd rn) = some s') :
    FpuTo slide m (.rint mode b sz rd rn) s' := by
  simp only [S.fpu] at hs
  split at hs
  · simp only [Option.bind_eq_some_iff, Option.map_eq_some_iff] at hs
    obtain ⟨w, hw, d, hd, rfl⟩ := hs
    simp only [Fpu.fine, hw, Option.all_some, Bool.not_eq_true'] at hok
    refine ⟨_, by simp only [Fpu.lift, fpBits_eq, roundDir_eq, hw, hd, Option.map_some, Option.bind_some]; rfl, ?_⟩
    rw [h.getV, fpRoundInt_of d hok]
    exact h.setV rd _
  · cases hs

theorem sim_fcvt (h : Rel slide m s) {dbl : Bool} {sz : FSz} {rd rn : Fin 32}
    (hs : s.fpu (.cvt dbl sz rd rn) = some s') : FpuTo slide m (.cvt dbl sz rd rn) s' := by
  cases dbl <;> cases sz <;> simp only [S.fpu, Option.some.injEq, reduceCtorEq] at hs
  all_goals
    subst hs
    refine ⟨_, rfl, ?_⟩
    rw [h.getV]
    exact h.setV rd _

theorem sim_toGp (h : Rel slide m s) {sgn w32 : Bool} {mode : Rnd} {fbits : Nat} {sz : FSz} {rd : Reg} {rn : Fin 32}
    (hok : Fpu.fine s (.toGp sgn w32 mode fbits sz rd rn) = true)
    (hs : s.fpu (.toGp sgn w32 mode fbits sz rd rn) = some s') :
    FpuTo slide m (.toGp sgn w32 mode fbits sz rd rn) s' := by
  simp only [S.fpu] at hs
  split at hs
  next hf =>
    simp only [Option.bind_eq_some_iff, Option.map_eq_some_iff] at hs
    obtain ⟨w, hw, d, hd, rfl⟩ := hs
    simp only [Fpu.fine, hw, hd, Option.all_some] at hok
    refine ⟨_, by simp only [Fpu.lift, fpBits_eq, roundDir_eq, hw, hd, Option.map_some, Option.bind_some]; rfl, ?_⟩
    have := W_format w32
    rw [h.getV, laneToInt_eq (bits_format hw) this.1 sgn d (by omega) hok]
    exact h.set rd _
  · cases hs

theorem sim_ofGp (h : Rel slide m s) {sgn w32 : Bool} {fbits : Nat} {sz : FSz} {rd : Fin 32} {rn : Reg}
    (hs : s.fpu (.ofGp sgn w32 fbits sz rd rn) = some s') : FpuTo slide m (.ofGp sgn w32 fbits sz rd rn) s' := by
  simp only [S.fpu] at hs
  split at hs
  next hf =>
    simp only [Option.map_eq_some_iff] at hs
    obtain ⟨w, hw, rfl⟩ := hs
    refine ⟨_, by simp only [Fpu.lift, fpBits_eq, hw, Option.map_some]; rfl, ?_⟩
    have := W_format w32
    rw [h.get, laneOfInt_eq this.1 (bits_format hw) sgn (by omega)]
    exact h.setV rd _
  · cases hs

theorem sim_fmovImm (h : Rel slide m s) {sz : FSz} {rd : Fin 32} {imm : BitVec 64}
    (hs : s.fpu (.movImm sz rd imm) = some s') : FpuTo slide m (.movImm sz rd imm) s' := by
  simp only [S.fpu, Option.bind_eq_some_iff, Option.map_eq_some_iff] at hs
  obtain ⟨w, hw, i, hi, rfl⟩ := hs
  refine ⟨_, by simp only [Fpu.lift, fpBits_eq, hw, Option.map_some]; rfl, ?_⟩
  rw [imm_eq (bits_format hw) hi]
  exact h.setV rd _

/-! ### Vectors -/

theorem sim_vbin (h : Rel slide m s) {op : FBin} {va : VA} {rd rn rm : Fin 32}
    (hok : Fpu.fine s (.vbin op va rd rn rm) = true) (hs : s.fpu (.vbin op va rd rn rm) = some s') :
    FpuTo slide m (.vbin op va rd rn rm) s' := by
  simp only [S.fpu] at hs
  split at hs
  next hv =>
    cases hs
    obtain ⟨hw, hf⟩ := fvec_format hv.1
    refine ⟨_, by simp only [Fpu.lift, hv.2, if_false, ifFp_of hf]; rfl, ?_⟩
    refine h.setVec rd fun i hi => ?_
    rw [h.getVec va rn hi, h.getVec va rm hi]
    exact laneBin_eq hw op (lanes_get hok hi)
  · cases hs

theorem sim_vsqrt (h : Rel slide m s) {va : VA} {rd rn : Fin 32}
    (hok : Fpu.fine s (.vsqrt va rd rn) = true) (hs : s.fpu (.vsqrt va rd rn) = some s') :
    FpuTo slide m (.vsqrt va rd rn) s' := by
  simp only [S.fpu] at hs
  split at hs
  next hv =>
    cases hs
    obtain ⟨hw, hf⟩ := fvec_format hv
    refine ⟨_, by simp only [Fpu.lift, ifFp_of hf]; rfl, ?_⟩
    refine h.setVec rd fun i hi => ?_
    have := lanes_get hok hi
    simp only [Bool.not_eq_true'] at this
    rw [h.getVec va rn hi, fpSqrt_of hw this]
    rfl
  · cases hs

theorem sim_vrint (h : Rel slide m s) {mode : Rnd} {b : Nat} {va : VA} {rd rn : Fin 32}
    (hok : Fpu.fine s (.vrint mode b va rd rn) = true) (hs : s.fpu (.vrint mode b va rd rn) = some s') :
    FpuTo slide m (.vrint mode b va rd rn) s' := by
  simp only [S.fpu] at hs
  split at hs
  next hv =>
    simp only [Option.map_eq_some_iff] at hs
    obtain ⟨d, hd, rfl⟩ := hs
    obtain ⟨hw, hf⟩ := fvec_format hv.1
    refine ⟨_, by simp only [Fpu.lift, roundDir_eq, hd, Option.bind_some, ifFp_of hf]; rfl, ?_⟩
    refine h.setVec rd fun i hi => ?_
    have := lanes_get hok hi
    simp only [Bool.not_eq_true'] at this
    rw [h.getVec va rn hi, fpRoundInt_of d this]
    rfl
  · cases hs

theorem sim_vacc (h : Rel slide m s) {sub : Bool} {va : VA} {rd rn rm : Fin 32}
    (hok : Fpu.fine s (.vacc sub va rd rn rm) = true) (hs : s.fpu (.vacc sub va rd rn rm) = some s') :
    FpuTo slide m (.vacc sub va rd rn rm) s' := by
  simp only [S.fpu] at hs
  split at hs
  next hv =>
    cases hs
    obtain ⟨hw, hf⟩ := fvec_format hv
    refine ⟨_, by simp only [Fpu.lift, ifFp_of hf]; rfl, ?_⟩
    refine h.setVec rd fun i hi => ?_
    rw [h.getVec va rd hi, h.getVec va rn hi, h.getVec va rm hi]
    have := laneElem_eq hw _ (lanes_get hok hi)
    cases sub <;> exact this
  · cases hs

theorem sim_elem (h : Rel slide m s) {op : FAcc} {scalar : Bool} {va : VA} {rd rn rm : Fin 32} {idx : Nat}
    (hok : Fpu.fine s (.elem op scalar va rd rn rm idx) = true)
    (hs : s.fpu (.elem op scalar va rd rn rm idx) = some s') :
    FpuTo slide m (.elem op scalar va rd rn rm idx) s' := by
  simp only [S.fpu] at hs
  split at hs
  next hv =>
    obtain ⟨hw, hf⟩ := fscal_format hv.1
    refine ⟨_, by simp only [Fpu.lift, ifFp_of hf]; rfl, ?_⟩
    cases scalar
    · simp only [Bool.false_eq_true, if_false] at hs ⊢
      split at hs
      · cases hs
        refine h.setVec rd fun i hi => ?_
        rw [h.getVec va rd hi, h.getVec va rn hi, Vec.splat, h.getElem va rm hv.2]
        exact laneElem_eq hw op (lanes_get hok (by simpa using hi))
      · cases hs
    · simp only [if_true] at hs ⊢
      cases hs
      rw [h.scalarEl, h.scalarEl, h.getElem va rm hv.2,
        scalarElem_eq hw op (lanes_get (i := 0) hok (by simp))]
      exact h.setV rd _
  · cases hs

theorem sim_toInt (h : Rel slide m s) {sgn : Bool} {mode : Rnd} {fbits : Nat} {scalar : Bool} {va : VA}
    {rd rn : Fin 32} (hok : Fpu.fine s (.toInt sgn mode fbits scalar va rd rn) = true)
    (hs : s.fpu (.toInt sgn mode fbits scalar va rd rn) = some s') :
    FpuTo slide m (.toInt sgn mode fbits scalar va rd rn) s' := by
  simp only [S.fpu] at hs
  split at hs
  next hv =>
    obtain ⟨hw, hf⟩ := fscal_format hv.1
    have hle := format_le hw
    simp only [Option.bind_eq_some_iff] at hs
    obtain ⟨d, hd, hs⟩ := hs
    simp only [Fpu.fine, hd, Option.all_some] at hok
    refine ⟨_, by simp only [Fpu.lift, roundDir_eq, hd, Option.bind_some, ifFp_of hf]; rfl, ?_⟩
    cases scalar
    · simp only [Bool.false_eq_true, if_false] at hs ⊢
      split at hs
      · cases hs
        refine h.setVec rd fun i hi => ?_
        rw [h.getVec va rn hi]
        exact laneToInt_eq hw hw sgn d (by omega) (lanes_get hok (by simpa using hi))
      · cases hs
    · simp only [if_true] at hs ⊢
      cases hs
      rw [h.scalarEl, laneToInt_eq hw hw sgn d (by omega) (lanes_get (i := 0) hok (by simp))]
      exact h.setV rd _
  · cases hs

theorem sim_ofInt (h : Rel slide m s) {sgn : Bool} {fbits : Nat} {scalar : Bool} {va : VA} {rd rn : Fin 32}
    (hs : s.fpu (.ofInt sgn fbits scalar va rd rn) = some s') :
    FpuTo slide m (.ofInt sgn fbits scalar va rd rn) s' := by
  simp only [S.fpu] at hs
  split at hs
  next hv =>
    obtain ⟨hw, hf⟩ := fscal_format hv.1
    have hle := format_le hw
    refine ⟨_, by simp only [Fpu.lift, ifFp_of hf]; rfl, ?_⟩
    cases scalar
    · simp only [Bool.false_eq_true, if_false] at hs ⊢
      split at hs
      · cases hs
        refine h.setVec rd fun i hi => ?_
        rw [h.getVec va rn hi]
        exact laneOfInt_eq hw hw sgn (by omega) _
      · cases hs
    · simp only [if_true] at hs ⊢
      cases hs
      rw [h.scalarEl, laneOfInt_eq hw hw sgn (by omega)]
      exact h.setV rd _
  · cases hs

theorem sim_cvtn (h : Rel slide m s) {va : VA} {rd rn : Fin 32}
    (hs : s.fpu (.cvtn va rd rn) = some s') : FpuTo slide m (.cvtn va rd rn) s' := by
  simp only [S.fpu] at hs
  split at hs
  next hv =>
    cases hs
    have hva : va.w < 64 := by rcases hv with rfl | rfl <;> decide
    refine ⟨_, dbl_map hva _ _ fun _ => rfl, ?_⟩
    refine h.insHalf va hva rd fun i hi => ?_
    rw [h.getDbl va rn hi]
    rfl
  · cases hs

theorem sim_cvtl (h : Rel slide m s) {va : VA} {rd rn : Fin 32}
    (hs : s.fpu (.cvtl va rd rn) = some s') : FpuTo slide m (.cvtl va rd rn) s' := by
  simp only [S.fpu] at hs
  split at hs
  next hv =>
    cases hs
    have hva : va.w < 64 := by rcases hv with rfl | rfl <;> decide
    refine ⟨_, dbl_map hva _ _ fun _ => rfl, ?_⟩
    rw [VA.dn_eq]
    refine h.setVec rd fun i hi => ?_
    rw [h.halve va hva rn hi]
    rfl
  · cases hs

theorem pairOp_eq (op : FBin) : op.pairOp = isPair op := by
  cases op with
  | arith o => cases o <;> rfl
  | _ => rfl

theorem acrossOp_eq (op : FBin) : op.acrossOp = isAcross op := by
  cases op with
  | arith o => cases o <;> rfl
  | _ => rfl

theorem sim_fpair (h : Rel slide m s) {op : FBin} {va : VA} {rd rn rm : Fin 32}
    (hok : Fpu.fine s (.pair op va rd rn rm) = true) (hs : s.fpu (.pair op va rd rn rm) = some s') :
    FpuTo slide m (.pair op va rd rn rm) s' := by
  simp only [S.fpu] at hs
  split at hs
  next hv =>
    cases hs
    obtain ⟨hw, hf⟩ := fvec_format hv.1
    refine ⟨_, by simp only [Fpu.lift, pairOp_eq, hv.2, if_true, ifFp_of hf]; rfl, ?_⟩
    have hn2 : va.n / 2 + va.n / 2 = va.n := by have := hv.1; revert this; cases va <;> decide
    refine h.setVec rd fun i hi => ?_
    have hfine := lanes_get hok hi
    rw [h.shuffle va rn rm (linear_get _ 2 0 i hi) (by omega), Nat.add_zero,
      h.shuffle va rn rm (linear_get _ 2 1 i hi) (by omega)]
    by_cases hl : i < va.n / 2
    · simp only [hl, if_true, show 2 * i < va.n by omega, show 2 * i + 1 < va.n by omega] at hfine ⊢
      exact laneBin_eq hw op hfine
    · simp only [hl, if_false, show ¬ 2 * i < va.n by omega, show ¬ 2 * i + 1 < va.n by omega] at hfine ⊢
      exact laneBin_eq hw op hfine
  · cases hs

theorem sim_faddp (h : Rel slide m s) {va : VA} {rd rn : Fin 32}
    (hok : Fpu.fine s (.addp va rd rn) = true) (hs : s.fpu (.addp va rd rn) = some s') :
    FpuTo slide m (.addp va rd rn) s' := by
  simp only [S.fpu] at hs
  split at hs
  next hv =>
    cases hs
    have hsc : fscal va = true := by rcases hv with rfl | rfl <;> rfl
    have hn : va.n = 2 := by rcases hv with rfl | rfl <;> rfl
    obtain ⟨hw, hf⟩ := fscal_format hsc
    refine ⟨_, by simp only [Fpu.lift, ifFp_of hf]; rfl, ?_⟩
    have := laneBin_eq hw (.arith .add) hok
    simp only [laneBin] at this
    rw [Vec.extract, if_pos (by omega), Vec.extract, if_pos (by omega), h.getVec va rn (by omega),
      h.getVec va rn (by omega), this]
    exact h.setV rd _
  · cases hs

/-! ### Reductions -/

/-- Numbers without zeros of opposite sign: minimum and maximum choose by a measure. -/
theorem choice_eq {w : Nat} (hw : Format w) {op : FBin} (hop : isAcross op = true) :
    ∃ f : BitVec w → Int, ∀ x y : BitVec w, isNaN x = false → isNaN y = false → zeros x y = false →
      laneBin op (some x) (some y) = some (pick f x y) ∧ fbin2 op x y = pick f x y := by
  have hmax : ∀ x y : BitVec w, isNaN x = false → isNaN y = false → Ieee.maxNumber x y = pick ord x y := by
    intro x y hx hy
    simp only [Ieee.maxNumber, hx, hy, Bool.false_eq_true, if_false, less_ord, decide_eq_true_eq, pick]
  have hmin : ∀ x y : BitVec w, isNaN x = false → isNaN y = false →
      Ieee.minNumber x y = pick (fun x => - ord x) x y := by
    intro x y hx hy
    simp only [Ieee.minNumber, hx, hy, Bool.false_eq_true, if_false, less_ord, decide_eq_true_eq, pick, Int.neg_lt_neg_iff]
  have sn : ∀ x : BitVec w, isNaN x = false → isSNaN x = false := fun x h => by simp [isSNaN, h]
  have key : ∀ f : BitVec w → Int, (∀ x y, isNaN x = false → isNaN y = false → fbin2 op x y = pick f x y) →
      ∀ x y : BitVec w, isNaN x = false → isNaN y = false → zeros x y = false →
      laneBin op (some x) (some y) = some (pick f x y) ∧ fbin2 op x y = pick f x y := by
    intro f hf x y hx hy hz
    rw [← hf x y hx hy]
    refine ⟨laneBin_eq hw op ?_, rfl⟩
    cases op with
    | arith o => cases o <;> cases hop
    | nmul => cases hop
    | abd => cases hop
    | _ => simp [binFine, hx, hy, hz, sn]
  cases op with
  | arith o => cases o <;> cases hop
  | nmul => cases hop
  | abd => cases hop
  | max => exact ⟨ord, key _ fun x y hx hy => by rw [← hmax x y hx hy]; exact orNaN2 hx hy⟩
  | min => exact ⟨_, key _ fun x y hx hy => by rw [← hmin x y hx hy]; exact orNaN2 hx hy⟩
  | maxnm =>
    exact ⟨ord, key _ fun x y hx hy => by
      rw [← hmax x y hx hy]; exact (fpMaxNum_eq hw (sn x hx) (sn y hy) (by simp [hx])).1⟩
  | minnm =>
    exact ⟨_, key _ fun x y hx hy => by
      rw [← hmin x y hx hy]; exact (fpMaxNum_eq hw (sn x hx) (sn y hy) (by simp [hx])).2⟩

/-- A left fold over four lanes is the tree of the architecture. -/
theorem reduce4 {w : Nat} (hw : Format w) {op : FBin} (hop : isAcross op = true) (e : Nat → BitVec w)
    (hn : ∀ i, i < 4 → isNaN (e i) = false) (hz : ∀ i j, i < 4 → j < 4 → zeros (e i) (e j) = false)
    {v : Nat → Val w} (hv : ∀ i, i < 4 → v i = some (e i)) :
    redLanes (laneBin op) v 4 = some (fbin2 op (fbin2 op (e 0) (e 1)) (fbin2 op (e 2) (e 3))) := by
  obtain ⟨f, hf⟩ := choice_eq hw hop
  have mem : ∀ i j, i < 4 → j < 4 → ∃ k, k < 4 ∧ pick f (e i) (e j) = e k := by
    intro i j hi hj
    rcases pick_or f (e i) (e j) with h | h
    · exact ⟨i, hi, h⟩
    · exact ⟨j, hj, h⟩
  have st : ∀ i j, i < 4 → j < 4 → laneBin op (some (e i)) (some (e j)) = some (pick f (e i) (e j)) ∧
      fbin2 op (e i) (e j) = pick f (e i) (e j) :=
    fun i j hi hj => hf _ _ (hn i hi) (hn j hj) (hz i j hi hj)
  obtain ⟨k, hk, ek⟩ := mem 0 1 (by decide) (by decide)
  obtain ⟨l, hl, el⟩ := mem k 2 hk (by decide)
  obtain ⟨p, hp, ep⟩ := mem 2 3 (by decide) (by decide)
  show laneBin op (laneBin op (laneBin op (v 0) (v 1)) (v 2)) (v 3) = _
  rw [hv 0 (by decide), hv 1 (by decide), hv 2 (by decide), hv 3 (by decide),
    (st 0 1 (by decide) (by decide)).1, (st 0 1 (by decide) (by decide)).2, ek,
    (st k 2 hk (by decide)).1, el, (st l 3 hl (by decide)).1, (st 2 3 (by decide) (by decide)).2, ep,
    (st k p hk hp).2, ← el, ← ep, pick_assoc]

theorem sim_facross (h : Rel slide m s) {op : FBin} {va : VA} {rd rn : Fin 32}
    (hok : Fpu.fine s (.across op va rd rn) = true) (hs : s.fpu (.across op va rd rn) = some s') :
    FpuTo slide m (.across op va rd rn) s' := by
  simp only [S.fpu] at hs
  split at hs
  next hop =>
    split at hs
    next hv =>
      cases hs
      have hsc : fscal va = true := by rcases hv with rfl | rfl <;> rfl
      have hn : va.n = 2 := by rcases hv with rfl | rfl <;> rfl
      obtain ⟨hw, hf⟩ := fscal_format hsc
      refine ⟨_, by simp only [Fpu.lift, acrossOp_eq, hop, if_true, ifFp_of hf]; rfl, ?_⟩
      simp only [Fpu.fine, hn, if_true] at hok
      have e : redLanes (laneBin op) (m.getVec va rn) va.n = some (fbin2 op (s.el rn va.w 0) (s.el rn va.w 1)) := by
        rw [hn]
        show laneBin op (m.getVec va rn 0) (m.getVec va rn 1) = _
        rw [h.getVec va rn (by omega), h.getVec va rn (by omega), laneBin_eq hw op hok]
      rw [e]
      exact h.setV rd _
    · split at hs
      next hv =>
        subst hv
        cases hs
        refine ⟨_, by simp only [Fpu.lift, acrossOp_eq, hop, if_true, ifFp_of (va := .s4) rfl]; rfl, ?_⟩
        simp only [Fpu.fine, show ¬ VA.s4.n = 2 by decide, if_false] at hok
        have hall : ∀ i, i < 4 → _ := fun i (hi : i < 4) => lanes_get (n := VA.s4.n) hok hi
        have e : redLanes (laneBin op) (m.getVec .s4 rn) VA.s4.n = _ :=
          reduce4 (w := VA.s4.w) (.inl rfl) hop (s.el rn VA.s4.w)
            (fun i hi => by have := hall i hi; simp only [Bool.and_eq_true, Bool.not_eq_true'] at this; exact this.1)
            (fun i j hi hj => by
              have := hall i hi
              simp only [Bool.and_eq_true, Bool.not_eq_true'] at this
              have := lanes_get this.2 (i := j) hj
              simpa using this)
            (fun i hi => h.getVec .s4 rn hi)
        rw [e]
        exact h.setV rd _
      · cases hs
  · cases hs

theorem sim_vmovImm (h : Rel slide m s) {va : VA} {rd : Fin 32} {imm : BitVec 64}
    (hs : s.fpu (.vmovImm va rd imm) = some s') : FpuTo slide m (.vmovImm va rd imm) s' := by
  simp only [S.fpu] at hs
  split at hs
  next hv =>
    simp only [Option.map_eq_some_iff] at hs
    obtain ⟨i, hi, rfl⟩ := hs
    obtain ⟨hw, hf⟩ := fvec_format hv
    refine ⟨_, by simp only [Fpu.lift, ifFp_of hf]; rfl, ?_⟩
    refine h.setVec rd fun k _ => ?_
    rw [Vec.splat, imm_eq hw hi]
  · cases hs

/-! ### All instructions -/

theorem sim_fpu (h : Rel slide m s) {i : Fpu} (hok : Fpu.fine s i = true) (hs : s.fpu i = some s') :
    FpuTo slide m i s' := by
  cases i with
  | bin => exact sim_fbin h hok hs
  | sqrt => exact sim_fsqrt h hok hs
  | madd => exact sim_fmadd h hok hs
  | rint => exact sim_frint h hok hs
  | cvt => exact sim_fcvt h hs
  | toGp => exact sim_toGp h hok hs
  | ofGp => exact sim_ofGp h hs
  | movImm => exact sim_fmovImm h hs
  | vbin => exact sim_vbin h hok hs
  | vsqrt => exact sim_vsqrt h hok hs
  | vrint => exact sim_vrint h hok hs
  | vacc => exact sim_vacc h hok hs
  | elem => exact sim_elem h hok hs
  | toInt => exact sim_toInt h hok hs
  | ofInt => exact sim_ofInt h hs
  | cvtn => exact sim_cvtn h hs
  | cvtl => exact sim_cvtl h hs
  | pair => exact sim_fpair h hok hs
  | addp => exact sim_faddp h hok hs
  | across => exact sim_facross h hok hs
  | vmovImm => exact sim_vmovImm h hs

/-- What is specified is handled by the lifter. -/
theorem fpu_handled {i : Fpu} (hs : s.fpu i = some s') : i.handled = true := by
  cases i with
  | rint mode b sz rd rn =>
    simp only [S.fpu] at hs
    split at hs
    next hb =>
      cases sz <;> simp_all [Fpu.handled, FSz.bits]
    · cases hs
  | cvt dbl sz rd rn =>
    cases dbl <;> cases sz <;> simp only [S.fpu, reduceCtorEq] at hs <;> rfl
  | vrint mode b va rd rn =>
    simp only [S.fpu] at hs
    split at hs
    next hb => simp [Fpu.handled, hb.2]
    · cases hs
  | cvtn va rd rn =>
    simp only [S.fpu] at hs
    split at hs
    next hb => rcases hb with rfl | rfl <;> rfl
    · cases hs
  | cvtl va rd rn =>
    simp only [S.fpu] at hs
    split at hs
    next hb => rcases hb with rfl | rfl <;> rfl
    · cases hs
  | _ => rfl

theorem sim_fpuInstr {cfg : Cfg} {len : Nat} {i : Fpu} (hok : Fpu.fine s i = true)
    (hs : step (.fpu i) len s = some s') : Simulates cfg slide (.fpu i) len s s' := by
  obtain ⟨s1, hp, rfl⟩ := step_plain hs rfl
  have hh : i.handled = true := fpu_handled hp
  refine plain_sim (fun m => i.lift m) (fun start m => ?_) ?_
  · simp only [lift, hh, if_true]
  · intro start m hr _ _
    exact sim_fpu hr hok hp

end Verif.A64.Spec
