import Verif.A64.FpuSpec
import Verif.A64.SimdLanes

/-! The operations of `Verif.A64.Fpu` on one lane give the results of the specification. -/

set_option linter.unusedSimpArgs false

namespace Verif.A64.Spec

open Verif.IR Verif.Bits Verif.Fp

variable {w : Nat}

/-! ### NaN operands -/

theorem orNaN_none {l : List (BitVec w)} {r : BitVec w} (h : ∀ x ∈ l, isNaN x = false) : orNaN l r = r := by
  have h1 : l.find? isSNaN = none := by
    rw [List.find?_eq_none]; intro x hx; simp [isSNaN, h x hx]
  have h2 : l.find? isNaN = none := by
    rw [List.find?_eq_none]; intro x hx; simp [h x hx]
  simp only [orNaN, procNaNs, h1, h2, Option.getD_none]

theorem orNaN1 {a r : BitVec w} (ha : isNaN a = false) : orNaN [a] r = r := orNaN_none (by simpa using ha)

theorem orNaN2 {a b r : BitVec w} (ha : isNaN a = false) (hb : isNaN b = false) : orNaN [a, b] r = r :=
  orNaN_none (by simp [ha, hb])

theorem orNaN3 {a b c r : BitVec w} (ha : isNaN a = false) (hb : isNaN b = false) (hc : isNaN c = false) :
    orNaN [a, b, c] r = r := orNaN_none (by simp [ha, hb, hc])

/-- The result for NaN operands is NaN. -/
theorem orNaN_nan (hw : Format w) {l : List (BitVec w)} {r : BitVec w} (h : ∃ x ∈ l, isNaN x = true) :
    isNaN (orNaN l r) = true := by
  unfold orNaN procNaNs
  split
  next x hx =>
    have := List.find?_some hx
    simp only [isSNaN, Bool.and_eq_true] at this
    exact isNaN_quiet hw this.1
  · cases hf : l.find? isNaN with
    | none =>
      rw [List.find?_eq_none] at hf
      obtain ⟨x, hx, hn⟩ := h
      exact absurd hn (hf x hx)
    | some x => exact List.find?_some hf

theorem isNaN_defNaN (hw : Format w) : isNaN (defNaN w) = true := by rcases hw with rfl | rfl <;> decide

theorem valid_of {r : BitVec w} (h : isNaN r = false) : valid r = r := by simp [valid, h]

theorem isNaN_valid (hw : Format w) (r : BitVec w) : isNaN (valid r) = isNaN r := by
  unfold valid
  split
  next h => rw [h]; exact isNaN_defNaN hw
  · rfl

theorem arith_nan (hw : Format w) (o : Arith) {a b : BitVec w} (h : isNaN a = true ∨ isNaN b = true) :
    isNaN (Fp.arith o a b) = true := by
  unfold Fp.arith
  cases ha : isNaN a
  · rw [ha] at h
    have hb : isNaN b = true := by simpa using h
    simp only [hb, Bool.false_eq_true, if_false, if_true]
    exact isNaN_quiet hw hb
  · simp only [if_true]; exact isNaN_quiet hw ha

theorem arith_num (hw : Format w) {o : Arith} {a b : BitVec w} (h : isNaN (Fp.arith o a b) = false) :
    isNaN a = false ∧ isNaN b = false := by
  constructor
  · cases ha : isNaN a
    · rfl
    · rw [arith_nan hw o (.inl ha)] at h; cases h
  · cases hb : isNaN b
    · rfl
    · rw [arith_nan hw o (.inr hb)] at h; cases h

theorem fpArith_of (hw : Format w) {o : Arith} {a b : BitVec w} (h : isNaN (Fp.arith o a b) = false) :
    fpArith o a b = Fp.arith o a b := by
  obtain ⟨ha, hb⟩ := arith_num hw h
  rw [fpArith, orNaN2 ha hb, valid_of h]

/-- The architecture's result is NaN if and only if the lifted code's is. -/
theorem fpArith_nan (hw : Format w) (o : Arith) (a b : BitVec w) :
    isNaN (fpArith o a b) = isNaN (Fp.arith o a b) := by
  by_cases h : isNaN a = true ∨ isNaN b = true
  · rw [arith_nan hw o h]
    exact orNaN_nan hw (by rcases h with h | h <;> simp [h])
  · have ha : isNaN a = false := by simpa using fun h1 => h (.inl h1)
    have hb : isNaN b = false := by simpa using fun h1 => h (.inr h1)
    rw [fpArith, orNaN2 ha hb, isNaN_valid hw]

/-- FPAdd, FPSub, FPMul and FPDiv are the operations of IEEE 754. -/
theorem fpArith_ieee (hw : Format w) (o : Arith) (a b : BitVec w) : Ieee.Result o a b (fpArith o a b) := by
  cases h : isNaN (Fp.arith o a b)
  · rw [fpArith_of hw h]; exact arith_ieee hw o a b
  · exact result_nan (arith_ieee hw o a b) h (by rw [fpArith_nan hw, h])

theorem sqrt_nan (hw : Format w) {a : BitVec w} (h : isNaN a = true) : isNaN (Fp.sqrt a) = true := by
  unfold Fp.sqrt
  simp only [h, if_true]
  exact isNaN_quiet hw h

theorem fpSqrt_of (hw : Format w) {a : BitVec w} (h : isNaN (Fp.sqrt a) = false) : fpSqrt a = Fp.sqrt a := by
  have ha : isNaN a = false := by
    cases ha : isNaN a
    · rfl
    · rw [sqrt_nan hw ha] at h; cases h
  rw [fpSqrt, orNaN1 ha, valid_of h]

theorem fpSqrt_nan (hw : Format w) (a : BitVec w) : isNaN (fpSqrt a) = isNaN (Fp.sqrt a) := by
  cases h : isNaN a
  · rw [fpSqrt, orNaN1 h, isNaN_valid hw]
  · rw [sqrt_nan hw h]
    exact orNaN_nan hw (by simp [h])

theorem fpSqrt_ieee (hw : Format w) (a : BitVec w) : Ieee.Root a (fpSqrt a) := by
  cases h : isNaN (Fp.sqrt a)
  · rw [fpSqrt_of hw h]; exact sqrt_ieee hw a
  · exact root_nan (sqrt_ieee hw a) h (by rw [fpSqrt_nan hw, h])

theorem fma_nan (hw : Format w) {a b c : BitVec w} (h : isNaN a = true ∨ isNaN b = true ∨ isNaN c = true) :
    isNaN (fma a b c) = true := by
  cases hn : isNaN (fma a b c)
  · obtain ⟨h1, h2, h3, -⟩ := fma_not_nan hw hn
    rw [h1, h2, h3] at h
    simp at h
  · rfl

theorem fpMulAdd_of (hw : Format w) {a b c : BitVec w} (h : isNaN (fma a b c) = false) :
    fpMulAdd c a b = fma a b c := by
  obtain ⟨h1, h2, h3, -⟩ := fma_not_nan hw h
  rw [fpMulAdd, if_neg (by simp [isQNaN, h3]), orNaN3 h3 h1 h2, valid_of h]

theorem fpMulAdd_nan (hw : Format w) (a b c : BitVec w) : isNaN (fpMulAdd c a b) = isNaN (fma a b c) := by
  by_cases h : isNaN a = true ∨ isNaN b = true ∨ isNaN c = true
  · rw [fma_nan hw h, fpMulAdd]
    split
    · exact isNaN_defNaN hw
    · exact orNaN_nan hw (by rcases h with h | h | h <;> simp [h])
  · have ha : isNaN a = false := by simpa using fun h1 => h (.inl h1)
    have hb : isNaN b = false := by simpa using fun h1 => h (.inr (.inl h1))
    have hc : isNaN c = false := by simpa using fun h1 => h (.inr (.inr h1))
    rw [fpMulAdd, if_neg (by simp [isQNaN, hc]), orNaN3 hc ha hb, isNaN_valid hw]

theorem fpMulAdd_ieee (hw : Format w) (a b c : BitVec w) : Ieee.Fused a b c (fpMulAdd c a b) := by
  cases h : isNaN (fma a b c)
  · rw [fpMulAdd_of hw h]; exact fma_ieee hw a b c
  · exact fused_nan (fma_ieee hw a b c) h (by rw [fpMulAdd_nan hw, h])

/-! ### Sign -/

theorem fneg_eq (hw : Format w) (a : BitVec w) : IR.fneg (some a) = some (fpNeg a) :=
  lane2_eq .fneg a (fmt_pos hw)

theorem fabs_eq (hw : Format w) (a : BitVec w) : IR.fabs (some a) = some (fpAbs a) :=
  lane2_eq .fabs a (fmt_pos hw)

theorem fpNeg_eq (hw : Format w) (a : BitVec w) : fpNeg a = a ^^^ BitVec.intMin w := by
  have := fneg_eq hw a
  simp only [IR.fneg, un_some, Option.some.injEq] at this
  exact this.symm

theorem isNaN_neg (hw : Format w) (a : BitVec w) : isNaN (fpNeg a) = isNaN a := by
  rw [fpNeg_eq hw, isNaN_xor hw]

/-! ### Two operands -/

/-- Zeros of opposite sign. -/
def zeros (a b : BitVec w) : Bool := decide (mag a = 0 ∧ mag b = 0 ∧ a.msb ≠ b.msb)

/-- Operands for which the lifted code computes the result of the architecture: the result of arithmetic
operations is not NaN; minimum and maximum have no NaN operand and no zeros of opposite sign; FMAXNM and
FMINNM have no signalling NaN, not two NaNs and no zeros of opposite sign. -/
def binFine (op : FBin) (a b : BitVec w) : Bool :=
  match op with
  | .arith o => !isNaN (Fp.arith o a b)
  | .nmul => !isNaN (Fp.arith .mul a b)
  | .abd => !isNaN (Fp.arith .sub a b)
  | .max | .min => !isNaN a && !isNaN b && !zeros a b
  | .maxnm | .minnm => !isSNaN a && !isSNaN b && !(isNaN a && isNaN b) && !zeros a b

theorem inf_facts (hw : Format w) (neg : Bool) :
    isNaN (signed w neg (infMag w)) = false ∧ mag (signed w neg (infMag w)) = infMag w ∧
      (signed w neg (infMag w)).msb = neg := by
  have h := (infMag_eq hw).2.2
  have h1 := mag_signed (fmt_pos hw) neg h
  exact ⟨by simp [isNaN, h1], h1, msb_signed (fmt_pos hw) neg h⟩

theorem mag_le {a : BitVec w} (h : isNaN a = false) : mag a ≤ infMag w := by
  simp only [isNaN, decide_eq_false_iff_not] at h; omega

/-- Minus infinity is neutral for the maximum. -/
theorem max_inf (hw : Format w) {b : BitVec w} (hb : isNaN b = false) :
    Ieee.maxNumber (signed w true (infMag w)) b = b ∧ Ieee.maxNumber b (signed w true (infMag w)) = b := by
  obtain ⟨h1, h2, h3⟩ := inf_facts hw true
  have h0 : 0 < infMag w := by rcases hw with rfl | rfl <;> decide
  have hm := mag_le hb
  have kI : key (signed w true (infMag w)) = - (infMag w : Int) := by simp [key, h2, h3]
  have kb : key b = if b.msb then - (mag b : Int) else mag b := rfl
  unfold Ieee.maxNumber
  simp only [h1, hb, Bool.false_eq_true, if_false]
  by_cases e : b = signed w true (infMag w)
  · subst e; simp [less_self]
  · have hk : key (signed w true (infMag w)) < key b := by
      rcases Int.lt_trichotomy (key (signed w true (infMag w))) (key b) with h | h | h
      · exact h
      · have := key_eq hw h (Ne.symm e); omega
      · rw [kI, kb] at h; split at h <;> omega
    obtain ⟨l1, l2⟩ := less_of_key hk
    simp [l1, l2]

theorem min_inf (hw : Format w) {b : BitVec w} (hb : isNaN b = false) :
    Ieee.minNumber (signed w false (infMag w)) b = b ∧ Ieee.minNumber b (signed w false (infMag w)) = b := by
  obtain ⟨h1, h2, h3⟩ := inf_facts hw false
  have h0 : 0 < infMag w := by rcases hw with rfl | rfl <;> decide
  have hm := mag_le hb
  have kI : key (signed w false (infMag w)) = (infMag w : Int) := by simp [key, h2, h3]
  have kb : key b = if b.msb then - (mag b : Int) else mag b := rfl
  unfold Ieee.minNumber
  simp only [h1, hb, Bool.false_eq_true, if_false]
  by_cases e : b = signed w false (infMag w)
  · subst e; simp [less_self]
  · have hk : key b < key (signed w false (infMag w)) := by
      rcases Int.lt_trichotomy (key (signed w false (infMag w))) (key b) with h | h | h
      · rw [kI, kb] at h; split at h <;> omega
      · have := key_eq hw h (Ne.symm e); omega
      · exact h
    obtain ⟨l1, l2⟩ := less_of_key hk
    simp [l1, l2]

theorem not_zeros {a b : BitVec w} (h : zeros a b = false) : ¬ (mag a = 0 ∧ mag b = 0 ∧ a.msb ≠ b.msb) := by
  simpa only [zeros, decide_eq_false_iff_not] using h

theorem fpMaxNum_eq (hw : Format w) {a b : BitVec w} (ha : isSNaN a = false) (hb : isSNaN b = false)
    (hab : ¬ (isNaN a = true ∧ isNaN b = true)) :
    fpMaxNum a b = Ieee.maxNumber a b ∧ fpMinNum a b = Ieee.minNumber a b := by
  have qa : isQNaN a = isNaN a := by simp [isQNaN, ha]
  have qb : isQNaN b = isNaN b := by simp [isQNaN, hb]
  unfold fpMaxNum fpMinNum fpMax fpMin
  rw [qa, qb]
  cases na : isNaN a <;> cases nb : isNaN b
  · simp only [Bool.false_and, Bool.not_false, Bool.and_false, Bool.false_eq_true, if_false, orNaN2 na nb, and_self]
  · simp only [Bool.false_and, Bool.not_false, Bool.and_true, Bool.false_eq_true, if_false, if_true,
      orNaN2 na (inf_facts hw true).1, orNaN2 na (inf_facts hw false).1, (max_inf hw na).2, (min_inf hw na).2]
    simp [Ieee.maxNumber, Ieee.minNumber, na, nb]
  · simp only [Bool.true_and, Bool.not_false, if_true,
      orNaN2 (inf_facts hw true).1 nb, orNaN2 (inf_facts hw false).1 nb, (max_inf hw nb).1, (min_inf hw nb).1]
    simp [Ieee.maxNumber, Ieee.minNumber, na, nb]
  · exact absurd ⟨na, nb⟩ hab

theorem laneBin_eq (hw : Format w) (op : FBin) {a b : BitVec w} (h : binFine op a b = true) :
    laneBin op (some a) (some b) = some (fbin2 op a b) := by
  cases op with
  | arith o =>
    simp only [binFine, Bool.not_eq_true'] at h
    simp only [laneBin, fbin2, fpArith_of hw h, fbin, bin_some]
  | nmul =>
    simp only [binFine, Bool.not_eq_true'] at h
    simp only [laneBin, fbin2, fpArith_of hw h, fbin, bin_some, fneg_eq hw]
  | abd =>
    simp only [binFine, Bool.not_eq_true'] at h
    simp only [laneBin, fbin2, fpArith_of hw h, fbin, bin_some, fabs_eq hw]
  | max =>
    simp only [binFine, Bool.and_eq_true, Bool.not_eq_true'] at h
    simp only [laneBin, fbin2, fpMax, orNaN2 h.1.1 h.1.2]
    exact maxnum_eq hw (by simp [h.1.1]) (not_zeros h.2)
  | min =>
    simp only [binFine, Bool.and_eq_true, Bool.not_eq_true'] at h
    simp only [laneBin, fbin2, fpMin, orNaN2 h.1.1 h.1.2]
    exact minnum_eq hw (by simp [h.1.1]) (not_zeros h.2)
  | maxnm =>
    simp only [binFine, Bool.and_eq_true, Bool.not_eq_true', Bool.and_eq_false_iff] at h
    have hab : ¬ (isNaN a = true ∧ isNaN b = true) := by
      rintro ⟨h1, h2⟩; rw [h1, h2] at h; simp at h
    simp only [laneBin, fbin2, (fpMaxNum_eq hw h.1.1.1 h.1.1.2 hab).1]
    exact maxnum_eq hw hab (not_zeros h.2)
  | minnm =>
    simp only [binFine, Bool.and_eq_true, Bool.not_eq_true', Bool.and_eq_false_iff] at h
    have hab : ¬ (isNaN a = true ∧ isNaN b = true) := by
      rintro ⟨h1, h2⟩; rw [h1, h2] at h; simp at h
    simp only [laneBin, fbin2, (fpMaxNum_eq hw h.1.1.1 h.1.1.2 hab).2]
    exact minnum_eq hw hab (not_zeros h.2)

/-! ### Multiply and accumulate -/

/-- The product is not rounded and the result is not NaN. -/
def fmaFine (neg sub : Bool) (a b c : BitVec w) : Bool :=
  exactProd a b && !isNaN (fma (if neg then fpNeg a else a) b (if sub then fpNeg c else c))

theorem laneFma_eq (hw : Format w) (neg sub : Bool) {a b c : BitVec w} (h : fmaFine neg sub a b c = true) :
    laneFma neg sub (some a) (some b) (some c) = some (fmadd neg sub a b c) := by
  simp only [fmaFine, Bool.and_eq_true, Bool.not_eq_true'] at h
  obtain ⟨he, hn⟩ := h
  rw [fmadd, fpMulAdd_of hw hn]
  simp only [fpNeg_eq hw] at hn ⊢
  rw [← madd_eq hw neg sub he hn]
  cases neg <;> cases sub <;> simp only [laneFma, fbin, bin_some, IR.fneg, un_some, Bool.false_eq_true, if_true, if_false]

theorem add_comm_num (hw : Format w) {a b : BitVec w} (h : isNaN (Fp.arith .add a b) = false) :
    Fp.arith .add a b = Fp.arith .add b a := by
  obtain ⟨ha, hb⟩ := arith_num hw h
  simp only [Fp.arith, ha, hb, Bool.false_eq_true, if_false] at h ⊢
  unfold Fp.add at h ⊢
  cases ia : isInf a <;> cases ib : isInf b <;>
    simp only [ia, ib, Bool.false_eq_true, if_false, if_true, Bool.true_and, Bool.false_and] at h ⊢
  · rw [Int.add_comm (sunits a) (sunits b), Bool.and_comm]
  · by_cases hs : a.msb = b.msb
    · simp only [hs, bne_self_eq_false, Bool.false_eq_true, if_false]
      have e1 := signed_self (fmt_pos hw) a
      have e2 := signed_self (fmt_pos hw) b
      simp only [isInf, decide_eq_true_eq] at ia ib
      rw [← e1, ← e2, hs, ia, ib]
    · have : (a.msb != b.msb) = true := by simpa using hs
      simp only [this, if_true, isNaN_indef hw] at h
      cases h

theorem laneAcc_eq (hw : Format w) (sub : Bool) {d a b : BitVec w}
    (he : exactProd a b = true) (hn : isNaN (fma (if sub then fpNeg a else a) b d) = false) :
    laneAcc sub (some d) (some a) (some b) = some (fpMulAdd d (if sub then fpNeg a else a) b) := by
  rw [fpMulAdd_of hw hn]
  have hn' := hn
  simp only [fpNeg_eq hw] at hn ⊢
  have := madd_eq hw sub false he (z := d) (by simpa using hn)
  simp only [Bool.false_eq_true, if_false] at this
  rw [← this] at hn ⊢
  simp only [laneAcc, fbin, bin_some]
  cases sub
  · simp only [Bool.false_eq_true, if_false] at hn ⊢
    rw [add_comm_num hw hn]
  · simp only [if_true] at hn ⊢
    have hp := (arith_num hw hn).1
    rw [isNaN_xor hw] at hp
    rw [sub_eq hw hp, add_comm_num hw hn]

theorem zero_add_num (hw : Format w) {v : BitVec w} (hn : isNaN v = false)
    (hz : ¬ (mag v = 0 ∧ v.msb = true)) : Fp.arith .add 0 v = v := by
  have z1 : isNaN (0 : BitVec w) = false ∧ isInf (0 : BitVec w) = false ∧ sunits (0 : BitVec w) = 0 := by
    rcases hw with rfl | rfl <;> decide +kernel
  simp only [Fp.arith, z1.1, hn, Bool.false_eq_true, if_false]
  unfold Fp.add
  simp only [z1.2.1, z1.2.2, Bool.false_eq_true, if_false, Int.zero_add]
  cases iv : isInf v
  · simp only [Bool.false_eq_true, if_false]
    have hfin : mag v < infMag w := by
      have := mag_le hn
      simp only [isInf, decide_eq_false_iff_not] at iv; omega
    have hsu : sunits v = if v.msb then - (units v : Int) else units v := rfl
    by_cases h0 : mag v = 0
    · have hm : v.msb = false := by simpa [h0] using hz
      have hu : units v = 0 := by rw [units_eq, h0, unitsM_zero]
      have hs0 : sunits v = 0 := by rw [hsu, hu]; simp
      rw [if_pos hs0]
      have := signed_self (fmt_pos hw) v
      rw [h0, hm] at this
      rw [hm, Bool.and_false]; exact this
    · have hp := units_pos h0
      have hs0 : sunits v ≠ 0 := by rw [hsu]; split <;> omega
      rw [if_neg hs0]
      have h1 : decide (sunits v < 0) = v.msb := by
        rw [hsu]; cases v.msb
        · simp only [Bool.false_eq_true, if_false, decide_eq_false_iff_not]; omega
        · simp only [if_true, decide_eq_true_eq]; omega
      have h2 : (sunits v).natAbs = units v := by rw [hsu]; split <;> omega
      rw [h1, h2, round_eq, roundMag_exact hw (m := mag v) (by decide) (by omega)
        (by rw [units_eq, Nat.mul_one])]
      exact signed_self (fmt_pos hw) v
  · simp only [if_true]

/-- Operands of the operations by element (and FMLA, FMLS): the product of FMUL on vectors is not the
negative zero. -/
def accFine (op : FAcc) (scalar : Bool) (d a b : BitVec w) : Bool :=
  match op with
  | .mul => !isNaN (Fp.arith .mul a b) &&
      (scalar || !decide (mag (Fp.arith .mul a b) = 0 ∧ (Fp.arith .mul a b).msb = true))
  | .mla => exactProd a b && !isNaN (fma a b d)
  | .mls => exactProd a b && !isNaN (fma (fpNeg a) b d)

theorem scalarElem_eq (hw : Format w) (op : FAcc) {d a b : BitVec w} (h : accFine op true d a b = true) :
    scalarElem op (some d) (some a) (some b) = some (facc op d a b) := by
  cases op <;> simp only [accFine, Bool.and_eq_true, Bool.not_eq_true', Bool.true_or, and_true] at h
  · simp only [scalarElem, facc, fbin, bin_some, fpArith_of hw h]
  · exact laneAcc_eq hw false h.1 (by simpa using h.2)
  · exact laneAcc_eq hw true h.1 (by simpa using h.2)

theorem laneElem_eq (hw : Format w) (op : FAcc) {d a b : BitVec w} (h : accFine op false d a b = true) :
    laneElem op (some d) (some a) (some b) = some (facc op d a b) := by
  cases op <;> simp only [accFine, Bool.and_eq_true, Bool.not_eq_true', Bool.false_or, decide_eq_false_iff_not] at h
  · simp only [laneElem, laneAcc, facc, fbin, bin_some, fpArith_of hw h.1, Bool.false_eq_true, if_false]
    exact congrArg some (zero_add_num hw h.1 h.2)
  · exact laneAcc_eq hw false h.1 (by simpa using h.2)
  · exact laneAcc_eq hw true h.1 (by simpa using h.2)

/-! ### Rounding and conversion -/

theorem roundDir_eq (mode : Rnd) : mode.mode = roundDir mode := by cases mode <;> rfl

theorem fpRoundInt_of {a : BitVec w} (mode : Mode) (h : isNaN a = false) :
    fpRoundInt mode a = integral mode a := by rw [fpRoundInt, orNaN1 h]

/-- The value converted to an integer fits. -/
def intFine (sgn : Bool) (mode : Mode) (fbits v : Nat) (a : BitVec w) : Bool :=
  match toFixed mode fbits a with
  | some z => decide (loInt sgn v ≤ z ∧ z ≤ hiInt sgn v)
  | none => false

theorem pow_le_64 {v : Nat} (hv : Format v) : (2 : Int) ^ v ≤ 2 ^ 64 ∧ (2 : Int) ^ (v - 1) ≤ 2 ^ 64 := by
  rcases hv with rfl | rfl <;> decide

theorem natAbs_le {sgn : Bool} {v : Nat} (hv : Format v) {z : Int} (h1 : loInt sgn v ≤ z) (h2 : z ≤ hiInt sgn v) :
    z.natAbs ≤ 2 ^ 64 := by
  unfold loInt at h1
  unfold hiInt at h2
  rcases hv with rfl | rfl <;> cases sgn <;> simp only [Bool.false_eq_true, if_true, if_false] at h1 h2 <;> omega

theorem laneToInt_eq (hw : Format w) {v : Nat} (hv : Format v) (sgn : Bool) (mode : Mode) {fbits : Nat}
    (hf : fbits ≤ 64) {a : BitVec w} (h : intFine sgn mode fbits v a = true) :
    laneToInt sgn mode fbits v (some a) = some (BitVec.ofInt v (fpToFixed sgn mode fbits v a)) := by
  unfold intFine at h
  cases hz : toFixed mode fbits a with
  | none => rw [hz] at h; cases h
  | some z =>
    rw [hz] at h
    simp only [decide_eq_true_eq] at h
    have hfx : fpToFixed sgn mode fbits v a = z := by simp only [fpToFixed, hz]; omega
    have hi : ∃ x : BitVec w, frint mode (if fbits > 0 then fbin .mul (some a) (some (pow2 w fbits)) else some a)
        = some x ∧ toInt x = some z := by
      by_cases h0 : fbits > 0
      · refine ⟨integral mode (Fp.arith .mul a (pow2 w fbits)), ?_, ?_⟩
        · simp only [h0, if_true, fbin, bin_some, frint, un_some]
        · exact toInt_scaled hw mode hf hz (natAbs_le hv h.1 h.2)
      · have e : fbits = 0 := by omega
        subst e
        refine ⟨integral mode a, ?_, ?_⟩
        · simp only [h0, if_false, frint, un_some]
        · rw [toInt_integral hw, ← toFixed_zero, hz]
    obtain ⟨x, hx1, hx2⟩ := hi
    simp only [laneToInt]
    rw [hx1, hfx]
    obtain ⟨h1, h2⟩ := h
    unfold loInt at h1
    unfold hiInt at h2
    cases sgn
    · simp only [fptoui, Option.bind_some, hx2, Bool.false_eq_true, if_false] at h1 h2 ⊢
      exact if_pos ⟨by omega, by omega⟩
    · simp only [fptosi, Option.bind_some, hx2, if_true] at h1 h2 ⊢
      exact if_pos ⟨by omega, by omega⟩

theorem val_natAbs {w : Nat} (hw : Format w) (sgn : Bool) (a : BitVec w) : (val sgn a).natAbs ≤ 2 ^ 64 := by
  have h1 := a.isLt
  have h2 := BitVec.le_toInt a
  have h3 := @BitVec.toInt_le w a
  rcases hw with rfl | rfl <;> cases sgn <;> simp only [val, Bool.false_eq_true, if_true, if_false] <;> omega

theorem laneOfInt_eq {v : Nat} (hw : Format w) (hv : Format v) (sgn : Bool) {fbits : Nat} (hf : fbits ≤ 64)
    (a : BitVec w) : laneOfInt sgn fbits v (some a) = some (ofFixed v fbits (val sgn a)) := by
  have e : (if sgn then sitofp v (some a) else uitofp v (some a)) = some (Fp.ofInt v (val sgn a)) := by
    cases sgn <;> rfl
  unfold laneOfInt
  simp only
  rw [e]
  by_cases h0 : fbits > 0
  · simp only [h0, if_true, fbin, bin_some]
    rw [div_pow2 hv hf (val_natAbs hw sgn a)]
  · have e : fbits = 0 := by omega
    subst e
    simp only [h0, if_false, ofFixed_zero]

/-! ### Immediates -/

theorem expandImm_conv : ∀ i : BitVec 8, conv 32 (expandImm 64 i) = expandImm 32 i ∧
    conv 64 (expandImm 64 i) = expandImm 64 i := by
  have h : (List.range 256).all (fun i => (conv 32 (expandImm 64 (BitVec.ofNat 8 i)) == expandImm 32 (BitVec.ofNat 8 i)) &&
      (conv 64 (expandImm 64 (BitVec.ofNat 8 i)) == expandImm 64 (BitVec.ofNat 8 i))) = true := by decide +kernel
  intro i
  rw [List.all_eq_true] at h
  have := h i.toNat (List.mem_range.2 i.isLt)
  simpa using this

theorem imm_eq (hw : Format w) {imm : BitVec 64} {i : BitVec 8} (h : immOf imm = some i) :
    conv w imm = expandImm w i := by
  have e := List.find?_some h
  simp only [beq_iff_eq] at e
  rw [← e]
  rcases hw with rfl | rfl
  · exact (expandImm_conv i).1
  · exact (expandImm_conv i).2

/-! ### Reductions -/

/-- Order in which the negative zero is below the positive one. -/
def ord (x : BitVec w) : Int := 2 * key x + (if x.msb then 0 else 1)

theorem less_ord (x y : BitVec w) : Ieee.less x y = decide (ord x < ord y) := by
  unfold Ieee.less ord
  have hx : key x = if x.msb then - (mag x : Int) else mag x := rfl
  have hy : key y = if y.msb then - (mag y : Int) else mag y := rfl
  cases hmx : x.msb <;> cases hmy : y.msb <;> simp only [hmx, hmy, Bool.false_eq_true, if_true, if_false] at hx hy <;>
    simp only [Bool.and_false, Bool.and_true, Bool.not_true, Bool.not_false, Bool.false_eq_true, if_true, if_false,
      Bool.or_false] <;> rw [Bool.eq_iff_iff] <;> simp only [Bool.or_eq_true, decide_eq_true_eq] <;> omega

/-- Greatest or least of two elements by a measure. -/
def pick (f : BitVec w → Int) (x y : BitVec w) : BitVec w := if f x < f y then y else x

theorem pick_or (f : BitVec w → Int) (x y : BitVec w) : pick f x y = x ∨ pick f x y = y := by
  unfold pick; split
  · exact .inr rfl
  · exact .inl rfl

theorem pick_assoc (f : BitVec w → Int) (x y z : BitVec w) : pick f (pick f x y) z = pick f x (pick f y z) := by
  unfold pick
  by_cases h1 : f x < f y <;> by_cases h2 : f y < f z <;> by_cases h3 : f x < f z <;>
    simp only [h1, h2, h3, if_true, if_false] <;> omega

end Verif.A64.Spec
