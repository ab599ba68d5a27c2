import Verif.IR.FpOpsProofs

/-!
Fixed-point conversions: multiplying or dividing by a power of two.  `toFixed` and `ofFixed` say what the
conversions yield, with one rounding of the exact value; the theorems show that the conversion to or from
an integer combined with a multiplication or division by `2^f` in the format yields the same.
-/

set_option linter.unusedSimpArgs false

namespace Verif.Fp

variable {w : Nat}

/-- `x * 2^f` rounded to an integer; `none` for NaN and infinity. -/
def toFixed (mode : Mode) (f : Nat) (x : BitVec w) : Option Int :=
  if isNaN x || isInf x then none
  else
    let q := (roundQ mode x.msb (units x * 2 ^ f) (2 ^ uexp w) : Int)
    some (if x.msb then - q else q)

/-- The number nearest to `z / 2^f`, ties to even. -/
def ofFixed (w f : Nat) (z : Int) : BitVec w := round w (decide (z < 0)) (z.natAbs * 2 ^ uexp w) (2 ^ f)

/-- `2^f` as a number: a constant of double precision converted to the format. -/
def pow2 (w f : Nat) : BitVec w := conv w (ofInt 64 (2 ^ f))

theorem toFixed_zero (mode : Mode) (x : BitVec w) : toFixed mode 0 x = toIntM mode x := by
  simp only [toFixed, toIntM, Nat.pow_zero, Nat.mul_one]

theorem ofFixed_zero (w : Nat) (z : Int) : ofFixed w 0 z = ofInt w z := by
  simp only [ofFixed, ofInt, Nat.pow_zero]

theorem pow2_facts (hw : Format w) {f : Nat} (hf : f ≤ 64) :
    mag (pow2 w f) < infMag w ∧ mag (pow2 w f) ≠ 0 ∧ (pow2 w f).msb = false ∧
      units (pow2 w f) = 2 ^ f * 2 ^ uexp w := by
  have h : ∀ f : Fin 65, (mag (pow2 32 f) < infMag 32 ∧ mag (pow2 32 f) ≠ 0 ∧ (pow2 32 f).msb = false ∧
      units (pow2 32 f) = 2 ^ f.val * 2 ^ uexp 32) ∧ (mag (pow2 64 f) < infMag 64 ∧ mag (pow2 64 f) ≠ 0 ∧
      (pow2 64 f).msb = false ∧ units (pow2 64 f) = 2 ^ f.val * 2 ^ uexp 64) := by decide +kernel
  rcases hw with rfl | rfl
  · exact (h ⟨f, by omega⟩).1
  · exact (h ⟨f, by omega⟩).2

theorem mag_cases (x : BitVec w) (h : (isNaN x || isInf x) = false) : mag x < infMag w := by
  simp only [Bool.or_eq_false_iff, isNaN, isInf, decide_eq_false_iff_not] at h
  omega

theorem not_nan_of_lt {x : BitVec w} (h : mag x < infMag w) : isNaN x = false ∧ isInf x = false := by
  simp only [isNaN, isInf, decide_eq_false_iff_not]; omega

/-- A number with few significant digits that is not too large is representable. -/
theorem rep_digits {r j : Nat} (hr : r < 2 ^ (mantBits w + 1))
    (hlt : r * 2 ^ j < unitsM w (infMag w)) : ∃ m, m < infMag w ∧ unitsM w m = r * 2 ^ j := by
  have hb := log2_bounds (a := r * 2 ^ j) (p := mantBits w)
  have hk : Nat.log2 (r * 2 ^ j) - mantBits w ≤ j := by
    by_cases h0 : r * 2 ^ j = 0
    · rw [h0]; simp [show Nat.log2 0 = 0 by decide]
    · have hl := Nat.log2_self_le h0
      rcases Nat.lt_or_ge (mantBits w + j) (Nat.log2 (r * 2 ^ j)) with h | h
      · exfalso
        have e1 : 2 ^ (mantBits w + 1 + j) ≤ 2 ^ Nat.log2 (r * 2 ^ j) := Nat.pow_le_pow_right (by decide) (by omega)
        have e2 := Nat.mul_lt_mul_of_pos_right hr (Nat.two_pow_pos j)
        rw [← Nat.pow_add] at e2
        omega
      · omega
  generalize Nat.log2 (r * 2 ^ j) - mantBits w = k at *
  have hq : r * 2 ^ j = r * 2 ^ (j - k) * 2 ^ k := by
    rw [Nat.mul_assoc, ← Nat.pow_add]; congr 2; omega
  rw [hq] at hb
  have h1 : r * 2 ^ (j - k) < 2 ^ (mantBits w + 1) := by
    have := hb.1
    rw [Nat.pow_add] at this
    exact Nat.lt_of_mul_lt_mul_right this
  have h2 : k = 0 ∨ 2 ^ mantBits w ≤ r * 2 ^ (j - k) := by
    refine hb.2.imp id fun h => ?_
    rw [Nat.pow_add] at h
    exact Nat.le_of_mul_le_mul_right h (Nat.two_pow_pos k)
  have hu := unitsM_of w k (r * 2 ^ (j - k)) (Nat.le_of_lt h1) h2
  rw [← hq] at hu
  refine ⟨_, ?_, hu⟩
  rcases Nat.lt_or_ge (k * 2 ^ mantBits w + r * 2 ^ (j - k)) (infMag w) with h | h
  · exact h
  · have := unitsM_le (w := w) h
    omega

/-- Multiplying with a power of two is exact unless it overflows. -/
theorem mul_pow2 (hw : Format w) {f : Nat} (hf : f ≤ 64) {x : BitVec w} (hx : mag x < infMag w)
    (hlt : units x * 2 ^ f < unitsM w (infMag w)) :
    ∃ m, m < infMag w ∧ unitsM w m = units x * 2 ^ f ∧ arith .mul x (pow2 w f) = signed w x.msb m := by
  obtain ⟨p1, p2, p3, p4⟩ := pow2_facts hw hf
  obtain ⟨m, hm, hmu⟩ : ∃ m, m < infMag w ∧ unitsM w m = units x * 2 ^ f := by
    obtain ⟨k, r, e, h1, h2⟩ := decomp w (mag x)
    have hu := unitsM_of w k r (Nat.le_of_lt h1) h2
    rw [← e, ← units_eq] at hu
    rw [hu, Nat.mul_assoc, ← Nat.pow_add] at hlt ⊢
    exact rep_digits h1 hlt
  refine ⟨m, hm, hmu, ?_⟩
  have hn := not_nan_of_lt hx
  have hn' := not_nan_of_lt p1
  simp only [arith, mul, hn.1, hn.2, hn'.1, hn'.2, Bool.or_self, Bool.false_eq_true, if_false, p3, p4, Bool.bne_false]
  rw [round_eq, roundMag_exact hw (Nat.two_pow_pos _) (Nat.le_of_lt hm)]
  rw [hmu, Nat.mul_assoc]

/-- Conversion to a fixed-point number of at most 65 bits: multiply, round, convert. -/
theorem toInt_scaled (hw : Format w) (mode : Mode) {f : Nat} (hf : f ≤ 64) {x : BitVec w} {z : Int}
    (hz : toFixed mode f x = some z) (hb : z.natAbs ≤ 2 ^ 64) :
    toInt (integral mode (arith .mul x (pow2 w f))) = some z := by
  rw [toInt_integral hw]
  unfold toFixed at hz
  split at hz
  · cases hz
  next hn =>
    have hn : (isNaN x || isInf x) = false := by simpa using hn
    have hx := mag_cases x hn
    have hD := Nat.two_pow_pos (uexp w)
    have hlt : units x * 2 ^ f < unitsM w (infMag w) := by
      have hq := roundQ_bounds mode x.msb (units x * 2 ^ f) _ hD
      have hbig : (2 ^ 64 + 1) * 2 ^ uexp w ≤ unitsM w (infMag w) := by
        rcases hw with rfl | rfl <;> decide +kernel
      have hqz : roundQ mode x.msb (units x * 2 ^ f) (2 ^ uexp w) = z.natAbs := by
        simp only [Option.some.injEq] at hz
        rw [← hz]
        split <;> simp
      have hdiv : units x * 2 ^ f / 2 ^ uexp w < 2 ^ 64 + 1 := by omega
      rw [Nat.div_lt_iff_lt_mul hD] at hdiv
      omega
    obtain ⟨m, hm, hmu, he⟩ := mul_pow2 hw hf hx hlt
    have hmlt : m < 2 ^ (w - 1) := by have := (infMag_eq hw).2.2; omega
    have hmag := mag_signed (fmt_pos hw) x.msb hmlt
    have hmsb := msb_signed (fmt_pos hw) x.msb hmlt
    rw [he]
    have hn2 := not_nan_of_lt (x := signed w x.msb m) (by rw [hmag]; exact hm)
    unfold toIntM
    simp only [hn2.1, hn2.2, Bool.or_self, Bool.false_eq_true, if_false, hmsb, units_eq, hmag, hmu]
    rw [← units_eq]
    exact hz

/-- Converting an integer and dividing by a power of two rounds only once. -/
theorem div_pow2 (hw : Format w) {f : Nat} (hf : f ≤ 64) {z : Int} (hz : z.natAbs ≤ 2 ^ 64) :
    arith .div (ofInt w z) (pow2 w f) = ofFixed w f z := by
  obtain ⟨p1, p2, p3, p4⟩ := pow2_facts hw hf
  have hn' := not_nan_of_lt p1
  have hD := Nat.two_pow_pos (uexp w)
  -- the conversion does not overflow
  have hnum : mantBits w + 64 ≤ uexp w ∧ (uexp w + 64 - mantBits w) * 2 ^ mantBits w + 2 * 2 ^ mantBits w < infMag w := by
    rcases hw with rfl | rfl <;> decide
  have hP1 : 2 ^ (mantBits w + 1) = 2 * 2 ^ mantBits w := by rw [Nat.pow_succ, Nat.mul_comm]
  unfold ofInt ofFixed
  generalize hneg : decide (z < 0) = neg
  by_cases h0 : z.natAbs = 0
  · have e0 : ∀ d, 0 < d → roundMag w 0 d = 0 := fun d hd =>
      roundMag_exact hw hd (Nat.zero_le _) (by rw [unitsM_zero, Nat.zero_mul])
    rw [h0, Nat.zero_mul, round_eq, round_eq, e0 1 (by decide), e0 _ (Nat.two_pow_pos f)]
    have hm0 := mag_signed (fmt_pos hw) neg (Nat.two_pow_pos (w - 1))
    have hs0 := msb_signed (fmt_pos hw) neg (Nat.two_pow_pos (w - 1))
    have hi0 : 0 < infMag w := by omega
    have hn := not_nan_of_lt (x := signed w neg 0) (by rw [hm0]; exact hi0)
    simp only [arith, div, hn.1, hn.2, hn'.1, hn'.2, Bool.false_eq_true, if_false, p2, hs0, p3, Bool.bne_false,
      units_eq, hm0, unitsM_zero, Nat.zero_mul]
    rw [round_eq, e0]
    rw [← units_eq, p4]
    exact Nat.mul_pos (Nat.two_pow_pos f) hD
  -- `N` units
  generalize hN : z.natAbs * 2 ^ uexp w = N
  have hNpos : N ≠ 0 := by
    rw [← hN]; exact Nat.mul_ne_zero h0 (by omega)
  have hNlo : 2 ^ uexp w ≤ N := by
    rw [← hN]; exact Nat.le_mul_of_pos_left _ (by omega)
  have hNhi : N ≤ 2 ^ (64 + uexp w) := by
    rw [← hN, Nat.pow_add]; exact Nat.mul_le_mul_right _ hz
  have l1 := Nat.log2_self_le hNpos
  have l2 := Nat.lt_log2_self (n := N)
  have hl1 : uexp w ≤ Nat.log2 N := (Nat.le_log2 hNpos).2 hNlo
  have hl2 : Nat.log2 N ≤ 64 + uexp w := by
    rcases Nat.lt_or_ge (64 + uexp w) (Nat.log2 N) with h | h
    · have := Nat.pow_lt_pow_right (a := 2) (by decide) h
      omega
    · exact h
  have hlogd : Nat.log2 (N / 2 ^ f) = Nat.log2 N - f := by
    have hne : N / 2 ^ f ≠ 0 := by
      have : 2 ^ f ≤ N := Nat.le_trans (Nat.pow_le_pow_right (by decide) (by omega)) hNlo
      have := Nat.div_pos this (Nat.two_pow_pos f)
      omega
    rw [Nat.log2_eq_iff hne]
    constructor
    · rw [Nat.le_div_iff_mul_le (Nat.two_pow_pos f), ← Nat.pow_add, show Nat.log2 N - f + f = Nat.log2 N by omega]
      exact l1
    · rw [Nat.div_lt_iff_lt_mul (Nat.two_pow_pos f), ← Nat.pow_add, show Nat.log2 N - f + 1 + f = Nat.log2 N + 1 by omega]
      exact l2
  -- the mantissa
  generalize hL : Nat.log2 N = L at *
  have hq : ∃ q, rne N (2 ^ (L - mantBits w)) = q ∧ 2 ^ mantBits w ≤ q ∧ q ≤ 2 ^ (mantBits w + 1) := by
    have hlo : 2 ^ mantBits w ≤ N / 2 ^ (L - mantBits w) := by
      rw [Nat.le_div_iff_mul_le (Nat.two_pow_pos _), ← Nat.pow_add, show mantBits w + (L - mantBits w) = L by omega]
      exact l1
    have hhi : N / 2 ^ (L - mantBits w) < 2 ^ (mantBits w + 1) := by
      rw [Nat.div_lt_iff_lt_mul (Nat.two_pow_pos _), ← Nat.pow_add,
        show mantBits w + 1 + (L - mantBits w) = L + 1 by omega]
      exact l2
    refine ⟨_, rfl, ?_⟩
    unfold rne
    simp only
    split <;> omega
  obtain ⟨q, hqe, hq1, hq2⟩ := hq
  have hk1 : (L - mantBits w) * 2 ^ mantBits w ≤ (uexp w + 64 - mantBits w) * 2 ^ mantBits w :=
    Nat.mul_le_mul_right _ (by omega)
  have hk2 : (L - f - mantBits w) * 2 ^ mantBits w ≤ (L - mantBits w) * 2 ^ mantBits w :=
    Nat.mul_le_mul_right _ (by omega)
  have r1 : roundMag w N 1 = (L - mantBits w) * 2 ^ mantBits w + q := by
    unfold roundMag
    simp only [Nat.div_one, Nat.one_mul, hL, hqe]
    exact Nat.min_eq_right (by omega)
  have r2 : roundMag w N (2 ^ f) = (L - f - mantBits w) * 2 ^ mantBits w + q := by
    unfold roundMag
    simp only [hlogd]
    rw [← Nat.pow_add, show f + (L - f - mantBits w) = L - mantBits w by omega, hqe]
    exact Nat.min_eq_right (by omega)
  have u1 := unitsM_of w (L - mantBits w) q hq2 (.inr hq1)
  have u2 := unitsM_of w (L - f - mantBits w) q hq2 (.inr hq1)
  have hlt1 : (L - mantBits w) * 2 ^ mantBits w + q < infMag w := by omega
  have hlt1' : (L - mantBits w) * 2 ^ mantBits w + q < 2 ^ (w - 1) := by have := (infMag_eq hw).2.2; omega
  rw [round_eq, round_eq, r1, r2]
  have hm1 := mag_signed (fmt_pos hw) neg hlt1'
  have hs1 := msb_signed (fmt_pos hw) neg hlt1'
  have hn := not_nan_of_lt (x := signed w neg ((L - mantBits w) * 2 ^ mantBits w + q)) (by rw [hm1]; exact hlt1)
  simp only [arith, div, hn.1, hn.2, hn'.1, hn'.2, Bool.false_eq_true, if_false, p2, hs1, p3, Bool.bne_false]
  rw [round_eq, p4, units_eq, hm1, u1]
  rw [roundMag_exact hw (m := (L - f - mantBits w) * 2 ^ mantBits w + q)
    (Nat.mul_pos (Nat.two_pow_pos f) hD) (by omega)]
  rw [u2, ← Nat.mul_assoc]
  congr 1
  rw [Nat.mul_assoc, ← Nat.pow_add]
  congr 2
  omega

/-! Sanity checks: 1.5 with 4 fraction bits is 24; 24 / 16 is 1.5. -/

example : toFixed .zero 4 0x3fc00000#32 = some 24 := by decide +kernel
example : ofFixed 32 4 24 = 0x3fc00000#32 := by decide +kernel
example : toFixed .down 1 0xbfa00000#32 = some (-3) := by decide +kernel

end Verif.Fp
