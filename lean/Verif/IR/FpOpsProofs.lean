import Verif.IR.FpOps

/-! Facts about the floating-point operations that the proofs about the lifters use. -/

set_option linter.unusedSimpArgs false

namespace Verif.Fp

variable {w : Nat}

theorem toInt_eq (x : BitVec w) : toInt x = toIntM .zero x := by
  unfold toInt toIntM roundQ
  simp only [Int.natCast_ediv, Int.natCast_pow, Int.cast_ofNat_Int]

theorem roundQ_bounds (mode : Mode) (neg : Bool) (n d : Nat) (hd : 0 < d) :
    roundQ mode neg n d = n / d ∨ (roundQ mode neg n d = n / d + 1 ∧ n % d ≠ 0) := by
  have h1 := Nat.div_add_mod n d
  have h2 := Nat.mod_lt n hd
  rw [Nat.mul_comm] at h1
  have up : (n + (d - 1)) / d = if n % d = 0 then n / d else n / d + 1 := by
    conv => lhs; rw [← h1]
    rw [Nat.add_assoc, Nat.add_comm, Nat.add_mul_div_right _ _ hd]
    split
    · rw [Nat.div_eq_of_lt (by omega)]; omega
    · rw [show n % d + (d - 1) = (n % d - 1) + d by omega, Nat.add_div_right _ hd,
        Nat.div_eq_of_lt (by omega)]; omega
  have aw : (2 * n + d) / (2 * d) = if 2 * (n % d) < d then n / d else n / d + 1 := by
    have e : 2 * n + d = (2 * (n % d) + d) + n / d * (2 * d) := by
      rw [Nat.mul_left_comm]; omega
    rw [e, Nat.add_mul_div_right _ _ (by omega)]
    split
    · rw [Nat.div_eq_of_lt (by omega)]; omega
    · rw [show 2 * (n % d) + d = (2 * (n % d) - d) + 2 * d by omega, Nat.add_div_right _ (by omega),
        Nat.div_eq_of_lt (by omega)]; omega
  have hup : (n + (d - 1)) / d = n / d ∨ ((n + (d - 1)) / d = n / d + 1 ∧ n % d ≠ 0) := by
    rw [up]; split
    · exact .inl rfl
    next h => exact .inr ⟨rfl, h⟩
  cases mode
  · simp only [roundQ, rne]
    split
    · exact .inl rfl
    · exact .inr ⟨rfl, by omega⟩
  · exact .inl rfl
  · simp only [roundQ]
    cases neg
    · exact .inl rfl
    · exact hup
  · simp only [roundQ]
    cases neg
    · exact hup
    · exact .inl rfl
  · simp only [roundQ, aw]
    split
    · exact .inl rfl
    · exact .inr ⟨rfl, by omega⟩

/-- Small integers are representable. -/
theorem rep_small (hw : Format w) {q : Nat} (hq : q ≤ 2 ^ mantBits w) :
    ∃ m, m < infMag w ∧ unitsM w m = q * 2 ^ uexp w := by
  have hnum : mantBits w ≤ uexp w ∧ (uexp w + 2) * 2 ^ mantBits w < infMag w := by
    rcases hw with rfl | rfl <;> decide
  by_cases h0 : q = 0
  · exact ⟨0, by omega, by rw [h0, unitsM_zero, Nat.zero_mul]⟩
  · have hl1 := Nat.log2_self_le h0
    have hl2 := Nat.lt_log2_self (n := q)
    have hlp : Nat.log2 q ≤ mantBits w := by
      rcases Nat.lt_or_ge (mantBits w) (Nat.log2 q) with h | h
      · have := Nat.pow_lt_pow_right (a := 2) (by decide) h
        omega
      · exact h
    generalize Nat.log2 q = l at *
    have e1 : q * 2 ^ (mantBits w - l) < 2 ^ (mantBits w + 1) := by
      rw [show mantBits w + 1 = (l + 1) + (mantBits w - l) by omega, Nat.pow_add]
      exact Nat.mul_lt_mul_of_pos_right hl2 (Nat.two_pow_pos _)
    have e2 : 2 ^ mantBits w ≤ q * 2 ^ (mantBits w - l) := by
      conv => lhs; rw [show mantBits w = l + (mantBits w - l) by omega, Nat.pow_add]
      exact Nat.mul_le_mul_right _ hl1
    refine ⟨(uexp w - (mantBits w - l)) * 2 ^ mantBits w + q * 2 ^ (mantBits w - l), ?_, ?_⟩
    · have := Nat.mul_le_mul_right (2 ^ mantBits w) (Nat.sub_le (uexp w) (mantBits w - l))
      rw [Nat.pow_succ] at e1
      rw [Nat.add_mul] at hnum
      omega
    · rw [unitsM_of w _ _ (by omega) (.inr e2), Nat.mul_assoc, ← Nat.pow_add]
      congr 2
      omega

/-- A large number is an integer. -/
theorem big_integer {m : Nat} (h : 2 ^ mantBits w * 2 ^ uexp w ≤ unitsM w m) :
    unitsM w m % 2 ^ uexp w = 0 := by
  obtain ⟨k, r, rfl, h1, h2⟩ := decomp w m
  rw [unitsM_of w k r (by omega) h2] at h ⊢
  by_cases hk : uexp w ≤ k
  · rw [show k = (k - uexp w) + uexp w by omega, Nat.pow_add, ← Nat.mul_assoc]
    exact Nat.mul_mod_left _ _
  · -- then `r * 2^k < 2^(p + 1) * 2^(uexp - 1)`
    exfalso
    have e : 2 ^ (mantBits w + 1) * 2 ^ k ≤ 2 ^ mantBits w * 2 ^ uexp w := by
      rw [← Nat.pow_add, ← Nat.pow_add]
      exact Nat.pow_le_pow_right (by decide) (by omega)
    have := Nat.mul_lt_mul_of_pos_right h1 (Nat.two_pow_pos k)
    omega

/-- A finite number rounded to an integer is representable. -/
theorem integral_rep (hw : Format w) (mode : Mode) (neg : Bool) {m : Nat} (hm : m < infMag w) :
    ∃ m', m' < infMag w ∧ unitsM w m' = roundQ mode neg (unitsM w m) (2 ^ uexp w) * 2 ^ uexp w := by
  have hD := Nat.two_pow_pos (uexp w)
  have hb := roundQ_bounds mode neg (unitsM w m) _ hD
  have hdm := Nat.div_add_mod (unitsM w m) (2 ^ uexp w)
  rw [Nat.mul_comm] at hdm
  by_cases h : unitsM w m % 2 ^ uexp w = 0
  · refine ⟨m, hm, ?_⟩
    rcases hb with hb | ⟨-, hb⟩
    · rw [hb]; omega
    · exact absurd h hb
  · have hlt : unitsM w m < 2 ^ mantBits w * 2 ^ uexp w := by
      rcases Nat.lt_or_ge (unitsM w m) (2 ^ mantBits w * 2 ^ uexp w) with h' | h'
      · exact h'
      · exact absurd (big_integer h') h
    have hq : unitsM w m / 2 ^ uexp w < 2 ^ mantBits w := by
      rwa [Nat.div_lt_iff_lt_mul hD]
    exact rep_small hw (by omega)

/-- Rounding to an integral number and then converting is converting with rounding. -/
theorem toInt_integral (hw : Format w) (mode : Mode) (x : BitVec w) :
    toInt (integral mode x) = toIntM mode x := by
  rw [toInt_eq]
  unfold integral
  cases hn : isNaN x
  · cases hi : isInf x
    · have hm : mag x < infMag w := by
        simp only [isNaN, decide_eq_false_iff_not] at hn
        simp only [isInf, decide_eq_false_iff_not] at hi
        omega
      obtain ⟨m', h1, h2⟩ := integral_rep hw mode x.msb hm
      simp only [Bool.false_eq_true, if_false]
      rw [units_eq, ← h2]
      have hmag : mag (round w x.msb (unitsM w m') 1) = m' := by
        rw [mag_round hw, roundMag_exact hw (by decide) (by omega) (Nat.mul_one _)]
      unfold toIntM
      simp only [hn, hi, round_not_nan hw, Bool.false_or, Bool.false_eq_true, if_false]
      have hni : isInf (round w x.msb (unitsM w m') 1) = false := by
        simp only [isInf, hmag, decide_eq_false_iff_not]; omega
      simp only [hni, Bool.false_eq_true, if_false, msb_round hw, units_eq, hmag]
      rw [show roundQ .zero x.msb (unitsM w m') (2 ^ uexp w) = unitsM w m' / 2 ^ uexp w from rfl, h2,
        Nat.mul_div_cancel _ (Nat.two_pow_pos _)]
    · simp only [Bool.false_eq_true, if_false, if_true, toIntM, hn, hi, Bool.false_or]
  · have := isNaN_quiet hw hn
    simp only [if_true, toIntM, this, hn, Bool.true_or]

/-! ### Multiplication followed by addition -/

/-- The product is infinite, or finite and not rounded. -/
def ExactProd (x y : BitVec w) : Prop :=
  isInf x = true ∨ isInf y = true ∨
    ∃ m, m < infMag w ∧ unitsM w m * 2 ^ uexp w = units x * units y

theorem fma_not_nan (hw : Format w) {x y z : BitVec w} (h : isNaN (fma x y z) = false) :
    isNaN x = false ∧ isNaN y = false ∧ isNaN z = false ∧
      ((isInf x || isInf y) = true → mag x ≠ 0 ∧ mag y ≠ 0) := by
  unfold fma at h
  simp only at h
  split at h
  next hn => rw [isNaN_quiet hw hn] at h; cases h
  next hx =>
    split at h
    next hn => rw [isNaN_quiet hw hn] at h; cases h
    next hy =>
      split at h
      next hn => rw [isNaN_quiet hw hn] at h; cases h
      next hz =>
        refine ⟨by simpa using hx, by simpa using hy, by simpa using hz, fun hi => ?_⟩
        rw [if_pos hi] at h
        split at h
        · rw [isNaN_indef hw] at h; cases h
        next hm => omega

/-- Without a rounding error in the product, a multiplication followed by an addition is a fused
multiply-add. -/
theorem fma_of_exact (hw : Format w) {x y z : BitVec w} (he : ExactProd x y)
    (hr : isNaN (fma x y z) = false) : arith .add (arith .mul x y) z = fma x y z := by
  obtain ⟨hx, hy, hz, hi0⟩ := fma_not_nan hw hr
  have hinfm := (infMag_eq hw).2.2
  have hp : ∀ b, isInf (signed w b (infMag w)) = true := fun b => (inf_signed hw b).2
  have hsn : ∀ b m, m ≤ infMag w → isNaN (signed w b m) = false := by
    intro b m hm
    simp only [isNaN, mag_signed (fmt_pos hw) b (show m < 2 ^ (w - 1) by omega), decide_eq_false_iff_not]
    omega
  have hmulA : arith .mul x y = mul x y := by simp only [arith, hx, hy, Bool.false_eq_true, if_false]
  by_cases hi : (isInf x || isInf y) = true
  · obtain ⟨m1, m2⟩ := hi0 hi
    have hmul : mul x y = signed w (x.msb != y.msb) (infMag w) := by
      simp only [mul, hi, if_true, m1, m2, or_self, if_false]
    rw [hmulA, hmul]
    simp only [arith, hsn _ _ (Nat.le_refl _), hz, Bool.false_eq_true, if_false, add, hp, if_true, fma, hx, hy, hi, m1, m2,
      or_self, msb_signed (fmt_pos hw) _ hinfm]
    congr 2
    rw [bne_comm]
  · have hi' : isInf x = false ∧ isInf y = false := by simpa using hi
    obtain ⟨m, hm, hmu⟩ : ∃ m, m < infMag w ∧ unitsM w m * 2 ^ uexp w = units x * units y := by
      rcases he with h | h | h
      · rw [hi'.1] at h; cases h
      · rw [hi'.2] at h; cases h
      · exact h
    have hmul : mul x y = signed w (x.msb != y.msb) m := by
      simp only [mul, hi, if_false, Bool.false_eq_true, round_eq]
      rw [roundMag_exact hw (Nat.two_pow_pos _) (Nat.le_of_lt hm) hmu]
    have hlt : m < 2 ^ (w - 1) := by omega
    have hni : isInf (signed w (x.msb != y.msb) m) = false := by
      simp only [isInf, mag_signed (fmt_pos hw) _ hlt, decide_eq_false_iff_not]; omega
    rw [hmulA, hmul]
    simp only [arith, hsn _ _ (Nat.le_of_lt hm), hz, Bool.false_eq_true, if_false, add, hni, fma, hx, hy, hi,
      msb_signed (fmt_pos hw) _ hlt]
    cases hzi : isInf z
    · simp only [Bool.false_eq_true, if_false]
      have hsu : sunits (signed w (x.msb != y.msb) m)
          = if (x.msb != y.msb) = true then - (unitsM w m : Int) else unitsM w m := by
        simp only [sunits, msb_signed (fmt_pos hw) _ hlt, units_eq, mag_signed (fmt_pos hw) _ hlt]
      rw [hsu]
      have hD : (0 : Int) < 2 ^ uexp w := by exact_mod_cast Nat.two_pow_pos (uexp w)
      have ht : (if (x.msb != y.msb) = true then - ((units x * units y : Nat) : Int) else ((units x * units y : Nat) : Int))
          + sunits z * 2 ^ uexp w
          = ((if (x.msb != y.msb) = true then - (unitsM w m : Int) else unitsM w m) + sunits z) * 2 ^ uexp w := by
        rw [← hmu]
        split <;> simp only [Int.natCast_mul, Int.natCast_pow, Int.add_mul, Int.neg_mul] <;> rfl
      rw [ht]
      generalize ((if (x.msb != y.msb) = true then - (unitsM w m : Int) else unitsM w m) + sunits z) = t
      by_cases h0 : t = 0
      · simp [h0]
      · have h1 : t * 2 ^ uexp w ≠ 0 := Int.mul_ne_zero h0 (by omega)
        simp only [h0, h1, if_false]
        have hs : decide (t * 2 ^ uexp w < 0) = decide (t < 0) := by
          rw [decide_eq_decide]
          constructor
          · intro h
            rcases Int.lt_trichotomy t 0 with h' | h' | h'
            · exact h'
            · exact absurd h' h0
            · have := Int.mul_pos h' hD; omega
          · intro h; exact Int.mul_neg_of_neg_of_pos h hD
        have ha : (t * 2 ^ uexp w).natAbs = t.natAbs * 2 ^ uexp w := by
          rw [Int.natAbs_mul]
          congr 1
        rw [hs, ha, round_eq, round_eq]
        have := roundMag_scale hw t.natAbs 1 (2 ^ uexp w) (by decide) (Nat.two_pow_pos _)
        rw [Nat.one_mul] at this
        rw [this]
    · simp only [if_true]

theorem msb_xor (hw : Format w) (x : BitVec w) : (x ^^^ BitVec.intMin w).msb = !x.msb := by
  rw [BitVec.msb_xor, BitVec.msb_intMin]
  simp [fmt_pos hw]

theorem isInf_xor (hw : Format w) (x : BitVec w) : isInf (x ^^^ BitVec.intMin w) = isInf x := by
  unfold isInf; rw [mag_xor hw]

theorem units_xor (hw : Format w) (x : BitVec w) : units (x ^^^ BitVec.intMin w) = units x := by
  rw [units_eq, mag_xor hw]; rfl

theorem signed_not (hw : Format w) (neg : Bool) {m : Nat} (hm : m < 2 ^ (w - 1)) :
    signed w neg m ^^^ BitVec.intMin w = signed w (!neg) m := by
  have h := signed_self (fmt_pos hw) (signed w neg m ^^^ BitVec.intMin w)
  rw [msb_xor hw, mag_xor hw, msb_signed (fmt_pos hw) _ hm, mag_signed (fmt_pos hw) _ hm] at h
  exact h.symm

/-- The negated product is the product with a negated factor. -/
theorem mul_neg_left (hw : Format w) {x y : BitVec w} (h : isNaN (arith .mul x y) = false) :
    arith .mul x y ^^^ BitVec.intMin w = arith .mul (x ^^^ BitVec.intMin w) y := by
  have hinfm := (infMag_eq hw).2.2
  unfold arith at *
  rw [isNaN_xor hw]
  split at h
  next hn => rw [isNaN_quiet hw hn] at h; cases h
  next hx =>
    split at h
    next hn => rw [isNaN_quiet hw hn] at h; cases h
    next hy =>
      rw [if_neg hx, if_neg hy, if_neg hx, if_neg hy]
      simp only [mul] at h ⊢
      rw [msb_xor hw, isInf_xor hw, mag_xor hw, units_xor hw]
      have e : ((!x.msb) != y.msb) = !(x.msb != y.msb) := by cases x.msb <;> cases y.msb <;> rfl
      rw [e]
      split
      next hi =>
        rw [if_pos hi] at h
        split
        next hm => rw [if_pos hm, isNaN_indef hw] at h; cases h
        · exact signed_not hw _ hinfm
      · rw [round_eq, round_eq]
        exact signed_not hw _ (Nat.lt_of_le_of_lt (roundMag_le _ _ _) hinfm)

theorem exactProd_iff (hw : Format w) {x y : BitVec w}
    (h : exactProd x y = true) : ExactProd x y := by
  simp only [exactProd, Bool.or_eq_true, Bool.and_eq_true, Bool.not_eq_true', decide_eq_true_eq] at h
  rcases h with (h | h) | ⟨h1, h2⟩
  · exact .inl h
  · exact .inr (.inl h)
  · by_cases hi : isInf x = true
    · exact .inl hi
    · by_cases hi' : isInf y = true
      · exact .inr (.inl hi')
      · refine .inr (.inr ⟨mag (mul x y), ?_, by rw [← h2, units_eq]⟩)
        have hm : isNaN (mul x y) = false := by
          simp only [mul, hi, hi', Bool.false_or, Bool.or_self, Bool.false_eq_true, if_false]
          exact round_not_nan hw _ _ _
        simp only [isNaN, decide_eq_false_iff_not] at hm
        simp only [isInf, decide_eq_false_iff_not] at h1
        omega

theorem ofIntM_even (z : Int) : ofIntM .even w z = ofInt w z := by
  simp only [ofIntM, ofInt, round, roundQ, Nat.div_one, Nat.one_mul]

/-- If no rounding is necessary, the direction does not matter. -/
theorem ofIntM_exact (mode : Mode) {z : Int} (h : exactInt w z = true) :
    ofIntM mode w z = ofInt w z := by
  simp only [exactInt, Bool.and_eq_true, Bool.not_eq_true', decide_eq_true_eq] at h
  obtain ⟨-, h⟩ := h
  rw [← ofIntM_even]
  unfold ofIntM
  simp only
  rw [units_eq] at h
  rw [← h]
  generalize mag (ofInt w z) = m
  have hdvd : unitsM w m % 2 ^ (Nat.log2 (unitsM w m) - mantBits w) = 0 := by
    obtain ⟨k, r, rfl, h1, h2⟩ := decomp w m
    rw [unitsM_of w k r (by omega) h2]
    by_cases h0 : r * 2 ^ k = 0
    · rw [h0]; simp
    · have hl := Nat.log2_self_le h0
      have hle : Nat.log2 (r * 2 ^ k) - mantBits w ≤ k := by
        rcases Nat.lt_or_ge (mantBits w + k) (Nat.log2 (r * 2 ^ k)) with hlt | hge
        · exfalso
          have e1 : 2 ^ (mantBits w + 1 + k) ≤ 2 ^ Nat.log2 (r * 2 ^ k) := Nat.pow_le_pow_right (by decide) (by omega)
          have e2 := Nat.mul_lt_mul_of_pos_right h1 (Nat.two_pow_pos k)
          rw [← Nat.pow_add] at e2
          omega
        · omega
      generalize Nat.log2 (r * 2 ^ k) - mantBits w = j at *
      rw [show k = (k - j) + j by omega, Nat.pow_add, ← Nat.mul_assoc]
      exact Nat.mul_mod_left _ _
  have hq : ∀ mode, roundQ mode (decide (z < 0)) (unitsM w m) (2 ^ (Nat.log2 (unitsM w m) - mantBits w))
      = unitsM w m / 2 ^ (Nat.log2 (unitsM w m) - mantBits w) := by
    intro mode
    rcases roundQ_bounds mode (decide (z < 0)) (unitsM w m) _
      (Nat.two_pow_pos (Nat.log2 (unitsM w m) - mantBits w)) with h | ⟨-, h⟩
    · exact h
    · exact absurd hdvd h
  rw [hq, hq]

theorem key_eq (hw : Format w) {x y : BitVec w} (h : key x = key y) (hne : x ≠ y) :
    mag x = 0 ∧ mag y = 0 ∧ x.msb ≠ y.msb := by
  by_cases hm : x.msb = y.msb
  · exfalso
    apply hne
    have : mag x = mag y := by
      simp only [key, hm] at h
      split at h <;> omega
    rw [← signed_self (fmt_pos hw) x, ← signed_self (fmt_pos hw) y, hm, this]
  · refine ⟨?_, ?_, hm⟩ <;> simp only [key] at h <;> (cases hx : x.msb <;> cases hy : y.msb <;>
      simp only [hx, hy, Bool.false_eq_true, if_false, if_true] at h hm <;> first | omega | exact absurd trivial hm)

theorem less_of_key {x y : BitVec w} (h : key x < key y) : Ieee.less x y = true ∧ Ieee.less y x = false := by
  refine ⟨by simp [Ieee.less, h], ?_⟩
  simp only [Ieee.less, Bool.or_eq_false_iff, decide_eq_false_iff_not, Bool.and_eq_false_iff]
  refine ⟨by omega, .inl (.inl ?_)⟩
  rintro ⟨h1, h2⟩
  simp only [key, h1, h2] at h
  split at h <;> split at h <;> simp at h

theorem less_self (x : BitVec w) : Ieee.less x x = false := by
  unfold Ieee.less; cases x.msb <;> simp

/-- `llvm.minnum` is minimumNumber where its result is determined. -/
theorem minnum_eq (hw : Format w) {x y : BitVec w} (h1 : ¬ (isNaN x = true ∧ isNaN y = true))
    (h2 : ¬ (mag x = 0 ∧ mag y = 0 ∧ x.msb ≠ y.msb)) :
    IR.minnum (some x) (some y) = some (Ieee.minNumber x y) := by
  unfold IR.minnum Ieee.minNumber
  simp only [Option.bind_some]
  cases hx : isNaN x
  · cases hy : isNaN y
    · simp only [Bool.false_eq_true, if_false, cmp, hx, hy, Bool.or_self]
      rcases Int.lt_trichotomy (key x) (key y) with h | h | h
      · simp only [h, if_true, (less_of_key h).2, Bool.false_eq_true, if_false]
      · have : ¬ key x < key y := by omega
        simp only [this, if_false, h, if_true, Int.lt_irrefl]
        by_cases he : x = y
        · simp only [he, if_true, less_self, Bool.false_eq_true, if_false]
        · exact absurd (key_eq hw h he) h2
      · have h3 : ¬ key x < key y := by omega
        have h4 : ¬ key x = key y := by omega
        simp only [h3, h4, if_false, (less_of_key h).1, if_true]
    · simp only [Bool.false_eq_true, if_false, cmp, hx, hy, Bool.or_true, if_true]
  · have hy : isNaN y = false := by
      cases hy : isNaN y
      · rfl
      · exact absurd ⟨hx, hy⟩ h1
    simp only [if_true, hy, Bool.false_eq_true, if_false]

theorem maxnum_eq (hw : Format w) {x y : BitVec w} (h1 : ¬ (isNaN x = true ∧ isNaN y = true))
    (h2 : ¬ (mag x = 0 ∧ mag y = 0 ∧ x.msb ≠ y.msb)) :
    IR.maxnum (some x) (some y) = some (Ieee.maxNumber x y) := by
  unfold IR.maxnum Ieee.maxNumber
  simp only [Option.bind_some]
  cases hx : isNaN x
  · cases hy : isNaN y
    · simp only [Bool.false_eq_true, if_false, cmp, hx, hy, Bool.or_self]
      rcases Int.lt_trichotomy (key x) (key y) with h | h | h
      · simp only [h, if_true, (less_of_key h).1, Bool.false_eq_true, if_false]
      · have : ¬ key x < key y := by omega
        simp only [this, if_false, h, if_true, Int.lt_irrefl]
        by_cases he : x = y
        · simp only [he, if_true, less_self, Bool.false_eq_true, if_false]
        · exact absurd (key_eq hw h he) h2
      · have h3 : ¬ key x < key y := by omega
        have h4 : ¬ key x = key y := by omega
        simp only [h3, h4, if_false, (less_of_key h).2, if_true, Bool.false_eq_true]
    · simp only [Bool.false_eq_true, if_false, cmp, hx, hy, Bool.or_true, if_true]
  · have hy : isNaN y = false := by
      cases hy : isNaN y
      · rfl
      · exact absurd ⟨hx, hy⟩ h1
    simp only [if_true, hy, Bool.false_eq_true, if_false]

theorem mul_not_nan (hw : Format w) {x y : BitVec w} (hx : isNaN x = false) (hy : isNaN y = false)
    (h : (isInf x || isInf y) = true → mag x ≠ 0 ∧ mag y ≠ 0) : isNaN (arith .mul x y) = false := by
  simp only [arith, hx, hy, Bool.false_eq_true, if_false, mul]
  split
  next hi =>
    obtain ⟨h1, h2⟩ := h hi
    rw [if_neg (by omega)]
    have hinfm := (infMag_eq hw).2.2
    simp only [isNaN, mag_signed (fmt_pos hw) _ hinfm, decide_eq_false_iff_not]
    omega
  · exact round_not_nan hw _ _ _

theorem exactProd_neg (hw : Format w) {x y : BitVec w} (h : ExactProd x y) :
    ExactProd (x ^^^ BitVec.intMin w) y := by
  unfold ExactProd at *
  rwa [isInf_xor hw, units_xor hw]

theorem sub_eq (hw : Format w) {x y : BitVec w} (hy : isNaN y = false) :
    arith .sub x y = arith .add x (y ^^^ BitVec.intMin w) := by
  simp only [arith, isNaN_xor hw, hy, Bool.false_eq_true, if_false]

/-- The four combinations of multiplication, negation, and addition or subtraction. -/
theorem madd_eq (hw : Format w) (neg sub : Bool) {x y z : BitVec w} (he : exactProd x y = true)
    (hr : isNaN (fma (if neg then x ^^^ BitVec.intMin w else x) y (if sub then z ^^^ BitVec.intMin w else z)) = false) :
    arith (if sub then .sub else .add)
        (if neg then arith .mul x y ^^^ BitVec.intMin w else arith .mul x y) z
      = fma (if neg then x ^^^ BitVec.intMin w else x) y (if sub then z ^^^ BitVec.intMin w else z) := by
  obtain ⟨hx, hy, hz, hi⟩ := fma_not_nan hw hr
  have hz' : isNaN z = false := by
    cases sub
    · exact hz
    · rwa [if_pos rfl, isNaN_xor hw] at hz
  have hx' : isNaN x = false := by
    cases neg
    · exact hx
    · rwa [if_pos rfl, isNaN_xor hw] at hx
  have hi' : (isInf x || isInf y) = true → mag x ≠ 0 ∧ mag y ≠ 0 := by
    cases neg
    · exact hi
    · rwa [if_pos rfl, isInf_xor hw, mag_xor hw] at hi
  have hE := exactProd_iff hw he
  have hm := mul_not_nan hw hx' hy hi'
  have h1 : (if neg then arith .mul x y ^^^ BitVec.intMin w else arith .mul x y)
      = arith .mul (if neg then x ^^^ BitVec.intMin w else x) y := by
    cases neg
    · rfl
    · exact mul_neg_left hw hm
  have hE' : ExactProd (if neg then x ^^^ BitVec.intMin w else x) y := by
    cases neg
    · exact hE
    · exact exactProd_neg hw hE
  rw [h1, ← fma_of_exact hw hE' hr]
  cases sub
  · rfl
  · exact sub_eq hw hz'

end Verif.Fp
