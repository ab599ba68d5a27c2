import Verif.IR.FpRound

/-!
What IEEE 754 says about the results of the arithmetic operations, as relations between operands and
result that do not compute anything, and the theorem that `Fp.arith`, `Fp.sqrt`, `Fp.ofInt` and
`Fp.conv` give such results for all operands.  Rounding is to nearest, ties to even.
-/

set_option linter.unusedSimpArgs false

namespace Verif.Ieee

open Verif.Fp

variable {w : Nat}

/-- `r` has the given sign and is the number nearest to `n / d` units. -/
def Rounds (neg : Bool) (n d : Nat) (r : BitVec w) : Prop := r.msb = neg ∧ Nearest w n d (mag r)

/-- `r` is infinity or zero with the given sign. -/
def IsInfinity (neg : Bool) (r : BitVec w) : Prop := r.msb = neg ∧ isInf r = true
def IsZero (neg : Bool) (r : BitVec w) : Prop := r.msb = neg ∧ mag r = 0

/-- Sum: a NaN operand and the sum of infinities of opposite sign give NaN; an exact sum of zero is
negative only if both operands are. -/
def Sum (x y r : BitVec w) : Prop :=
  if isNaN x ∨ isNaN y then isNaN r = true
  else if isInf x ∧ isInf y then (if x.msb = y.msb then r = x else isNaN r = true)
  else if isInf x then r = x
  else if isInf y then r = y
  else if sunits x + sunits y = 0 then IsZero (x.msb && y.msb) r
  else Rounds (decide (sunits x + sunits y < 0)) (sunits x + sunits y).natAbs 1 r

/-- Product: the product of zero and infinity is NaN. -/
def Prod (x y r : BitVec w) : Prop :=
  if isNaN x ∨ isNaN y then isNaN r = true
  else if (isInf x ∧ mag y = 0) ∨ (mag x = 0 ∧ isInf y) then isNaN r = true
  else if isInf x ∨ isInf y then IsInfinity (x.msb != y.msb) r
  else Rounds (x.msb != y.msb) (units x * units y) (2 ^ uexp w) r

/-- Quotient: `0 / 0` and `∞ / ∞` are NaN, a number divided by zero is infinite. -/
def Quot (x y r : BitVec w) : Prop :=
  if isNaN x ∨ isNaN y then isNaN r = true
  else if (isInf x ∧ isInf y) ∨ (mag x = 0 ∧ mag y = 0) then isNaN r = true
  else if isInf x ∨ mag y = 0 then IsInfinity (x.msb != y.msb) r
  else if isInf y then IsZero (x.msb != y.msb) r
  else Rounds (x.msb != y.msb) (units x * 2 ^ uexp w) (units y) r

/-- `m` is the number nearest to the square root of `n` (in units): `√n` is on its side of the middle
between it and any other number. -/
def NearestRoot (w n m : Nat) : Prop :=
  m ≤ infMag w ∧
  (∀ m' ≤ infMag w, m < m' → 4 * n < (unitsM w m + unitsM w m') * (unitsM w m + unitsM w m')
    ∨ (4 * n = (unitsM w m + unitsM w m') * (unitsM w m + unitsM w m') ∧ m % 2 = 0)) ∧
  (∀ m' < m, (unitsM w m + unitsM w m') * (unitsM w m + unitsM w m') < 4 * n
    ∨ ((unitsM w m + unitsM w m') * (unitsM w m + unitsM w m') = 4 * n ∧ m % 2 = 0))

/-- Square root: of a negative number it is NaN, of negative zero it is negative zero. -/
def Root (x r : BitVec w) : Prop :=
  if isNaN x then isNaN r = true
  else if mag x = 0 then r = x
  else if x.msb then isNaN r = true
  else if isInf x then r = x
  else r.msb = false ∧ NearestRoot w (units x * 2 ^ uexp w) (mag r)

/-- Conversion of an integer. -/
def OfInt (z : Int) (r : BitVec w) : Prop := Rounds (decide (z < 0)) (z.natAbs * 2 ^ uexp w) 1 r

/-- Conversion between formats: sign, infinity and NaN are kept, a finite number is rounded. -/
def Conv {v : Nat} (x : BitVec w) (r : BitVec v) : Prop :=
  if isNaN x then isNaN r = true
  else if isInf x then IsInfinity x.msb r
  else Rounds x.msb (units x * 2 ^ uexp v) (2 ^ uexp w) r

end Verif.Ieee

namespace Verif.Fp

variable {w : Nat}

theorem isNaN_of_or {hw : Format w} (x : BitVec w) (h : infMag w ≤ mag x) : isNaN (quiet x) = true := by
  unfold isNaN quiet mag
  have hb : 2 ^ (mantBits w - 1) < 2 ^ (w - 1) ∧ infMag w ||| 2 ^ (mantBits w - 1) ≠ infMag w := by
    rcases hw with rfl | rfl <;> decide
  have hb2 : 2 ^ (mantBits w - 1) < 2 ^ w :=
    Nat.lt_of_lt_of_le hb.1 (Nat.pow_le_pow_right (by decide) (by omega))
  rw [BitVec.toNat_or, BitVec.toNat_ofNat, Nat.mod_eq_of_lt hb2, Nat.or_mod_two_pow, Nat.mod_eq_of_lt hb.1]
  simp only [decide_eq_true_eq]
  change infMag w < mag x ||| 2 ^ (mantBits w - 1)
  have h1 : mag x ≤ mag x ||| 2 ^ (mantBits w - 1) := Nat.left_le_or
  rcases Nat.lt_or_ge (infMag w) (mag x) with h2 | h2
  · omega
  · have h3 : mag x = infMag w := by omega
    rw [h3] at h1 ⊢
    omega

theorem isNaN_quiet (hw : Format w) {x : BitVec w} (h : isNaN x = true) : isNaN (quiet x) = true := by
  refine isNaN_of_or (hw := hw) x ?_
  simp only [isNaN, decide_eq_true_eq] at h
  omega

theorem isNaN_indef (hw : Format w) : isNaN (indef w) = true := by
  rcases hw with rfl | rfl <;> decide

theorem rounds_round (hw : Format w) (neg : Bool) (n d : Nat) (hd : 0 < d) :
    Ieee.Rounds neg n d (round w neg n d) :=
  ⟨msb_round hw neg n d, by rw [mag_round hw]; exact roundMag_nearest hw n d hd⟩

theorem inf_signed (hw : Format w) (neg : Bool) : Ieee.IsInfinity neg (signed w neg (infMag w)) := by
  have := (infMag_eq hw).2.2
  exact ⟨msb_signed (fmt_pos hw) neg this, by simp only [isInf, mag_signed (fmt_pos hw) neg this, decide_true]⟩

theorem zero_signed (hw : Format w) (neg : Bool) : Ieee.IsZero neg (signed w neg 0) :=
  ⟨msb_signed (fmt_pos hw) neg (Nat.two_pow_pos _), mag_signed (fmt_pos hw) neg (Nat.two_pow_pos _)⟩

theorem add_ieee (hw : Format w) (x y : BitVec w) (hx : isNaN x = false) (hy : isNaN y = false) :
    Ieee.Sum x y (add x y) := by
  unfold Ieee.Sum add
  simp only [hx, hy, Bool.false_eq_true, or_self, if_false]
  cases h1 : isInf x <;> cases h2 : isInf y <;>
    simp only [Bool.false_eq_true, if_false, if_true, and_self, and_true, and_false, true_and, false_and,
      Bool.true_and, Bool.false_and, bne_iff_ne, ne_eq]
  · split
    · exact zero_signed hw _
    · exact rounds_round hw _ _ _ (by decide)
  · by_cases h : x.msb = y.msb
    · simp [h]
    · simp only [h, not_false_eq_true, if_true, if_false]; exact isNaN_indef hw

theorem mul_ieee (hw : Format w) (x y : BitVec w) (hx : isNaN x = false) (hy : isNaN y = false) :
    Ieee.Prod x y (mul x y) := by
  have h0 : infMag w ≠ 0 := by rcases hw with rfl | rfl <;> decide
  have z : ∀ v : BitVec w, mag v = 0 → isInf v = false := by
    intro v hv; simp [isInf, hv, Ne.symm h0]
  unfold Ieee.Prod mul
  simp only [hx, hy, Bool.false_eq_true, or_self, if_false]
  by_cases hi : isInf x = true ∨ isInf y = true
  · rw [if_pos (show (isInf x || isInf y) = true by simpa using hi)]
    by_cases hz : (isInf x = true ∧ mag y = 0) ∨ (mag x = 0 ∧ isInf y = true)
    · rw [if_pos hz, if_pos (by omega)]
      exact isNaN_indef hw
    · rw [if_neg hz, if_pos hi, if_neg]
      · exact inf_signed hw _
      · rintro (h | h)
        · have := z x h; simp only [this, Bool.false_eq_true, false_or] at hi
          exact hz (.inr ⟨h, hi⟩)
        · have := z y h; simp only [this, Bool.false_eq_true, or_false] at hi
          exact hz (.inl ⟨hi, h⟩)
  · rw [if_neg (show ¬ (isInf x || isInf y) = true by simpa using hi)]
    rw [if_neg (fun h => hi (h.imp And.left And.right)), if_neg hi]
    exact rounds_round hw _ _ _ (Nat.two_pow_pos _)

theorem unitsM_zero : unitsM w 0 = 0 := by simp [unitsM]

theorem units_pos {x : BitVec w} (h : mag x ≠ 0) : 0 < units x := by
  rw [units_eq, ← unitsM_zero (w := w)]
  exact unitsM_lt (by omega)

theorem div_ieee (hw : Format w) (x y : BitVec w) (hx : isNaN x = false) (hy : isNaN y = false) :
    Ieee.Quot x y (div x y) := by
  have h0 : infMag w ≠ 0 := by rcases hw with rfl | rfl <;> decide
  have z : ∀ v : BitVec w, mag v = 0 → isInf v = false := by
    intro v hv; simp [isInf, hv, Ne.symm h0]
  unfold Ieee.Quot div
  simp only [hx, hy, Bool.false_eq_true, or_self, if_false]
  cases h1 : isInf x
  · cases h2 : isInf y
    · by_cases h3 : mag y = 0
      · by_cases h4 : mag x = 0
        · simp only [h3, h4, Bool.false_eq_true, false_and, and_self, or_true, if_true, if_false]
          exact isNaN_indef hw
        · simp only [h3, h4, Bool.false_eq_true, false_and, or_true, or_false, false_or, if_true, if_false]
          exact inf_signed hw _
      · simp only [h3, Bool.false_eq_true, false_and, and_false, or_false, if_false]
        exact rounds_round hw _ _ _ (units_pos h3)
    · have h3 : mag y ≠ 0 := fun h => by rw [z y h] at h2; cases h2
      simp only [h3, Bool.false_eq_true, false_and, and_false, or_false, if_false, if_true]
      exact zero_signed hw _
  · have h3 : mag x ≠ 0 := fun h => by rw [z x h] at h1; cases h1
    cases h2 : isInf y
    · simp only [h3, Bool.false_eq_true, false_and, and_false, or_false, true_or, if_false, if_true]
      exact inf_signed hw _
    · simp only [and_self, true_or, if_true]
      exact isNaN_indef hw

theorem mag_xor (hw : Format w) (y : BitVec w) : mag (y ^^^ BitVec.intMin w) = mag y := by
  unfold mag
  rw [BitVec.toNat_xor, BitVec.toNat_intMin, Nat.xor_mod_two_pow]
  have h : 2 ^ (w - 1) % 2 ^ w % 2 ^ (w - 1) = 0 := by rcases hw with rfl | rfl <;> decide
  rw [h, Nat.xor_zero]

theorem isNaN_xor (hw : Format w) (y : BitVec w) : isNaN (y ^^^ BitVec.intMin w) = isNaN y := by
  unfold isNaN; rw [mag_xor hw]

/-- The relation for each operation; subtraction adds the negated number. -/
def _root_.Verif.Ieee.Result (op : Arith) (x y r : BitVec w) : Prop :=
  match op with
  | .add => Ieee.Sum x y r
  | .sub => Ieee.Sum x (y ^^^ BitVec.intMin w) r
  | .mul => Ieee.Prod x y r
  | .div => Ieee.Quot x y r

/-- **`Fp.arith` is IEEE 754 arithmetic**, for all operands. -/
theorem arith_ieee (hw : Format w) (op : Arith) (x y : BitVec w) : Ieee.Result op x y (arith op x y) := by
  unfold arith
  cases hx : isNaN x
  · cases hy : isNaN y
    · simp only [Bool.false_eq_true, if_false]
      cases op
      · exact add_ieee hw x y hx hy
      · exact add_ieee hw x _ hx (by rw [isNaN_xor hw, hy])
      · exact mul_ieee hw x y hx hy
      · exact div_ieee hw x y hx hy
    · have := isNaN_quiet hw hy
      simp only [Bool.false_eq_true, if_false, if_true]
      cases op <;> simp [Ieee.Result, Ieee.Sum, Ieee.Prod, Ieee.Quot, hy, isNaN_xor hw, this]
  · have := isNaN_quiet hw hx
    simp only [if_true]
    cases op <;> simp [Ieee.Result, Ieee.Sum, Ieee.Prod, Ieee.Quot, hx, this]

theorem ofInt_ieee (hw : Format w) (z : Int) : Ieee.OfInt z (ofInt w z) := rounds_round hw _ _ _ (by decide)

theorem conv_ieee {v : Nat} (hv : Format v) (x : BitVec w) : Ieee.Conv x (conv v x) := by
  unfold Ieee.Conv conv
  split
  · simp only
    refine isNaN_of_or (hw := hv) _ ?_
    have hlt : mag x % 2 ^ mantBits w * 2 ^ mantBits v / 2 ^ mantBits w < 2 ^ mantBits v := by
      rw [Nat.div_lt_iff_lt_mul (Nat.two_pow_pos _), Nat.mul_comm]
      exact Nat.mul_lt_mul_of_pos_left (Nat.mod_lt _ (Nat.two_pow_pos _)) (Nat.two_pow_pos _)
    have hs : infMag v + 2 ^ mantBits v = 2 ^ (v - 1) := by rcases hv with rfl | rfl <;> decide
    generalize mag x % 2 ^ mantBits w * 2 ^ mantBits v / 2 ^ mantBits w = q at hlt ⊢
    rw [mag_signed (fmt_pos hv) _ (by omega)]
    omega
  · split
    · exact inf_signed hv _
    · exact rounds_round hv _ _ _ (Nat.two_pow_pos _)

/-! ### Square root -/

theorem isqrt_fold (n : Nat) (L : Nat) : ∀ r0, r0 * r0 ≤ n → n < (r0 + 2 ^ L) * (r0 + 2 ^ L) →
    let r := (List.range L).foldr (fun i r => if (r + 2 ^ i) * (r + 2 ^ i) ≤ n then r + 2 ^ i else r) r0
    r * r ≤ n ∧ n < (r + 1) * (r + 1) := by
  induction L with
  | zero => intro r0 h1 h2; simpa using ⟨h1, h2⟩
  | succ L ih =>
    intro r0 h1 h2
    simp only [List.range_succ, List.foldr_append, List.foldr_cons, List.foldr_nil]
    by_cases h : (r0 + 2 ^ L) * (r0 + 2 ^ L) ≤ n
    · simp only [h, if_true]
      refine ih _ h ?_
      rwa [Nat.add_assoc, ← Nat.mul_two, ← Nat.pow_succ]
    · simp only [h, if_false]
      exact ih _ h1 (by omega)

theorem isqrt_spec (n : Nat) : isqrt n * isqrt n ≤ n ∧ n < (isqrt n + 1) * (isqrt n + 1) := by
  unfold isqrt
  refine isqrt_fold n _ 0 (by omega) ?_
  rw [Nat.zero_add, ← Nat.pow_add]
  have h1 := Nat.lt_log2_self (n := n)
  exact Nat.lt_of_lt_of_le h1 (Nat.pow_le_pow_right (by decide) (by omega))

theorem unitsM_even {m : Nat} (h : 2 ^ (mantBits w + 1) ≤ unitsM w m) : unitsM w m % 2 = 0 := by
  obtain ⟨k, r, rfl, h1, h2⟩ := decomp w m
  rw [unitsM_of w k r (by omega) h2] at h ⊢
  cases k with
  | zero => simp only [Nat.pow_zero, Nat.mul_one] at h; omega
  | succ k => rw [Nat.pow_succ, ← Nat.mul_assoc]; omega

theorem sq_le {a b : Nat} (h : a ≤ b) : a * a ≤ b * b := Nat.mul_le_mul h h
theorem sq_lt {a b : Nat} (h : a < b) : a * a < b * b :=
  Nat.lt_of_le_of_lt (Nat.mul_le_mul_right a (Nat.le_of_lt h)) (Nat.mul_lt_mul_of_pos_left h (by omega))

/-- Rounding the root with one more digit for "not exact" rounds the real root. -/
theorem root_nearest (hw : Format w) {n r : Nat} (h1 : r * r ≤ n) (h2 : n < (r + 1) * (r + 1))
    (hr : 2 ^ (mantBits w + 1) ≤ r) :
    Ieee.NearestRoot w n (roundMag w (2 * r + (if r * r = n then 0 else 1)) 2) := by
  have hN := roundMag_nearest hw (2 * r + (if r * r = n then 0 else 1)) 2 (by decide)
  generalize roundMag w (2 * r + (if r * r = n then 0 else 1)) 2 = m at hN
  -- the first number all larger numbers are even
  have hV : unitsM w (2 * 2 ^ mantBits w) = 2 ^ (mantBits w + 1) := by
    have := unitsM_of w 0 (2 ^ (mantBits w + 1)) (Nat.le_refl _) (.inl rfl)
    rw [Nat.pow_succ, Nat.mul_comm _ 2] at this ⊢
    simpa using this
  have hVi : 2 * 2 ^ mantBits w ≤ infMag w := by rcases hw with rfl | rfl <;> decide
  obtain ⟨hm, hN⟩ := hN
  have hmV : 2 ^ (mantBits w + 1) ≤ unitsM w m := by
    rcases Nat.lt_or_ge (unitsM w m) (2 ^ (mantBits w + 1)) with h | h
    · have := hN _ hVi (by rintro rfl; omega)
      rw [hV] at this
      unfold dist at this
      split at this <;> omega
    · exact h
  have hme := unitsM_even hmV
  refine ⟨hm, fun m' hm' hlt => ?_, fun m' hlt => ?_⟩
  · have hu := unitsM_lt (w := w) hlt
    have hue := unitsM_even (w := w) (m := m') (by omega)
    have := hN m' hm' (by omega)
    generalize unitsM w m = u at *
    generalize unitsM w m' = u' at *
    split at this
    next hs =>
      have ht : 2 * r < u + u' ∨ (2 * r = u + u' ∧ m % 2 = 0) := by unfold dist at this; omega
      have hsq : 4 * n = (2 * r) * (2 * r) := by rw [← hs, Nat.mul_mul_mul_comm]
      rcases ht with ht | ⟨ht, he⟩
      · left; rw [hsq]; exact sq_lt ht
      · right; exact ⟨by rw [hsq, ht], he⟩
    next hs =>
      have ht : 2 * r + 2 ≤ u + u' := by unfold dist at this; omega
      left
      have := sq_le ht
      have e : (2 * r + 2) * (2 * r + 2) = 4 * ((r + 1) * (r + 1)) := by
        rw [show 2 * r + 2 = 2 * (r + 1) by omega, Nat.mul_mul_mul_comm]
      omega
  · have hu := unitsM_lt (w := w) hlt
    have := hN m' (by omega) (by omega)
    have hodd : unitsM w m' % 2 = 0 ∨ unitsM w m' < 2 ^ (mantBits w + 1) := by
      rcases Nat.lt_or_ge (unitsM w m') (2 ^ (mantBits w + 1)) with h | h
      · exact .inr h
      · exact .inl (unitsM_even h)
    have hvm : 2 * 2 ^ mantBits w = m ∨ dist (unitsM w m * 2) (2 * r + (if r * r = n then 0 else 1))
        ≤ dist (2 ^ (mantBits w + 1) * 2) (2 * r + (if r * r = n then 0 else 1)) := by
      by_cases h : 2 * 2 ^ mantBits w = m
      · exact .inl h
      · have := hN _ hVi h
        rw [hV] at this
        right; omega
    have hvm' : 2 ^ (mantBits w + 1) = unitsM w m ∨ dist (unitsM w m * 2) (2 * r + (if r * r = n then 0 else 1))
        ≤ dist (2 ^ (mantBits w + 1) * 2) (2 * r + (if r * r = n then 0 else 1)) := by
      rcases hvm with h | h
      · left; rw [← h, hV]
      · exact .inr h
    generalize unitsM w m = u at *
    generalize unitsM w m' = u' at *
    split at this
    next hs =>
      have ht : u + u' < 2 * r ∨ (u + u' = 2 * r ∧ m % 2 = 0) := by unfold dist at this; omega
      have hsq : 4 * n = (2 * r) * (2 * r) := by rw [← hs, Nat.mul_mul_mul_comm]
      rcases ht with ht | ⟨ht, he⟩
      · left; rw [hsq]; exact sq_lt ht
      · right; exact ⟨by rw [hsq, ht], he⟩
    next hs =>
      rw [if_neg hs] at hvm'
      have ht : u + u' ≤ 2 * r := by unfold dist at this hvm'; omega
      left
      have := sq_le ht
      have e : (2 * r) * (2 * r) = 4 * (r * r) := Nat.mul_mul_mul_comm _ _ _ _
      omega

theorem sqrt_ieee (hw : Format w) (x : BitVec w) : Ieee.Root x (sqrt x) := by
  unfold Ieee.Root sqrt
  split
  next h => exact isNaN_quiet hw h
  · split
    · rfl
    next h0 =>
      split
      · exact isNaN_indef hw
      · split
        · rfl
        · refine ⟨msb_round hw _ _ _, ?_⟩
          rw [mag_round hw]
          obtain ⟨h1, h2⟩ := isqrt_spec (units x * 2 ^ uexp w)
          refine root_nearest hw h1 h2 ?_
          -- the root is large
          have hu := units_pos h0
          have hbig : 2 ^ (mantBits w + 1) * 2 ^ (mantBits w + 1) ≤ 2 ^ uexp w := by
            rw [← Nat.pow_add]
            exact Nat.pow_le_pow_right (by decide) (by rcases hw with rfl | rfl <;> decide)
          have h3 : 2 ^ uexp w ≤ units x * 2 ^ uexp w := Nat.le_mul_of_pos_left _ hu
          rcases Nat.lt_or_ge (isqrt (units x * 2 ^ uexp w)) (2 ^ (mantBits w + 1)) with h | h
          · have := sq_le (Nat.succ_le_of_lt h)
            simp only [Nat.succ_eq_add_one] at this
            omega
          · exact h

end Verif.Fp
