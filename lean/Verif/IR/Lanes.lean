import Verif.IR.Vec

/-! Arithmetic of one lane in terms of integers. -/

namespace Verif.Bits

open Verif.IR

variable {w : Nat}

theorem add_ival (sg : Bool) (a b : BitVec w) : a + b = BitVec.ofInt w (ival sg a + ival sg b) := by
  rw [BitVec.ofInt_add, ofInt_ival, ofInt_ival]

theorem sub_ival (sg : Bool) (a b : BitVec w) : a - b = BitVec.ofInt w (ival sg a - ival sg b) := by
  rw [Int.sub_eq_add_neg, BitVec.ofInt_add, BitVec.ofInt_neg, ofInt_ival, ofInt_ival, BitVec.sub_eq_add_neg]

theorem ofInt_sub (v : Nat) (x y : Int) : BitVec.ofInt v x - BitVec.ofInt v y = BitVec.ofInt v (x - y) := by
  rw [Int.sub_eq_add_neg, BitVec.ofInt_add, BitVec.ofInt_neg, BitVec.sub_eq_add_neg]

theorem mul_ival (sg : Bool) (a b : BitVec w) : a * b = BitVec.ofInt w (ival sg a * ival sg b) := by
  rw [BitVec.ofInt_mul, ofInt_ival, ofInt_ival]

theorem one_ofInt (v : Nat) : (1 : BitVec v) = BitVec.ofInt v 1 := by
  apply BitVec.eq_of_toInt_eq; simp

theorem ofInt_natAbs (v n : Nat) : BitVec.ofInt v (n : Int) = BitVec.ofNat v n := BitVec.ofInt_natCast v n

/-- Difference of two values of the same kind. -/
theorem ival_diff (sg : Bool) (a b : BitVec w) : -2 ^ w < ival sg a - ival sg b ∧ ival sg a - ival sg b < 2 ^ w := by
  have e := two_pow_int w
  have h1 := a.isLt
  have h2 := b.isLt
  cases sg
  · simp only [ival, Bool.false_eq_true, if_false]
    omega
  · simp only [ival, if_true]
    have a1 := @BitVec.two_mul_toInt_lt w a
    have a2 := @BitVec.le_two_mul_toInt w a
    have b1 := @BitVec.two_mul_toInt_lt w b
    have b2 := @BitVec.le_two_mul_toInt w b
    omega

theorem pow_le_pow_int {a b : Nat} (h : a ≤ b) : (2 : Int) ^ a ≤ 2 ^ b := by
  rw [← two_pow_int, ← two_pow_int]
  exact_mod_cast Nat.pow_le_pow_right (by decide) h

/-- Comparisons as comparisons of integers. -/
theorem lt_ival (sg : Bool) (a b : BitVec w) : (if sg then a.slt b else a.ult b) = decide (ival sg a < ival sg b) := by
  cases sg
  · simp only [ival, Bool.false_eq_true, if_false, BitVec.ult, Int.ofNat_lt]
  · simp only [ival, if_true, BitVec.slt]

/-- Absolute value of the signed reading. -/
theorem abs_bv (x : BitVec w) : (if x.slt 0 then -x else x) = BitVec.ofNat w x.toInt.natAbs := by
  have e : BitVec.ofNat w x.toInt.natAbs = BitVec.ofInt w (x.toInt.natAbs : Int) := (ofInt_natAbs _ _).symm
  rw [e]
  have hz : (0 : BitVec w).toInt = 0 := BitVec.toInt_zero
  simp only [BitVec.slt]
  by_cases h : x.toInt < 0
  · rw [if_pos (by rw [decide_eq_true_eq]; exact (by rw [hz]; exact h)), Int.ofNat_natAbs_of_nonpos (by omega), BitVec.ofInt_neg, BitVec.ofInt_toInt]
  · rw [if_neg (by rw [decide_eq_true_eq, hz]; exact h), Int.natAbs_of_nonneg (by omega), BitVec.ofInt_toInt]

/-- A difference computed with twice the width is exact. -/
theorem diff_toInt (hw : 0 < w) (sg : Bool) (a b : BitVec w) :
    (BitVec.ofInt (2 * w) (ival sg a - ival sg b)).toInt = ival sg a - ival sg b := by
  have h := ival_diff sg a b
  have h2 : (2 : Int) ^ w ≤ 2 ^ (2 * w - 1) := pow_le_pow_int (by omega)
  exact toInt_ofInt_of (by omega) (by omega) (by omega)

/-- Absolute difference. -/
theorem absdiff_bv (hw : 0 < w) (sg : Bool) (a b : BitVec w) :
    (if (BitVec.ofInt (2 * w) (ival sg a - ival sg b)).slt 0 then -BitVec.ofInt (2 * w) (ival sg a - ival sg b)
      else BitVec.ofInt (2 * w) (ival sg a - ival sg b)) = BitVec.ofNat (2 * w) (ival sg a - ival sg b).natAbs := by
  rw [abs_bv, diff_toInt hw]

theorem ofNat_setWidth {v : Nat} (h : w ≤ v) (n : Nat) : (BitVec.ofNat v n).setWidth w = BitVec.ofNat w n := by
  rw [← ofInt_natAbs, trunc_ofInt h, ofInt_natAbs]

theorem max_bv (sg : Bool) (a b : BitVec w) :
    (if ival sg b < ival sg a then a else b) = BitVec.ofInt w (max (ival sg a) (ival sg b)) := by
  split
  next h => rw [Int.max_eq_left (by omega), ofInt_ival]
  next h => rw [Int.max_eq_right (by omega), ofInt_ival]

theorem min_bv (sg : Bool) (a b : BitVec w) :
    (if ival sg a < ival sg b then a else b) = BitVec.ofInt w (min (ival sg a) (ival sg b)) := by
  split
  next h => rw [Int.min_eq_left (by omega), ofInt_ival]
  next h => rw [Int.min_eq_right (by omega), ofInt_ival]

/-- Sign extension of a comparison. -/
theorem sext_bool (w : Nat) (c : Bool) :
    (BitVec.ofBool c).signExtend w = if c then BitVec.allOnes w else 0#w := by
  apply BitVec.eq_of_getLsbD_eq
  intro i hi
  rw [BitVec.getLsbD_signExtend]
  cases c
  · simp
  · simp [hi]

theorem shl_ival (sg : Bool) (a : BitVec w) (k : Nat) : a <<< k = BitVec.ofInt w (ival sg a * 2 ^ k) := by
  rw [BitVec.ofInt_mul, ofInt_ival, ← two_pow_int, BitVec.ofInt_natCast, BitVec.shiftLeft_eq_mul_twoPow]
  congr 1
  apply BitVec.eq_of_toNat_eq
  simp [BitVec.toNat_twoPow]

theorem lshr_ival (a : BitVec w) (k : Nat) : a >>> k = BitVec.ofInt w (ival false a / 2 ^ k) := by
  have e : ival false a / 2 ^ k = ((a.toNat / 2 ^ k : Nat) : Int) := by
    simp only [ival, Bool.false_eq_true, if_false]
    push_cast; rfl
  rw [e, BitVec.ofInt_natCast]
  apply BitVec.eq_of_toNat_eq
  rw [BitVec.toNat_ushiftRight, BitVec.toNat_ofNat, Nat.shiftRight_eq_div_pow,
    Nat.mod_eq_of_lt (Nat.lt_of_le_of_lt (Nat.div_le_self _ _) a.isLt)]

theorem ashr_ival (a : BitVec w) (k : Nat) : a.sshiftRight k = BitVec.ofInt w (ival true a / 2 ^ k) := by
  apply BitVec.eq_of_toInt_eq
  rw [BitVec.toInt_sshiftRight, BitVec.toInt_ofInt, Int.shiftRight_eq_div_pow]
  simp only [ival, if_true]
  rw [two_pow_int]
  symm
  have a1 := @BitVec.two_mul_toInt_lt w a
  have a2 := @BitVec.le_two_mul_toInt w a
  have hk : (0 : Int) < 2 ^ k := Int.pow_pos (by decide)
  have hk1 : (1 : Int) ≤ 2 ^ k := hk
  apply Int.bmod_eq_of_le
  · rw [two_pow_int]
    have h1 : a.toInt / 2 ^ k ≥ min a.toInt 0 := by
      rcases (show a.toInt < 0 ∨ 0 ≤ a.toInt by omega) with h | h
      · rw [Int.min_eq_left (by omega)]
        apply Int.le_ediv_of_mul_le hk
        have : a.toInt * 2 ^ k ≤ a.toInt * 1 := Int.mul_le_mul_of_nonpos_left (by omega) hk1
        omega
      · rw [Int.min_eq_right h]; exact Int.ediv_nonneg h (Int.le_of_lt hk)
    have : (0 : Int) < 2 ^ w := Int.pow_pos (by decide)
    omega
  · rw [two_pow_int]
    have h1 : a.toInt / 2 ^ k ≤ max a.toInt 0 := by
      rcases (show a.toInt < 0 ∨ 0 ≤ a.toInt by omega) with h | h
      · rw [Int.max_eq_right (by omega)]
        have := Int.ediv_neg_of_neg_of_pos h hk
        omega
      · rw [Int.max_eq_left h]; exact Int.ediv_le_self _ h
    have hp : (0 : Int) < 2 ^ w := Int.pow_pos (by decide)
    rcases Nat.eq_zero_or_pos w with hw | hw
    · subst hw
      have : a.toInt = 0 := by have := BitVec.eq_nil a; subst this; rfl
      rw [this] at h1 ⊢
      simp at h1 ⊢
    · have e : (2 : Int) ^ w = 2 * 2 ^ (w - 1) := by rw [← Int.pow_succ', Nat.sub_add_cancel hw]
      have : (0 : Int) < 2 ^ (w - 1) := Int.pow_pos (by decide)
      omega

end Verif.Bits
