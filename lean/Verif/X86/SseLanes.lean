import Verif.X86.Lemmas
import Verif.IR.Lanes

/-! The code emitted for one lane of an SSE instruction computes the specified element. -/

set_option linter.unusedSimpArgs false
set_option linter.constructorNameAsVariable false

namespace Verif.X86.Spec

open Verif.IR Verif.Bits

variable {w : Nat}

theorem laneBin_eq (op : VBin) (a b : BitVec w) : laneBin op (some a) (some b) = some (elBin op a b) := by
  cases op with
  | add => exact congrArg some (add_ival true a b)
  | sub => exact congrArg some (sub_ival true a b)
  | mul => exact congrArg some (mul_ival true a b)
  | and => rfl
  | or => rfl
  | xor => rfl
  | f op => rfl

theorem mask_some (c : Bool) : sext w (some (BitVec.ofBool c)) = some (maskOf w c) := by
  simp only [sext_some, sext_bool, maskOf]
  rfl

theorem lanePcmp_eq (gt : Bool) (a b : BitVec w) : lanePcmp gt (some a) (some b) =
    some (maskOf w (if gt then decide (b.toInt < a.toInt) else decide (a = b))) := by
  cases gt
  · exact mask_some _
  · exact mask_some _

theorem lanePminmax_eq (max sgn : Bool) (a b : BitVec w) : lanePminmax max sgn (some a) (some b) =
    some (BitVec.ofInt w (if max then Max.max (ival sgn a) (ival sgn b) else Min.min (ival sgn a) (ival sgn b))) := by
  have h1 := lt_ival sgn a b
  have h2 := lt_ival sgn b a
  cases max <;> cases sgn <;> simp only [if_true, Bool.false_eq_true, if_false] at h1 h2 <;>
    simp only [lanePminmax, Bool.false_eq_true, if_false, if_true, icmp_some, Pred.eval, select_bool, h1, h2,
      ← min_bv, ← max_bv, decide_eq_true_eq] <;> split <;> rfl

theorem lanePabs_eq (a : BitVec w) : lanePabs (some a) = some (BitVec.ofNat w a.toInt.natAbs) := by
  have hz : (0 : BitVec w).toInt = 0 := BitVec.toInt_zero
  have e : (0 : BitVec w) - a = - a := BitVec.zero_sub a
  simp only [lanePabs, icmp_some, sub_some, select_bool, Pred.eval, e]
  rw [← abs_bv]
  simp only [BitVec.slt, BitVec.sle, hz, decide_eq_true_eq]
  by_cases h : a.toInt < 0
  · rw [if_pos h, if_neg (by omega)]
  · rw [if_neg h, if_pos (by omega)]

theorem lanePsign_eq (a b : BitVec w) : lanePsign (some a) (some b) =
    some (BitVec.ofInt w (if b.toInt < 0 then - a.toInt else if b.toInt = 0 then 0 else a.toInt)) := by
  have hz : (0 : BitVec w).toInt = 0 := BitVec.toInt_zero
  have e : (b = 0) ↔ b.toInt = 0 := by
    rw [← hz]; exact ⟨fun h => by rw [h], BitVec.eq_of_toInt_eq⟩
  simp only [lanePsign, icmp_some, neg_some, select_bool, Pred.eval, BitVec.slt, hz, decide_eq_true_eq, beq_iff_eq, e]
  by_cases h : b.toInt < 0
  · rw [if_neg (by omega), if_pos h, if_pos h, BitVec.ofInt_neg, BitVec.ofInt_toInt]
  · rw [if_neg h, if_neg h]
    by_cases h0 : b.toInt = 0
    · rw [if_pos h0, if_pos h0]; simp
    · rw [if_neg h0, if_neg h0, BitVec.ofInt_toInt]

theorem fcmp_some (p : Fp.Rel → Bool) (a b : BitVec w) :
    fcmp p (some a) (some b) = some (BitVec.ofBool (p (Fp.cmp a b))) := rfl

theorem laneMinmax_eq (max : Bool) (a b : BitVec w) :
    laneMinmax max (some a) (some b) = some (elMinmax max a b) := by
  unfold laneMinmax elMinmax
  rw [fcmp_some, select_bool]
  cases max <;> cases Fp.cmp a b <;> rfl

theorem lanePshift_eq (hw : 0 < w) (hw2 : w ≤ 64) (k : Shift) (c : BitVec 64) (a : BitVec w) :
    lanePshift k (some c) (some a) = some (elShift k c.toNat a) := by
  have hp : w < 2 ^ w := Nat.lt_two_pow_self
  have hp3 : w < 2 ^ 64 := by omega
  have hc : (BitVec.ofNat 64 w).toNat = w := by rw [BitVec.toNat_ofNat]; exact Nat.mod_eq_of_lt hp3
  have hm : ∀ j, j < w → (BitVec.ofNat 64 j).setWidth w = BitVec.ofNat w j := fun j hj => by
    rw [ofNat_setWidth hw2]
  have hsm : c.toNat < w → (c.setWidth w).toNat = c.toNat := fun h => by
    rw [BitVec.toNat_setWidth]; exact Nat.mod_eq_of_lt (by omega)
  cases k with
  | shl =>
    show select (icmp .ult (some c) (some (BitVec.ofNat 64 w))) (IR.shl (some a) (trunc w (some c))) (some 0) = _
    simp only [icmp_some, select_bool, Pred.eval, BitVec.ult, hc, decide_eq_true_eq, trunc_some, elShift]
    split
    next h =>
      show IR.shl _ _ = _
      rw [shl_some, hsm h, if_pos h]
      congr 1
      apply BitVec.eq_of_toNat_eq
      rw [BitVec.toNat_shiftLeft, BitVec.toNat_ofNat, Nat.shiftLeft_eq]
    · rfl
  | shr =>
    show select (icmp .ult (some c) (some (BitVec.ofNat 64 w))) (IR.lshr (some a) (trunc w (some c))) (some 0) = _
    simp only [icmp_some, select_bool, Pred.eval, BitVec.ult, hc, decide_eq_true_eq, trunc_some, elShift]
    split
    next h =>
      show IR.lshr _ _ = _
      rw [lshr_some, hsm h, if_pos h]
      congr 1
      apply BitVec.eq_of_toNat_eq
      rw [BitVec.toNat_ushiftRight, BitVec.toNat_ofNat, Nat.shiftRight_eq_div_pow, Nat.mod_eq_of_lt]
      exact Nat.lt_of_le_of_lt (Nat.div_le_self _ _) a.isLt
    · rfl
  | sar =>
    have hc1 : (BitVec.ofNat 64 (w - 1)).toNat = w - 1 := by
      rw [BitVec.toNat_ofNat]; exact Nat.mod_eq_of_lt (by omega)
    show IR.ashr _ _ = _
    simp only [icmp_some, select_bool, Pred.eval, BitVec.ult, hc1, decide_eq_true_eq, elShift]
    split
    next h =>
      have e : (BitVec.ofNat w (w - 1)).toNat = w - 1 := by
        rw [BitVec.toNat_ofNat]; exact Nat.mod_eq_of_lt (by omega)
      rw [trunc_some, ashr_some, hm _ (by omega), e, if_pos (by omega), ashr_ival, Nat.min_eq_right (by omega)]
      rfl
    next h =>
      rw [trunc_some, ashr_some, hsm (by omega), if_pos (by omega), ashr_ival, Nat.min_eq_left (by omega)]
      rfl

theorem lanePavg_eq (hw : 0 < w) (a b : BitVec w) :
    lanePavg (some a) (some b) = some (BitVec.ofNat w ((a.toNat + b.toNat + 1) / 2)) := by
  have ha := a.isLt
  have hb := b.isLt
  have h1 : (1 : BitVec (2 * w)).toNat = 1 := by
    show (1#(2 * w)).toNat = 1
    rw [BitVec.toNat_ofNat]; exact Nat.mod_eq_of_lt (Nat.one_lt_two_pow (by omega))
  have e : (2 : Nat) ^ (2 * w) = 2 ^ w * 2 ^ w := by rw [← Nat.pow_add]; congr 1; omega
  have h2 : 2 ≤ 2 ^ w := by
    have := Nat.pow_le_pow_right (show 0 < 2 by decide) (show 1 ≤ w from hw); simpa using this
  have hge : 2 ^ w * 2 ≤ 2 ^ w * 2 ^ w := Nat.mul_le_mul_left _ h2
  simp only [lanePavg, zext_some, add_some, lshr_some, h1, show 1 < 2 * w by omega, if_true, trunc_some]
  congr 1
  apply BitVec.eq_of_toNat_eq
  rw [BitVec.toNat_setWidth, BitVec.toNat_ushiftRight, BitVec.toNat_add, BitVec.toNat_add, h1,
    BitVec.toNat_setWidth, BitVec.toNat_setWidth, BitVec.toNat_ofNat, e,
    Nat.mod_eq_of_lt (show a.toNat < 2 ^ w * 2 ^ w by omega), Nat.mod_eq_of_lt (show b.toNat < 2 ^ w * 2 ^ w by omega),
    Nat.mod_eq_of_lt (show a.toNat + b.toNat < 2 ^ w * 2 ^ w by omega),
    Nat.mod_eq_of_lt (show a.toNat + b.toNat + 1 < 2 ^ w * 2 ^ w by omega), Nat.shiftRight_eq_div_pow]

theorem satTrunc_eq {v : Nat} (hv : 0 < v) (hvw : v < w) (sgn : Bool) (a : BitVec w) :
    satTrunc v sgn (some a) = some (sat v sgn a.toInt) := by
  have hp : (0 : Int) < 2 ^ (v - 1) := Int.pow_pos (by decide)
  have hp2 : (2 : Int) ^ v = 2 * 2 ^ (v - 1) := by rw [← Int.pow_succ', Nat.sub_add_cancel hv]
  have hp3 : (2 : Int) ^ v ≤ 2 ^ (w - 1) := pow_le_pow_int (by omega)
  have key : ∀ lo hi : Int, -2 ^ (w - 1) ≤ lo → lo ≤ hi → hi < 2 ^ (w - 1) → ∀ mn mx : BitVec w,
      mn = BitVec.ofInt w lo → mx = BitVec.ofInt w hi →
      (let x : Val w := select (icmp .slt (some a) (some mn)) (some mn) (some a)
       let x := select (icmp .sgt x (some mx)) (some mx) x
       trunc v x) = some (BitVec.ofInt v (clamp lo hi a.toInt)) := by
    intro lo hi h1 h2 h3 mn mx e1 e2
    have i1 : mn.toInt = lo := by rw [e1]; exact toInt_ofInt_of h1 (by omega) (by omega)
    have i2 : mx.toInt = hi := by rw [e2]; exact toInt_ofInt_of (by omega) h3 (by omega)
    simp only [icmp_some, select_bool, Pred.eval, BitVec.slt, i1, decide_eq_true_eq]
    unfold clamp
    by_cases c1 : a.toInt < lo
    · rw [if_pos c1, if_pos c1]
      simp only [icmp_some, select_bool, Pred.eval, BitVec.slt, i1, i2, decide_eq_true_eq]
      rw [if_neg (by omega), trunc_some, e1, trunc_ofInt (by omega)]
    · rw [if_neg c1, if_neg c1]
      simp only [icmp_some, select_bool, Pred.eval, BitVec.slt, i2, decide_eq_true_eq]
      by_cases c2 : hi < a.toInt
      · rw [if_pos c2, if_pos c2, trunc_some, e2, trunc_ofInt (by omega)]
      · rw [if_neg c2, if_neg c2, trunc_some]
        conv => lhs; rw [← BitVec.ofInt_toInt (x := a)]
        rw [trunc_ofInt (by omega)]
  cases sgn
  · simp only [satTrunc, sat, Bool.false_eq_true, if_false]
    refine key 0 (2 ^ v - 1) (by omega) (by omega) (by omega) _ _ (by simp) ?_
    rw [Bv.setWidth_eq_ofInt, BitVec.toNat_allOnes]
    congr 1
    rw [← two_pow_int]
    have := Nat.two_pow_pos v
    omega
  · simp only [satTrunc, sat, if_true]
    refine key (-2 ^ (v - 1)) (2 ^ (v - 1) - 1) (by omega) (by omega) (by omega) _ _ ?_ ?_
    · rw [Bv.signExtend_eq_ofInt, BitVec.toInt_intMin_of_pos hv]
    · rw [Bv.signExtend_eq_ofInt, BitVec.toInt_intMax]

theorem lanePadds_eq (hw : 2 ≤ w) (sub sgn : Bool) (a b : BitVec w) : lanePadds sub sgn (some a) (some b) =
    some (sat w sgn (if sub then ival sgn a - ival sgn b else ival sgn a + ival sgn b)) := by
  have h3 : (2 : Int) ^ (w + 1) ≤ 2 ^ (2 * w - 1) := pow_le_pow_int (by omega)
  have h4 : (2 : Int) ^ (w + 1) = 2 * 2 ^ w := Int.pow_succ' 2 w
  have a1 := ival_lt sgn a
  have a2 := ival_le sgn a
  have b1 := ival_lt sgn b
  have b2 := ival_le sgn b
  have d := ival_diff sgn a b
  simp only [lanePadds, ext_val]
  cases sub
  · simp only [Bool.false_eq_true, if_false, add_some, ← BitVec.ofInt_add]
    rw [satTrunc_eq (by omega) (by omega), toInt_ofInt_of (by omega) (by omega) (by omega)]
  · simp only [if_true, sub_some, ofInt_sub]
    rw [satTrunc_eq (by omega) (by omega), toInt_ofInt_of (by omega) (by omega) (by omega)]

/-- High half of a product of words. -/
theorem pmulh_eq (sgn : Bool) (a b : BitVec 16) :
    trunc 16 (IR.lshr (IR.mul (IR.ext sgn 32 (some a)) (IR.ext sgn 32 (some b))) (some 16)) =
      some (BitVec.ofInt 16 (ival sgn a * ival sgn b / 2 ^ 16)) := by
  simp only [ext_val, mul_some, ← BitVec.ofInt_mul, lshr_some]
  rw [if_pos (by decide), trunc_some]
  exact congrArg some (ushr_trunc (v := 32) (w := 16) (k := 16) (by decide) _)

theorem mul8_bound (x : BitVec 8) (y : BitVec 8) : -32768 ≤ x.toInt * y.toNat ∧ x.toInt * y.toNat ≤ 32767 := by
  have hx1 := @BitVec.two_mul_toInt_lt 8 x
  have hx2 := @BitVec.le_two_mul_toInt 8 x
  have hy := y.isLt
  have h1 : x.toInt * y.toNat ≤ 127 * y.toNat := Int.mul_le_mul_of_nonneg_right (by omega) (by omega)
  have h2 : -128 * (y.toNat : Int) ≤ x.toInt * y.toNat := Int.mul_le_mul_of_nonneg_right (by omega) (by omega)
  omega

theorem pmaddubs_eq (a0 b0 a1 b1 : BitVec 8) :
    satTrunc 16 true (IR.add (IR.mul (sext 32 (some b0)) (zext 32 (some a0)))
      (IR.mul (sext 32 (some b1)) (zext 32 (some a1)))) =
    some (sat 16 true ((a0.toNat : Int) * b0.toInt + (a1.toNat : Int) * b1.toInt)) := by
  have h0 := mul8_bound b0 a0
  have h1 := mul8_bound b1 a1
  simp only [sext_some, zext_some, mul_some, add_some, Bv.signExtend_eq_ofInt, Bv.setWidth_eq_ofInt,
    ← BitVec.ofInt_mul, ← BitVec.ofInt_add]
  rw [satTrunc_eq (by omega) (by omega), toInt_ofInt_of (by omega) (by omega) (by omega),
    Int.mul_comm b0.toInt, Int.mul_comm b1.toInt]

/-- Absolute difference of unsigned bytes. -/
theorem psad_eq (a b : BitVec 8) :
    select (icmp .ugt (some b) (some a)) (IR.neg (IR.sub (some a) (some b))) (IR.sub (some a) (some b)) =
      some (BitVec.ofNat 8 ((a.toNat : Int) - (b.toNat : Int)).natAbs) := by
  have ha := a.isLt
  have hb := b.isLt
  simp only [icmp_some, sub_some, neg_some, select_bool, Pred.eval, BitVec.ult, decide_eq_true_eq]
  split
  · congr 1; apply BitVec.eq_of_toNat_eq
    rw [BitVec.toNat_neg, BitVec.toNat_sub, BitVec.toNat_ofNat]; omega
  · congr 1; apply BitVec.eq_of_toNat_eq
    rw [BitVec.toNat_sub, BitVec.toNat_ofNat]; omega

theorem foldl_add_ofNat (l : List Nat) (g : Nat → Nat) (e : Nat) :
    l.foldl (fun (acc : BitVec 16) i => acc + BitVec.ofNat 16 (g i)) (BitVec.ofNat 16 e) =
      BitVec.ofNat 16 (e + (l.map g).sum) := by
  induction l generalizing e with
  | nil => simp
  | cons x l ih =>
    rw [List.foldl_cons, ← BitVec.ofNat_add, ih, List.map_cons, List.sum_cons, Nat.add_assoc]

/-- Sum of eight bytes. -/
theorem psum_eq (v : Vec 8) (g : Nat → Nat) (hg : ∀ i, i < 8 → v i = some (BitVec.ofNat 8 (g i)) ∧ g i < 256) :
    Vec.reduce IR.add (some 0) 8 (fun i => zext 16 (v i)) = some (BitVec.ofNat 16 ((List.range 8).map g).sum) := by
  rw [Vec.reduce_eq (f := fun i => BitVec.ofNat 16 (g i)) (g := fun x y => x + y) add_some]
  · have := foldl_add_ofNat (List.range 8) g 0
    rw [Nat.zero_add] at this
    exact congrArg some this
  · intro i hi
    obtain ⟨h1, h2⟩ := hg i hi
    rw [h1, zext_some]
    congr 1
    apply BitVec.eq_of_toNat_eq
    rw [BitVec.toNat_setWidth, BitVec.toNat_ofNat, BitVec.toNat_ofNat]
    omega

end Verif.X86.Spec
