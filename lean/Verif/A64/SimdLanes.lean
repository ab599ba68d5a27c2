import Verif.A64.Lemmas
import Verif.IR.Lanes

/-! The code emitted for one lane of a SIMD instruction computes the specified element. -/

set_option linter.unusedSimpArgs false
set_option linter.constructorNameAsVariable false

namespace Verif.A64.Spec

open Verif.IR Verif.Bits
open Verif.X86 (trunc_some zext_some sext_some add_some sub_some mul_some and_some or_some xor_some
  not_some neg_some icmp_some extract0)

variable {w : Nat}

theorem val_ival (sg : Bool) (x : BitVec w) : val sg x = ival sg x := rfl

theorem ext2_some (sg : Bool) (x : BitVec w) : ext2 sg (some x) = some (BitVec.ofInt (2 * w) (val sg x)) :=
  ext_val sg _ x

theorem mask1_some (c : Bool) : mask1 w (some (BitVec.ofBool c)) = some (maskOf w c) := by
  simp only [mask1, sext_some, sext_bool, maskOf]
  rfl

theorem absV_some (x : BitVec w) : absV (some x) = some (BitVec.ofNat w x.toInt.natAbs) := by
  simp only [absV, icmp_some, neg_some, select_bool, Pred.eval]
  rw [← abs_bv]
  split <;> rfl

theorem minMax_max (sg : Bool) (a b : BitVec w) :
    minMax sg false (some a) (some b) = some (BitVec.ofInt w (max (val sg a) (val sg b))) := by
  have h := lt_ival sg b a
  cases sg <;> simp only [if_true, Bool.false_eq_true, if_false] at h <;>
    simp only [minMax, Bool.false_eq_true, if_false, if_true, icmp_some, Pred.eval, select_bool, h,
      val_ival, ← max_bv, decide_eq_true_eq] <;> split <;> rfl

theorem minMax_min (sg : Bool) (a b : BitVec w) :
    minMax sg true (some a) (some b) = some (BitVec.ofInt w (min (val sg a) (val sg b))) := by
  have h := lt_ival sg a b
  cases sg <;> simp only [if_true, Bool.false_eq_true, if_false] at h <;>
    simp only [minMax, Bool.false_eq_true, if_false, if_true, icmp_some, Pred.eval, select_bool, h,
      val_ival, ← min_bv, decide_eq_true_eq] <;> split <;> rfl

theorem absdiff_some (hw : 0 < w) (sg : Bool) (a b : BitVec w) :
    absV (IR.sub (ext2 sg (some a)) (ext2 sg (some b))) =
      some (BitVec.ofNat (2 * w) (val sg a - val sg b).natAbs) := by
  rw [ext2_some, ext2_some, sub_some, absV_some, ofInt_sub, val_ival, val_ival, diff_toInt hw]

theorem one_lt (hw : 0 < w) : (1#(2 * w)).toNat < 2 * w := by
  rw [BitVec.toNat_ofNat]
  exact Nat.lt_of_le_of_lt (Nat.mod_le _ _) (by omega)

theorem one_toNat (hw : 0 < w) : (1#(2 * w)).toNat = 1 := by
  rw [BitVec.toNat_ofNat]
  exact Nat.mod_eq_of_lt (Nat.one_lt_two_pow (by omega))

/-- Half of a number computed with twice the width. -/
theorem halve_some (hw : 0 < w) (sg : Bool) (z : Int) :
    trunc w (if sg then IR.ashr (some (BitVec.ofInt (2 * w) z)) (some 1) else
      IR.lshr (some (BitVec.ofInt (2 * w) z)) (some 1)) = some (BitVec.ofInt w (z / 2)) := by
  have h1 : (1 : BitVec (2 * w)).toNat = 1 := one_toNat hw
  cases sg
  · simp only [Bool.false_eq_true, if_false, lshr_some, h1, show 1 < 2 * w by omega, if_true, trunc_some]
    rw [ushr_trunc (by omega)]; simp
  · simp only [if_true, ashr_some, h1, show 1 < 2 * w by omega, trunc_some]
    rw [sshr_trunc (by omega)]; simp

theorem bits_eq {x : BitVec w} {f : Nat → Bool} (h : ∀ i, i < w → x.getLsbD i = f i) : x = bits w f := by
  apply BitVec.eq_of_getLsbD_eq
  intro i hi
  rw [getLsbD_bits, h i hi]; simp [hi]

theorem any_and (a b : BitVec w) :
    (a &&& b != 0) = (List.range w).any fun i => a.getLsbD i && b.getLsbD i := by
  rw [Bool.eq_iff_iff]
  simp only [bne_iff_ne, ne_eq, List.any_eq_true, List.mem_range]
  constructor
  · intro h
    apply Classical.byContradiction
    intro hn
    apply h
    apply BitVec.eq_of_getLsbD_eq
    intro i hi
    rw [BitVec.getLsbD_and]
    cases e : a.getLsbD i && b.getLsbD i
    · simp
    · exact absurd ⟨i, hi, e⟩ hn
  · rintro ⟨i, hi, h⟩ e
    have := congrArg (fun z : BitVec w => z.getLsbD i) e
    simp only [BitVec.getLsbD_and] at this
    rw [h] at this
    simp at this

/-- Shifts by register whose amount is smaller than the width. -/
def ShlOk (w : Nat) (b : BitVec w) : Prop := (b.extractLsb' 0 8).toInt.natAbs < w

theorem shlReg_some (hw : 8 ≤ w) (sg : Bool) (a b : BitVec w) (h : ShlOk w b) :
    shlReg sg (some a) (some b) =
      some (BitVec.ofInt w (shiftBy (val sg a) (b.extractLsb' 0 8).toInt)) := by
  unfold ShlOk at h
  unfold shlReg
  simp only [trunc_some]
  rw [extract0] at h ⊢
  generalize b.setWidth 8 = k at *
  have hlt : (k.toInt.natAbs : Nat) < 2 ^ w := Nat.lt_trans h Nat.lt_two_pow_self
  have hz : (0#8).toInt = 0 := rfl
  have hsx : (k.signExtend w).toInt = k.toInt := BitVec.toInt_signExtend_of_le hw
  show select (icmp .sge (some k) (some 0)) _ _ = _
  simp only [icmp_some, select_bool, Pred.eval, sext_some, neg_some, BitVec.sle, decide_eq_true_eq]
  show (if (0#8).toInt ≤ k.toInt then _ else _) = _
  rw [hz]
  unfold shiftBy
  by_cases hk : 0 ≤ k.toInt
  · rw [if_pos hk, if_pos hk, shl_some]
    have e : (k.signExtend w).toNat = k.toInt.toNat := by
      have h1 := BitVec.toInt_eq_toNat_cond (k.signExtend w)
      rw [hsx] at h1
      have h2 := (k.signExtend w).isLt
      split at h1 <;> omega
    rw [e, if_pos (by omega), shl_ival sg]
    rfl
  · rw [if_neg hk, if_neg hk]
    have e : (-(k.signExtend w)).toNat = (-k.toInt).toNat := by
      rw [BitVec.toNat_neg]
      have h1 := BitVec.toInt_eq_toNat_cond (k.signExtend w)
      rw [hsx] at h1
      have h2 := (k.signExtend w).isLt
      have h3 : 2 ^ w - (k.signExtend w).toNat = (-k.toInt).toNat := by
        split at h1 <;> omega
      rw [h3]
      exact Nat.mod_eq_of_lt (by omega)
    cases sg
    · simp only [Bool.false_eq_true, if_false, lshr_some]
      rw [e, if_pos (by omega), lshr_ival]
      rfl
    · simp only [if_true, ashr_some]
      rw [e, if_pos (by omega), ashr_ival]
      rfl

theorem ofInt_zero' (w : Nat) : (0 : BitVec w) = BitVec.ofInt w 0 := by simp

/-- One lane of the operations on two operands. -/
theorem lane3_eq (op : Three) (sg : Bool) (d a b : BitVec w) (hw : 8 ≤ w)
    (hs : ∀ r, op = .shl r → ShlOk w b) :
    lane3 op sg (some d) (some a) (some b) = some (el3 op sg d a b) := by
  cases op with
  | and => exact congrArg some (bits_eq fun i hi => by simp)
  | bic => exact congrArg some (bits_eq fun i hi => by simp [hi])
  | orr => exact congrArg some (bits_eq fun i hi => by simp)
  | orn => exact congrArg some (bits_eq fun i hi => by simp [hi])
  | eor => exact congrArg some (bits_eq fun i hi => by simp)
  | bit =>
    refine congrArg some (bits_eq fun i hi => ?_)
    simp only [BitVec.getLsbD_xor, BitVec.getLsbD_and]
    cases a.getLsbD i <;> cases b.getLsbD i <;> cases d.getLsbD i <;> rfl
  | «bif» =>
    refine congrArg some (bits_eq fun i hi => ?_)
    simp only [BitVec.getLsbD_xor, BitVec.getLsbD_and, BitVec.getLsbD_not, hi, decide_true, Bool.true_and]
    cases a.getLsbD i <;> cases b.getLsbD i <;> cases d.getLsbD i <;> rfl
  | bsl =>
    refine congrArg some (bits_eq fun i hi => ?_)
    simp only [BitVec.getLsbD_xor, BitVec.getLsbD_and]
    cases a.getLsbD i <;> cases b.getLsbD i <;> cases d.getLsbD i <;> rfl
  | add => exact congrArg some (add_ival sg a b)
  | sub => exact congrArg some (sub_ival sg a b)
  | mul =>
    refine congrArg some ?_
    show 0#w + a * b = _
    rw [BitVec.zero_add, mul_ival sg]; rfl
  | mla =>
    refine congrArg some ?_
    show d + a * b = _
    rw [mul_ival sg, ← ofInt_ival sg d, ← BitVec.ofInt_add, ofInt_ival]; rfl
  | mls =>
    refine congrArg some ?_
    show d - a * b = _
    rw [mul_ival sg]
    conv => lhs; rw [← ofInt_ival sg d]
    rw [ofInt_sub]; rfl
  | hadd r =>
    simp only [lane3, el3, ext2_some]
    cases r
    · simp only [Bool.false_eq_true, if_false, add_some, ← BitVec.ofInt_add, Int.add_zero]
      exact halve_some (by omega) sg _
    · simp only [if_true, add_some, one_ofInt, ← BitVec.ofInt_add, ← Int.add_assoc]
      rw [← one_ofInt]
      exact halve_some (by omega) sg _
  | hsub =>
    simp only [lane3, el3, ext2_some, sub_some, ofInt_sub]
    exact halve_some (by omega) sg _
  | max => exact minMax_max sg a b
  | min => exact minMax_min sg a b
  | abd =>
    simp only [lane3, el3, absdiff_some (show 0 < w by omega), trunc_some, add_some]
    rw [ofNat_setWidth (by omega)]
    exact congrArg some (BitVec.zero_add _)
  | aba =>
    simp only [lane3, el3, absdiff_some (show 0 < w by omega), trunc_some, add_some]
    rw [ofNat_setWidth (by omega), BitVec.ofInt_add, ofInt_natAbs, val_ival sg d, ofInt_ival]
  | cmeq => exact mask1_some _
  | cmge => exact mask1_some _
  | cmgt => exact mask1_some _
  | cmhi => exact mask1_some _
  | cmhs => exact mask1_some _
  | cmtst => exact (mask1_some _).trans (by simp only [el3, ← any_and]; rfl)
  | shl r => exact shlReg_some hw sg a b (hs r rfl)
  | fcmeq => exact mask1_some _
  | fcmge => exact mask1_some _
  | fcmgt => exact mask1_some _

theorem lane2_eq (op : Two) (a : BitVec w) (hw : 0 < w) : lane2 op (some a) = some (el2 op a) := by
  cases op with
  | not => exact congrArg some (bits_eq fun i hi => by simp [hi])
  | neg =>
    refine congrArg some ?_
    show - a = BitVec.ofInt w (- a.toInt)
    rw [BitVec.ofInt_neg, BitVec.ofInt_toInt]
  | abs => exact absV_some a
  | clz => rfl
  | cnt => rfl
  | rbit =>
    refine congrArg some (bits_eq fun i hi => ?_)
    rw [show bitrev a = a.reverse from rfl, BitVec.getLsbD_reverse, BitVec.getMsbD, decide_eq_true hi,
      Bool.true_and]
  | cmeq => exact mask1_some _
  | cmge => exact (mask1_some _).trans (by simp only [Pred.eval, BitVec.sle]; rw [show (0 : BitVec w).toInt = 0 from BitVec.toInt_zero]; rfl)
  | cmgt => exact (mask1_some _).trans (by simp only [Pred.eval, BitVec.slt]; rw [show (0 : BitVec w).toInt = 0 from BitVec.toInt_zero]; rfl)
  | cmle => exact (mask1_some _).trans (by simp only [Pred.eval, BitVec.sle]; rw [show (0 : BitVec w).toInt = 0 from BitVec.toInt_zero]; rfl)
  | cmlt => exact (mask1_some _).trans (by simp only [Pred.eval, BitVec.slt]; rw [show (0 : BitVec w).toInt = 0 from BitVec.toInt_zero]; rfl)
  | fabs =>
    refine congrArg some (bits_eq fun i hi => ?_)
    have hne : w ≠ 0 := by omega
    simp only [BitVec.getLsbD_and, BitVec.getLsbD_not, BitVec.getLsbD_intMin, hi, decide_true, Bool.true_and]
    by_cases e : i = w - 1
    · subst e; simp [show w - 1 + 1 = w by omega]
    · simp [e, show i + 1 ≠ w by omega]
  | fneg =>
    refine congrArg some (bits_eq fun i hi => ?_)
    simp only [BitVec.getLsbD_xor, BitVec.getLsbD_intMin, hi, decide_true, Bool.true_and]
    by_cases e : i = w - 1
    · subst e; simp [show w - 1 + 1 = w by omega]
    · rw [beq_eq_false_iff_ne.mpr e]; simp [show i + 1 ≠ w by omega]
  | fcmeq => exact mask1_some _
  | fcmge => exact mask1_some _
  | fcmgt => exact mask1_some _
  | fcmle => exact mask1_some _
  | fcmlt => exact mask1_some _

theorem toNat_ofInt_add (v : Nat) (d : BitVec v) (z : Int) :
    d + BitVec.ofInt v z = BitVec.ofInt v (d.toNat + z) := by
  rw [BitVec.ofInt_add, BitVec.ofInt_natCast, BitVec.ofNat_toNat, BitVec.setWidth_eq]

theorem toNat_ofInt_sub (v : Nat) (d : BitVec v) (z : Int) :
    d - BitVec.ofInt v z = BitVec.ofInt v (d.toNat - z) := by
  rw [← ofInt_sub, BitVec.ofInt_natCast, BitVec.ofNat_toNat, BitVec.setWidth_eq]

theorem laneLong_eq (op : Long) (sg : Bool) (d : BitVec (2 * w)) (a b : BitVec w) (hw : 0 < w) :
    laneLong op sg (some d) (some a) (some b) = some (elLong op sg d a b) := by
  cases op with
  | add => simp only [laneLong, elLong, ext2_some, add_some, ← BitVec.ofInt_add]
  | sub => simp only [laneLong, elLong, ext2_some, sub_some, ofInt_sub]
  | mul =>
    simp only [laneLong, elLong, ext2_some, mul_some, add_some, ← BitVec.ofInt_mul]
    exact congrArg some (BitVec.zero_add _)
  | mla => simp only [laneLong, elLong, ext2_some, mul_some, add_some, ← BitVec.ofInt_mul, toNat_ofInt_add]
  | mls => simp only [laneLong, elLong, ext2_some, mul_some, sub_some, ← BitVec.ofInt_mul, toNat_ofInt_sub]
  | abd =>
    simp only [laneLong, elLong, absdiff_some hw, add_some]
    exact congrArg some (BitVec.zero_add _)
  | aba =>
    simp only [laneLong, elLong, absdiff_some hw, add_some]
    rw [BitVec.ofNat_add, BitVec.ofNat_toNat, BitVec.setWidth_eq]

theorem lanePair_eq (op : Pair) (sg : Bool) (a b : BitVec w) :
    lanePair op sg (some a) (some b) = some (elPair op sg a b) := by
  cases op with
  | add =>
    refine congrArg some ?_
    show a + b = BitVec.ofNat w (a.toNat + b.toNat)
    rw [BitVec.ofNat_add, BitVec.ofNat_toNat, BitVec.ofNat_toNat, BitVec.setWidth_eq, BitVec.setWidth_eq]
  | max => exact minMax_max sg a b
  | min => exact minMax_min sg a b

/-- Shift right and accumulate. -/
theorem laneSra_eq (sg round : Bool) (imm : Nat) (d a : BitVec w) (hw : 0 < w) (h1 : 1 ≤ imm) (h2 : imm ≤ w) :
    laneSra sg round imm (some d) (some a) = some (BitVec.ofInt w (d.toNat +
      (val sg a + (if round then 2 ^ (imm - 1) else 0)) / 2 ^ imm)) := by
  have hp : 2 * w < 2 ^ (2 * w) := Nat.lt_two_pow_self
  have hp2 : w < 2 ^ w := Nat.lt_two_pow_self
  unfold laneSra
  cases round
  · simp only [Bool.false_eq_true, if_false, Int.add_zero]
    by_cases h : imm < w
    · have e : (BitVec.ofNat w imm).toNat = imm := by
        rw [BitVec.toNat_ofNat]; exact Nat.mod_eq_of_lt (by omega)
      rw [if_pos h]
      cases sg
      · simp only [Bool.false_eq_true, if_false, lshr_some, e, h, if_true, add_some, lshr_ival, toNat_ofInt_add]
        rfl
      · simp only [if_true, ashr_some, e, h, add_some, ashr_ival, toNat_ofInt_add]
        rfl
    · have : imm = w := by omega
      subst this
      rw [if_neg h]
      cases sg
      · simp only [Bool.false_eq_true, if_false]
        have hz : ((0 : BitVec imm)).toNat = 0 := by simp
        have hv : val false a / 2 ^ imm = 0 := by
          apply Int.ediv_eq_zero_of_lt
          · simp [val]
          · exact ival_lt false a
        rw [lshr_some, hz, if_pos hw, add_some, hv]
        simp
      · simp only [if_true]
        have e : (BitVec.ofNat imm (imm - 1)).toNat = imm - 1 := by
          rw [BitVec.toNat_ofNat]; exact Nat.mod_eq_of_lt (by omega)
        rw [ashr_some, e, if_pos (by omega), add_some, ashr_ival, toNat_ofInt_add]
        have hl := @BitVec.two_mul_toInt_lt imm a
        have hg := @BitVec.le_two_mul_toInt imm a
        have e2 : (2 : Int) ^ imm = 2 * 2 ^ (imm - 1) := by rw [← Int.pow_succ', Nat.sub_add_cancel hw]
        have hpos : (0 : Int) < 2 ^ (imm - 1) := Int.pow_pos (by decide)
        have : ival true a / 2 ^ (imm - 1) = val true a / 2 ^ imm := by
          simp only [val, ival, if_true]
          rw [e2] at hl hg ⊢
          rcases (show a.toInt < 0 ∨ 0 ≤ a.toInt by omega) with hneg | hneg
          · have q1 : a.toInt / 2 ^ (imm - 1) = -1 := by
              rw [Int.ediv_eq_iff_of_pos hpos]; omega
            have q2 : a.toInt / (2 * 2 ^ (imm - 1)) = -1 := by
              rw [Int.ediv_eq_iff_of_pos (by omega)]; omega
            rw [q1, q2]
          · rw [Int.ediv_eq_zero_of_lt hneg (by omega), Int.ediv_eq_zero_of_lt hneg (by omega)]
        rw [this]
  · simp only [if_true]
    rw [if_pos (show imm < 2 * w by omega)]
    have e : (BitVec.ofNat (2 * w) imm).toNat = imm := by
      rw [BitVec.toNat_ofNat]; exact Nat.mod_eq_of_lt (by omega)
    have e2 : BitVec.ofNat (2 * w) (2 ^ (imm - 1)) = BitVec.ofInt (2 * w) (2 ^ (imm - 1)) := by
      rw [← ofInt_natAbs, two_pow_int]
    rw [ext2_some, add_some, e2, ← BitVec.ofInt_add]
    cases sg
    · simp only [Bool.false_eq_true, if_false, lshr_some, e, show imm < 2 * w by omega, if_true, trunc_some]
      rw [ushr_trunc (by omega), add_some, toNat_ofInt_add]
    · simp only [if_true, ashr_some, e, show imm < 2 * w by omega, trunc_some]
      rw [sshr_trunc (by omega), add_some, toNat_ofInt_add]

end Verif.A64.Spec
