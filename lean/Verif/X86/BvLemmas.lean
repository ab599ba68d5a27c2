import Verif.X86.Spec

/-! Bit-vector facts about the flag computations, for every width. -/

namespace Verif.X86

open Verif.IR Verif.X86.Spec

theorem cf_add {w : Nat} (a b : BitVec w) : (a + b).ult a = addCf a b false := by
  have ha := a.isLt; have hb := b.isLt
  simp only [BitVec.ult, addCf, BitVec.toNat_add, Bool.toNat_false, Nat.add_zero]
  congr 1
  apply propext
  by_cases h : a.toNat + b.toNat < 2 ^ w
  · rw [Nat.mod_eq_of_lt h]; omega
  · rw [Nat.mod_eq_sub_mod (by omega), Nat.mod_eq_of_lt (by omega)]; omega

theorem cf_sub {w : Nat} (a b : BitVec w) : a.ult b = subCf a b false := by
  simp [BitVec.ult, subCf]

theorem of_add {w : Nat} (a b : BitVec w) : a.saddOverflow b = addOf a b false := by
  simp only [BitVec.saddOverflow, addOf, sOver, Bool.toInt_false, Int.add_zero, Bool.decide_or,
    Bool.or_comm, ge_iff_le]

theorem msb_slt {w : Nat} (a : BitVec w) : a.slt 0#w = a.msb := by
  rw [BitVec.slt_zero_eq_msb]

theorem of_add' {w : Nat} (hw : 0 < w) (a b : BitVec w) :
    (~~~(a ^^^ b) &&& (a + b ^^^ a)).slt 0#w = addOf a b false := by
  rw [msb_slt, ← of_add, BitVec.saddOverflow_eq, BitVec.msb_and, BitVec.msb_not, BitVec.msb_xor,
    BitVec.msb_xor]
  simp only [hw, decide_true, Bool.true_and]
  cases a.msb <;> cases b.msb <;> cases (a + b).msb <;> rfl

theorem of_sub {w : Nat} (a b : BitVec w) :
    ((a - b).slt 0#w != a.slt b) = subOf a b false := by
  simp only [subOf, sOver, Bool.toInt_false, Int.sub_zero, BitVec.slt, BitVec.toInt_sub,
    BitVec.toInt_zero]
  rcases Nat.eq_zero_or_pos w with h | h
  · subst h; simp [BitVec.eq_nil a, BitVec.eq_nil b]
  have e : (2 : Int) ^ w = 2 * 2 ^ (w - 1) := by
    rw [← Int.pow_succ' , Nat.sub_add_cancel h]
  have h1 := @BitVec.two_mul_toInt_lt w a; have h2 := @BitVec.two_mul_toInt_lt w b
  have h3 := @BitVec.le_two_mul_toInt w a; have h4 := @BitVec.le_two_mul_toInt w b
  have e2 : ((2 ^ w : Nat) : Int) = 2 * 2 ^ (w - 1) := by push_cast; exact e
  rw [Int.bmod_def, e2]
  rw [e] at h1 h2 h3 h4
  generalize hN : (2 : Int) ^ (w - 1) = N at *
  have hd : (2 * N + 1) / 2 = N := by omega
  rw [hd]
  generalize a.toInt = x at *; generalize b.toInt = y at *
  have : (x - y) % (2 * N) = x - y ∨ (x - y) % (2 * N) = x - y + 2 * N := by
    by_cases hxy : 0 ≤ x - y
    · left; apply Int.emod_eq_of_lt <;> omega
    · right; rw [← Int.add_emod_right]; apply Int.emod_eq_of_lt <;> omega
  have hr := Int.emod_nonneg (x - y) (b := 2 * N) (by omega)
  have hl := Int.emod_lt_of_pos (x - y) (b := 2 * N) (by omega)
  generalize (x - y) % (2 * N) = r at *
  rw [Bool.eq_iff_iff]
  simp only [bne_iff_ne, ne_eq, decide_eq_decide, decide_eq_true_eq]
  split <;> omega

theorem bit4 {w : Nat} (x : BitVec w) : (x &&& 16#w != 0#w) = (decide (4 < w) && x.getLsbD 4) := by
  have e : 16#w = BitVec.twoPow w 4 := by
    apply BitVec.eq_of_toNat_eq; simp [BitVec.toNat_twoPow]
  rw [e, BitVec.and_twoPow]
  cases h : x.getLsbD 4
  · simp
  · have h4 : 4 < w := BitVec.lt_of_getLsbD h
    simp only [h4, decide_true, Bool.true_and, if_true]
    rw [bne_iff_ne]
    intro hh
    have := congrArg (fun v => v.getLsbD 4) hh
    simp [h4] at this

theorem af_add {w : Nat} (hw : 4 < w) (a b : BitVec w) :
    (((a ^^^ b) ^^^ (a + b)) &&& 16#w != 0#w) = addAf a b false := by
  rw [bit4]
  simp only [hw, decide_true, Bool.true_and, BitVec.getLsbD_xor, BitVec.getLsbD_add hw,
    BitVec.carry, addAf, Bool.toNat_false, Nat.add_zero]
  cases a.getLsbD 4 <;> cases b.getLsbD 4 <;> simp

theorem af_sub {w : Nat} (hw : 4 < w) (a b : BitVec w) :
    (((a ^^^ b) ^^^ (a - b)) &&& 16#w != 0#w) = subAf a b false := by
  rw [bit4]
  have e : a - b = a + ~~~b + BitVec.setWidth w (BitVec.ofBool true) := by
    rw [BitVec.sub_eq_add_neg, BitVec.neg_eq_not_add, ← BitVec.add_assoc]
    congr 1
    apply BitVec.eq_of_toNat_eq
    simp
  have hb : (~~~b).toNat % 2 ^ 4 = 15 - b.toNat % 16 := by
    rw [BitVec.toNat_not]
    have hlt := b.isLt
    have hd : 2 ^ w % 16 = 0 := by
      obtain ⟨k, rfl⟩ : ∃ k, w = k + 4 := ⟨w - 4, by omega⟩
      rw [Nat.pow_add]; omega
    omega
  rw [e]
  simp only [hw, decide_true, Bool.true_and, BitVec.getLsbD_xor, BitVec.getLsbD_add_add_bool hw,
    BitVec.carry, subAf, hb, BitVec.getLsbD_not]
  have : (decide (a.toNat % 2 ^ 4 + (15 - b.toNat % 16) + true.toNat ≥ 2 ^ 4))
      = !decide (a.toNat % 16 < b.toNat % 16 + false.toNat) := by
    rw [← decide_not]; congr 1; apply propext; simp; omega
  rw [this]
  cases a.getLsbD 4 <;> cases b.getLsbD 4 <;> simp

/-- The parity computed by `GetFlag(PF)`. -/
theorem pf_eq (x : BitVec 8) :
    ~~~ (BitVec.ofNat 8 (Bits.popcount x)).setWidth 1 = BitVec.ofBool (decide (Bits.popcount x % 2 = 0)) := by
  have h := Bits.popcount_le x
  generalize Bits.popcount x = n at *
  have : n = 0 ∨ n = 1 ∨ n = 2 ∨ n = 3 ∨ n = 4 ∨ n = 5 ∨ n = 6 ∨ n = 7 ∨ n = 8 := by omega
  rcases this with h | h | h | h | h | h | h | h | h <;> subst h <;> rfl

end Verif.X86
