import Verif.IR.Basic

/-! General bit-vector facts used by several proofs. -/

namespace Verif.Bv

theorem setWidth_sub {w : Nat} (i : Nat) (x y : BitVec w) (h : i ≤ w) :
    (x - y).setWidth i = x.setWidth i - y.setWidth i := by
  rw [BitVec.sub_eq_add_neg, BitVec.setWidth_add _ _ h, BitVec.sub_eq_add_neg]
  congr 1
  apply BitVec.eq_of_toNat_eq
  have hd : 2 ^ i ∣ 2 ^ w := Nat.pow_dvd_pow 2 h
  simp only [BitVec.toNat_setWidth, BitVec.toNat_neg]
  rw [Nat.mod_mod_of_dvd _ hd]
  obtain ⟨k, hk⟩ := hd
  have hlt := y.isLt
  have h1 : y.toNat % 2 ^ i < 2 ^ i := Nat.mod_lt _ (Nat.two_pow_pos _)
  have e : y.toNat = 2 ^ i * (y.toNat / 2 ^ i) + y.toNat % 2 ^ i := (Nat.div_add_mod _ _).symm
  have hq : y.toNat / 2 ^ i < k := by
    rw [Nat.div_lt_iff_lt_mul (Nat.two_pow_pos _), Nat.mul_comm, ← hk]; exact hlt
  have hk2 : 2 ^ w - y.toNat = (2 ^ i - y.toNat % 2 ^ i) + 2 ^ i * (k - 1 - y.toNat / 2 ^ i) := by
    have : k = (k - 1 - y.toNat / 2 ^ i) + y.toNat / 2 ^ i + 1 := by omega
    rw [hk]
    conv => lhs; lhs; rw [this]
    rw [Nat.mul_add, Nat.mul_add, Nat.mul_one]
    omega
  rw [hk2, Nat.add_mul_mod_self_left]

theorem toNat_and_63 (y : BitVec 64) : (y &&& 63#64).toNat = y.toNat % 64 := by
  rw [BitVec.toNat_and]
  exact Nat.and_two_pow_sub_one_eq_mod _ 6

theorem toNat_and_31 (y : BitVec 32) : (y &&& 31#32).toNat = y.toNat % 32 := by
  rw [BitVec.toNat_and]
  exact Nat.and_two_pow_sub_one_eq_mod _ 5

theorem toNat_setWidth32_mod (y : BitVec 64) : (y.setWidth 32).toNat % 32 = y.toNat % 32 := by
  rw [BitVec.toNat_setWidth]; omega

theorem setWidth_signExtend_32 (x : BitVec 32) : (x.signExtend 64).setWidth 32 = x := by
  apply BitVec.eq_of_getLsbD_eq
  intro i hi
  rw [BitVec.getLsbD_setWidth, BitVec.getLsbD_signExtend]
  simp only [hi, show i < 64 by omega, decide_true, Bool.true_and, if_true]

theorem signExtend_toNat_mod32 (x : BitVec 32) : (x.signExtend 64).toNat % 32 = x.toNat % 32 := by
  rw [← toNat_setWidth32_mod, setWidth_signExtend_32]

theorem sdiv_eq_ofInt {w : Nat} (x y : BitVec w) :
    x.sdiv y = BitVec.ofInt w (x.toInt.tdiv y.toInt) := by
  apply BitVec.eq_of_toInt_eq
  rw [BitVec.toInt_sdiv, BitVec.toInt_ofInt]

theorem srem_eq_ofInt {w : Nat} (x y : BitVec w) :
    x.srem y = BitVec.ofInt w (x.toInt.tmod y.toInt) := by
  rw [← BitVec.toInt_srem, BitVec.ofInt_toInt]

theorem hi64_ofInt (z : Int) :
    ((BitVec.ofInt 128 z) >>> 64).setWidth 64 = BitVec.ofInt 64 (z / 2 ^ 64) := by
  apply BitVec.eq_of_toNat_eq
  rw [BitVec.toNat_setWidth, BitVec.toNat_ushiftRight, BitVec.toNat_ofInt, BitVec.toNat_ofInt,
    Nat.shiftRight_eq_div_pow]
  omega

theorem signExtend_eq_ofInt {w : Nat} (v : Nat) (x : BitVec w) :
    x.signExtend v = BitVec.ofInt v x.toInt := rfl

theorem setWidth_eq_ofInt {w : Nat} (v : Nat) (x : BitVec w) :
    x.setWidth v = BitVec.ofInt v (x.toNat : Int) := by
  apply BitVec.eq_of_toNat_eq
  rw [BitVec.toNat_setWidth, BitVec.toNat_ofInt]
  have h2 : ((x.toNat : Int) % ((2 ^ v : Nat) : Int)) = ((x.toNat % 2 ^ v : Nat) : Int) := by norm_cast
  rw [h2]; rfl

theorem mulhi_signed (x y : BitVec 64) :
    ((x.signExtend 128 * y.signExtend 128) >>> 64).setWidth 64
      = BitVec.ofInt 64 (x.toInt * y.toInt / 2 ^ 64) := by
  rw [signExtend_eq_ofInt, signExtend_eq_ofInt, ← BitVec.ofInt_mul, hi64_ofInt]

theorem mulhi_su (x y : BitVec 64) :
    ((x.signExtend 128 * y.setWidth 128) >>> 64).setWidth 64
      = BitVec.ofInt 64 (x.toInt * y.toNat / 2 ^ 64) := by
  rw [signExtend_eq_ofInt, setWidth_eq_ofInt 128 y, ← BitVec.ofInt_mul, hi64_ofInt]

theorem mulhi_unsigned (x y : BitVec 64) :
    ((x.setWidth 128 * y.setWidth 128) >>> 64).setWidth 64
      = BitVec.ofNat 64 (x.toNat * y.toNat / 2 ^ 64) := by
  rw [setWidth_eq_ofInt 128 x, setWidth_eq_ofInt 128 y, ← BitVec.ofInt_mul, hi64_ofInt]
  apply BitVec.eq_of_toNat_eq
  rw [BitVec.toNat_ofInt, BitVec.toNat_ofNat]
  have : ((x.toNat : Int) * (y.toNat : Int)) = ((x.toNat * y.toNat : Nat) : Int) := by norm_cast
  rw [this]
  omega

theorem setWidth_ofBool_64 (b : Bool) :
    (BitVec.ofBool b).setWidth 64 = if b then 1#64 else 0#64 := by cases b <;> rfl

theorem one_shiftLeft (n : Nat) : (1#64) <<< n = BitVec.twoPow 64 n := rfl

theorem signExtend_small {w v n : Nat} (hn : n < 2 ^ (w - 1)) (hw : 0 < w) :
    (BitVec.ofNat w n).signExtend v = BitVec.ofNat v n := by
  have h2 : 2 ^ w = 2 * 2 ^ (w - 1) := by
    rw [← Nat.pow_succ']; congr 1; omega
  have hmsb : (BitVec.ofNat w n).msb = false := by
    rw [BitVec.msb_eq_false_iff_two_mul_lt, BitVec.toNat_ofNat, Nat.mod_eq_of_lt] <;> omega
  rw [BitVec.signExtend_eq_setWidth_of_msb_false hmsb]
  apply BitVec.eq_of_toNat_eq
  rw [BitVec.toNat_setWidth, BitVec.toNat_ofNat, BitVec.toNat_ofNat]
  rw [Nat.mod_eq_of_lt (show n < 2 ^ w by omega)]

end Verif.Bv
