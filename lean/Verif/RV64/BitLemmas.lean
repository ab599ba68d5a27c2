import Verif.RV64.Lemmas

/-! Lemmas for the bit-manipulation instructions. -/

namespace Verif.RV64

set_option linter.unusedSimpArgs false

open Verif.IR

theorem zx32_eq (x : BitVec 64) : (x.setWidth 32).setWidth 64 = Spec.zx32 x := by
  apply BitVec.eq_of_toNat_eq
  unfold Spec.zx32
  rw [BitVec.toNat_setWidth, BitVec.toNat_setWidth, BitVec.toNat_and]
  have : (0xffffffff#64).toNat = 2 ^ 32 - 1 := rfl
  rw [this, Nat.and_two_pow_sub_one_eq_mod]
  omega

theorem zx16_eq (x : BitVec 64) : (x.setWidth 16).setWidth 64 = x &&& 0xffff#64 := by
  apply BitVec.eq_of_toNat_eq
  rw [BitVec.toNat_setWidth, BitVec.toNat_setWidth, BitVec.toNat_and]
  have : (0xffff#64).toNat = 2 ^ 16 - 1 := rfl
  rw [this, Nat.and_two_pow_sub_one_eq_mod]
  omega

theorem shl_eq_mul (x : BitVec 64) (k : Nat) : x <<< k = x * BitVec.ofNat 64 (2 ^ k) := by
  apply BitVec.eq_of_toNat_eq
  rw [BitVec.toNat_shiftLeft, BitVec.toNat_mul, BitVec.toNat_ofNat, Nat.shiftLeft_eq,
    Nat.mul_mod_mod]

theorem lane_mask (b : BitVec 8) :
    (BitVec.ofBool (b != 0#8)).signExtend 8 = if b = 0#8 then 0#8 else 0xff#8 := by
  by_cases h : b = 0#8
  · simp [h]
  · have : (b != 0#8) = true := by simp [h]
    simp only [this, h, if_false]; decide

theorem bext_eq (x : BitVec 64) (n : Nat) : (x >>> n) &&& 1#64 = Spec.bit (x.getLsbD n) := by
  apply BitVec.eq_of_getLsbD_eq
  intro k hk
  rw [BitVec.getLsbD_and, BitVec.getLsbD_ushiftRight, BitVec.getLsbD_one]
  unfold Spec.bit
  by_cases h : k = 0
  · subst h
    cases hx : x.getLsbD n <;> simp [hx]
  · cases hx : x.getLsbD n <;> simp [hx, h]

theorem bit_test (y : BitVec 64) (k : Nat) (hk : k < 64) :
    ((BitVec.ofNat 64 (2 ^ k) &&& y) == 0#64) = !y.getLsbD k := by
  have ht : BitVec.ofNat 64 (2 ^ k) = BitVec.twoPow 64 k := by
    apply BitVec.eq_of_toNat_eq
    rw [BitVec.toNat_twoPow, BitVec.toNat_ofNat]
  rw [ht]
  cases hy : y.getLsbD k
  · simp only [Bool.not_false, beq_iff_eq]
    apply BitVec.eq_of_getLsbD_eq
    intro j hj
    rw [BitVec.getLsbD_and, BitVec.getLsbD_twoPow, BitVec.getLsbD_zero]
    by_cases h : k = j
    · subst h; simp [hy]
    · simp [h]
  · simp only [Bool.not_true, beq_eq_false_iff_ne, ne_eq]
    intro h
    have := congrArg (fun v => v.getLsbD k) h
    simp only [BitVec.getLsbD_and, BitVec.getLsbD_twoPow, BitVec.getLsbD_zero, hy, hk] at this
    simp at this

theorem foldl_some {α β : Type} (f : Option β → α → Option β) (g : β → α → β) (l : List α)
    (h : ∀ b, ∀ a ∈ l, f (some b) a = some (g b a)) (b : β) :
    l.foldl f (some b) = some (l.foldl g b) := by
  induction l generalizing b with
  | nil => rfl
  | cons a l ih =>
    rw [List.foldl_cons, List.foldl_cons, h b a (by simp)]
    exact ih (fun b a ha => h b a (by simp [ha])) _

theorem foldl_hom_mem {α β γ : Type} (e : β → γ) (f : β → α → β) (g : γ → α → γ) (l : List α)
    (h : ∀ b, ∀ a ∈ l, e (f b a) = g (e b) a) (b : β) :
    e (l.foldl f b) = l.foldl g (e b) := by
  induction l generalizing b with
  | nil => rfl
  | cons a l ih =>
    rw [List.foldl_cons, List.foldl_cons, ← h b a (by simp)]
    exact ih (fun b a ha => h b a (by simp [ha])) _

/-- One 64-bit slice of the carry-less product. -/
theorem clprod_slice (x y : BitVec 64) (off : Nat) (op : Nat → BitVec 64)
    (hop : ∀ k, k < 64 → ((x.setWidth 128) <<< k).extractLsb' off 64 = op k) :
    (Spec.clprod x y).extractLsb' off 64
      = (List.range 64).foldl (fun acc k => if y.getLsbD k then acc ^^^ op k else acc) 0#64 := by
  unfold Spec.clprod
  rw [foldl_hom_mem (fun v : BitVec 128 => v.extractLsb' off 64) _
    (fun acc k => if y.getLsbD k then acc ^^^ op k else acc)]
  · congr 1
    apply BitVec.eq_of_getLsbD_eq
    intro i hi; simp
  · intro b a ha
    have ha' : a < 64 := List.mem_range.mp ha
    by_cases hy : y.getLsbD a
    · simp only [hy, if_true]
      rw [← hop a ha']
      apply BitVec.eq_of_getLsbD_eq
      intro i hi
      simp only [BitVec.getLsbD_extractLsb', BitVec.getLsbD_xor, hi, decide_true, Bool.true_and]
    · simp only [hy, if_false, Bool.false_eq_true]

theorem liftCLMul_eq {m : St} {s : Spec.State} (hr : RegRel m s) (i : Frv) (op : Nat → BitVec 64)
    (hend : clmulStart i.mnem + (clmulEnd i.mnem - clmulStart i.mnem) ≤ 64)
    (hop : ∀ k, clmulStart i.mnem ≤ k → k < 64 →
      clmulOperand i.mnem (some (s.x i.rs1)) k = some (op k)) :
    liftCLMul m i = storeGp m i.rd (some
      ((List.range' (clmulStart i.mnem) (clmulEnd i.mnem - clmulStart i.mnem)).foldl
        (fun acc k => if (s.x i.rs2).getLsbD k then acc ^^^ op k else acc) 0#64)) := by
  unfold liftCLMul
  simp only [loadGp64_rel hr]
  rw [foldl_some _ (fun acc k => if (s.x i.rs2).getLsbD k then acc ^^^ op k else acc)]
  intro b k hk
  rw [List.mem_range'_1] at hk
  have hk' : k < 64 := by omega
  simp only [ir, Pred.eval, bit_test _ _ hk', hop k hk.1 hk']
  cases (s.x i.rs2).getLsbD k <;> simp [ir]

theorem extract_shl (x : BitVec 64) (off k : Nat) (hk : k ≤ off) (ho : off ≤ 64) :
    ((x.setWidth 128) <<< k).extractLsb' off 64 = x >>> (off - k) := by
  apply BitVec.eq_of_getLsbD_eq
  intro i hi
  simp only [BitVec.getLsbD_extractLsb', BitVec.getLsbD_shiftLeft, BitVec.getLsbD_setWidth,
    BitVec.getLsbD_ushiftRight, hi, decide_true, Bool.true_and, show off + i < 128 by omega,
    show ¬ off + i < k by omega, decide_false, Bool.not_false, show off + i - k < 128 by omega]
  congr 1; omega

theorem extract_shl0 (x : BitVec 64) (k : Nat) (hk : k < 64) :
    ((x.setWidth 128) <<< k).extractLsb' 0 64 = x <<< k := by
  apply BitVec.eq_of_getLsbD_eq
  intro i hi
  simp only [BitVec.getLsbD_extractLsb', BitVec.getLsbD_shiftLeft, BitVec.getLsbD_setWidth,
    hi, decide_true, Bool.true_and, show 0 + i < 128 by omega, Nat.zero_add,
    show i - k < 128 by omega, show i < 128 by omega]

theorem clmul_ok {m : St} {s : Spec.State} (hr : RegRel m s) (i : Frv) (hm : i.mnem = .clmul) :
    liftCLMul m i = storeGp m i.rd (some ((Spec.clprod (s.x i.rs1) (s.x i.rs2)).extractLsb' 0 64)) := by
  rw [clprod_slice _ _ 0 (fun k => s.x i.rs1 <<< k) (fun k hk => extract_shl0 _ k hk)]
  rw [liftCLMul_eq hr i (fun k => s.x i.rs1 <<< k)]
  · simp [hm, clmulStart, clmulEnd, List.range_eq_range']
  · simp [hm, clmulStart, clmulEnd]
  · intro k _ hk
    have h1 : k % 18446744073709551616 = k := by omega
    simp only [hm, clmulOperand, ir, BitVec.toNat_ofNat, Nat.reducePow, h1, hk, if_true]

theorem clmulh_ok {m : St} {s : Spec.State} (hr : RegRel m s) (i : Frv) (hm : i.mnem = .clmulh) :
    liftCLMul m i = storeGp m i.rd (some ((Spec.clprod (s.x i.rs1) (s.x i.rs2)).extractLsb' 64 64)) := by
  rw [clprod_slice _ _ 64 (fun k => s.x i.rs1 >>> (64 - k))
    (fun k hk => extract_shl _ 64 k (by omega) (by omega))]
  rw [liftCLMul_eq hr i (fun k => s.x i.rs1 >>> (64 - k))]
  · simp only [hm, clmulStart, clmulEnd, if_true, if_false, reduceCtorEq, Nat.reduceSub]
    refine congrArg (fun v => storeGp m i.rd (some v)) ?_
    have : List.range 64 = 0 :: List.range' 1 63 := by rw [List.range_eq_range']; rfl
    rw [this, List.foldl_cons]
    congr 1
    have h0 : s.x i.rs1 >>> (64 - 0) = 0#64 := by
      apply BitVec.eq_of_getLsbD_eq
      intro j hj
      simp
    rw [h0]; split <;> rfl
  · simp [hm, clmulStart, clmulEnd]
  · intro k h1 hk
    simp only [hm, clmulStart, if_true] at h1
    have h2 : (64 - k) % 18446744073709551616 = 64 - k := by omega
    simp only [hm, clmulOperand, ir, BitVec.toNat_ofNat, Nat.reducePow, h2, if_true,
      show 64 - k < 64 by omega]

/-- `clmulr` is right if the top bit of `rs2` is clear. -/
theorem clmulr_ok {m : St} {s : Spec.State} (hr : RegRel m s) (i : Frv) (hm : i.mnem = .clmulr)
    (htop : (s.x i.rs2).getLsbD 63 = false) :
    liftCLMul m i = storeGp m i.rd (some ((Spec.clprod (s.x i.rs1) (s.x i.rs2)).extractLsb' 63 64)) := by
  rw [clprod_slice _ _ 63 (fun k => s.x i.rs1 >>> (63 - k))
    (fun k hk => extract_shl _ 63 k (by omega) (by omega))]
  rw [liftCLMul_eq hr i (fun k => s.x i.rs1 >>> (63 - k))]
  · simp only [hm, clmulStart, clmulEnd, if_true, if_false, reduceCtorEq, Nat.reduceSub]
    refine congrArg (fun v => storeGp m i.rd (some v)) ?_
    have : List.range 64 = List.range' 0 63 ++ [63] := by rw [List.range_eq_range']; rfl
    rw [this, List.foldl_append, List.foldl_cons, List.foldl_nil, htop]
    rfl
  · simp [hm, clmulStart, clmulEnd]
  · intro k h1 hk
    have h2 : (63 - k) % 18446744073709551616 = 63 - k := by omega
    simp only [hm, clmulOperand, ir, BitVec.toNat_ofNat, Nat.reducePow, h2, if_true,
      show 63 - k < 64 by omega]

theorem rotl_mod {w : Nat} (x : BitVec w) (n : Nat) : x.rotateLeft (n % w) = x.rotateLeft n :=
  BitVec.rotateLeft_mod_eq_rotateLeft
theorem rotr_mod {w : Nat} (x : BitVec w) (n : Nat) : x.rotateRight (n % w) = x.rotateRight n :=
  BitVec.rotateRight_mod_eq_rotateRight

theorem storeGp_count (m : St) (r n : Nat) (hn : n ≤ 64) :
    storeGp m r (some (BitVec.ofNat 32 n)) = storeGp m r (some (BitVec.ofNat 64 n)) := by
  rw [storeGp_ext, Bv.signExtend_small (by omega) (by decide)]

theorem smax_le {w : Nat} (x y : BitVec w) :
    (if x.slt y then y else x) = if x.toInt ≤ y.toInt then y else x := by
  by_cases h : x.toInt < y.toInt
  · simp [BitVec.slt, h, Int.le_of_lt h]
  · by_cases h2 : x.toInt ≤ y.toInt
    · have : x = y := BitVec.eq_of_toInt_eq (by omega)
      simp [this]
    · simp [BitVec.slt, h, h2]
theorem smin_le {w : Nat} (x y : BitVec w) :
    (if x.slt y then x else y) = if x.toInt ≤ y.toInt then x else y := by
  by_cases h : x.toInt < y.toInt
  · simp [BitVec.slt, h, Int.le_of_lt h]
  · by_cases h2 : x.toInt ≤ y.toInt
    · have : x = y := BitVec.eq_of_toInt_eq (by omega)
      simp [this]
    · simp [BitVec.slt, h, h2]
theorem umax_le {w : Nat} (x y : BitVec w) :
    (if x.ult y then y else x) = if x.toNat ≤ y.toNat then y else x := by
  by_cases h : x.toNat < y.toNat
  · simp [BitVec.ult, h, Nat.le_of_lt h]
  · by_cases h2 : x.toNat ≤ y.toNat
    · have : x = y := BitVec.eq_of_toNat_eq (by omega)
      simp [this]
    · simp [BitVec.ult, h, h2]
theorem umin_le {w : Nat} (x y : BitVec w) :
    (if x.ult y then x else y) = if x.toNat ≤ y.toNat then x else y := by
  by_cases h : x.toNat < y.toNat
  · simp [BitVec.ult, h, Nat.le_of_lt h]
  · by_cases h2 : x.toNat ≤ y.toNat
    · have : x = y := BitVec.eq_of_toNat_eq (by omega)
      simp [this]
    · simp [BitVec.ult, h, h2]

theorem plain_bit {slide : BitVec 64} {i : Frv} {m : St} {s : Spec.State} {v : BitVec 64}
    (hr : RegRel m s)
    (himm : i.mnem = .slliuw → i.imm.toNat < 64)
    (htop : i.mnem = .clmulr → (s.x i.rs2).getLsbD 63 = false)
    (hv : Spec.bitVal i.mnem (s.x i.rs1) (s.x i.rs2) (i.imm.signExtend 64) = some v) :
    liftPlain slide i m = some (some (storeGp m i.rd (some v))) := by
  rcases i with ⟨mn, rd, rs1, rs2, imm, rs3, misc⟩
  cases mn <;> simp only [Spec.bitVal, Option.some.injEq, reduceCtorEq] at hv <;> subst hv <;>
    simp only [liftPlain, liftBinOpR, liftShNAdd, liftUnary, liftRotate, liftBit, liftBitExtract,
      liftOrcb, loadUw, Frv.imm64, ir,
      loadGp64_rel hr, loadGp_rel hr rs1 32, loadGp_rel hr rs2 32, loadGp_rel hr rs1 8,
      loadGp_rel hr rs1 16, setWidth32_imm, zx32_eq, zx16_eq,
      mod64_lt, mod32_lt, if_true, Bv.toNat_and_63, Bv.toNat_and_31,
      BitVec.toNat_ofNat, Nat.reduceMod, Nat.reducePow, Nat.reduceLT, shl_eq_mul _ 1, shl_eq_mul _ 2,
      shl_eq_mul _ 3, smax_le, smin_le, umax_le, umin_le, lane_mask, bext_eq, Bv.one_shiftLeft,
      fshl_rotate, fshr_rotate, rotl_mod, rotr_mod, if_false, Bool.false_eq_true,
      Bv.toNat_setWidth32_mod, Bv.signExtend_toNat_mod32] <;>
    try rfl
  case slliuw =>
    have h : (imm.signExtend 64).toNat = imm.toNat := by
      have h64 : imm.toNat < 64 := himm rfl
      rw [BitVec.signExtend_eq_setWidth_of_msb_false, BitVec.toNat_setWidth]
      · omega
      · rw [BitVec.msb_eq_false_iff_two_mul_lt]; omega
    have h64 : imm.toNat < 64 := himm rfl
    rw [h, if_pos h64, Nat.mod_eq_of_lt h64]
  case clzw =>
    rw [storeGp_count]; have := Bits.clz_le ((s.x rs1).setWidth 32); omega
  case cpopw =>
    rw [storeGp_count]; have := Bits.popcount_le ((s.x rs1).setWidth 32); omega
  case ctzw =>
    rw [storeGp_count]; have := Bits.ctz_le ((s.x rs1).setWidth 32); omega
  case rol => rw [BitVec.signExtend_eq]
  case ror => rw [BitVec.signExtend_eq]
  case rori => rw [BitVec.signExtend_eq]
  case sextb => rw [storeGp_ext]
  case sexth => rw [storeGp_ext]
  case clmul => rw [clmul_ok hr _ rfl]
  case clmulh => rw [clmulh_ok hr _ rfl]
  case clmulr => rw [clmulr_ok hr _ rfl (htop rfl)]

end Verif.RV64
