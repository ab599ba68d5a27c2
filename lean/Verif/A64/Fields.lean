import Verif.A64.Alu

/-! Simulation of the AArch64 bit-field, bit-counting and system register instructions. -/

set_option linter.unusedSimpArgs false
set_option linter.constructorNameAsVariable false

namespace Verif.A64.Spec

open Verif.IR
open Verif.X86 (trunc_some zext_some sext_some add_some sub_some mul_some and_some or_some xor_some
  not_some neg_some icmp_some extract0 pc_get msb_slt of_add of_add' of_sub cf_add)

variable {cfg : Cfg} {slide : BitVec 64} {s s' : S} {len : Nat}

/-! ### Bit fields -/

theorem getLsbD_ones (n i : Nat) : (ones n).getLsbD i = (decide (i < n) && decide (i < 64)) := by
  unfold ones
  split
  · rename_i h
    rw [BitVec.getLsbD_allOnes]
    by_cases h2 : i < 64
    · simp [h2, show i < n by omega]
    · simp [h2]
  · rename_i h
    by_cases h2 : i < 64
    · have h3 : (1#64 <<< n - 1#64).toNat = 2 ^ n - 1 := by
        have hlt : 2 ^ n < 2 ^ 64 := Nat.pow_lt_pow_right (by omega) (by omega)
        have hpos : 0 < 2 ^ n := Nat.two_pow_pos n
        have h4 : (1#64 <<< n).toNat = 2 ^ n := by
          rw [BitVec.toNat_shiftLeft, Nat.shiftLeft_eq, BitVec.toNat_ofNat, Nat.mod_eq_of_lt (a := 1) (by omega),
            Nat.one_mul, Nat.mod_eq_of_lt hlt]
        rw [BitVec.toNat_sub, h4, BitVec.toNat_ofNat, Nat.mod_eq_of_lt (a := 1) (by omega)]
        omega
      rw [BitVec.getLsbD, h3, Nat.testBit_two_pow_sub_one]
      simp [h2]
    · rw [BitVec.getLsbD_of_ge _ _ (by omega)]
      simp [h2]

theorem W_le64 (w32 : Bool) : W w32 ≤ 64 := by cases w32 <;> decide

theorem ofNat_lt {w n : Nat} (h : n < w) : (BitVec.ofNat w n).toNat = n := by
  rw [BitVec.toNat_ofNat, Nat.mod_eq_of_lt (Nat.lt_trans h Nat.lt_two_pow_self)]

theorem extract_some {w : Nat} (hw : w ≤ 64) (x : BitVec w) {lsb width : Nat} (h : lsb < w) :
    A64.extract (some x) lsb width =
      some (bits w fun i => if i < width then x.getLsbD (lsb + i) else false) := by
  unfold A64.extract
  rw [lshr_some, ofNat_lt h, if_pos h, and_some]
  congr 1
  apply BitVec.eq_of_getLsbD_eq
  intro i hi
  simp only [getLsbD_bits, BitVec.getLsbD_and, BitVec.getLsbD_ushiftRight, BitVec.getLsbD_setWidth, hi,
    decide_true, Bool.true_and, getLsbD_ones, show i < 64 by omega, Bool.and_true]
  by_cases h2 : i < width <;> simp [h2]

theorem moveField_some {w : Nat} (hw : w ≤ 64) (x : BitVec w) {lsb width : Nat} (h : lsb < w) :
    A64.moveField (some x) lsb width =
      some (bits w fun i => if lsb ≤ i ∧ i < lsb + width then x.getLsbD (i - lsb) else false) := by
  unfold A64.moveField
  rw [and_some, shl_some, ofNat_lt h, if_pos h]
  congr 1
  apply BitVec.eq_of_getLsbD_eq
  intro i hi
  simp only [getLsbD_bits, BitVec.getLsbD_and, BitVec.getLsbD_shiftLeft, BitVec.getLsbD_setWidth, hi,
    decide_true, Bool.true_and, getLsbD_ones]
  by_cases h2 : i < lsb
  · simp [h2, show ¬ (lsb ≤ i ∧ i < lsb + width) by omega]
  · by_cases h3 : i < lsb + width
    · simp [h2, h3, show lsb ≤ i by omega, show i - lsb < width by omega, show i - lsb < w by omega,
        show i - lsb < 64 by omega]
    · simp [h2, h3, show ¬ i - lsb < width by omega]

theorem signFill_some {w : Nat} (hw : w ≤ 64) (f : BitVec w) {pos : Nat} (hp : pos < w)
    (hz : ∀ i, pos < i → f.getLsbD i = false) :
    signFill (some f) pos = some (bits w fun i => if i ≤ pos then f.getLsbD i else f.getLsbD pos) := by
  unfold signFill
  have hmask : ∀ i, i < w → ((BitVec.allOnes 64 <<< pos).setWidth w).getLsbD i = decide (pos ≤ i) := by
    intro i hi
    simp only [BitVec.getLsbD_setWidth, hi, BitVec.getLsbD_shiftLeft, BitVec.getLsbD_allOnes,
      decide_true, Bool.true_and, show i < 64 by omega, show i - pos < 64 by omega, Bool.and_true]
    by_cases h : i < pos <;> simp [h] <;> omega
  generalize hm : ((BitVec.allOnes 64 <<< pos).setWidth w : BitVec w) = mask at hmask
  simp only [and_some, icmp_some, Pred.eval, or_some, select_bool]
  have hne : (f &&& mask != 0#w) = f.getLsbD pos := by
    cases hb : f.getLsbD pos
    · rw [bne_eq_false_iff_eq]
      apply BitVec.eq_of_getLsbD_eq
      intro i hi
      rw [BitVec.getLsbD_and, hmask i hi, BitVec.getLsbD_zero]
      by_cases h : pos ≤ i
      · rcases Nat.eq_or_lt_of_le h with rfl | h
        · simp [hb]
        · simp [hz i h]
      · simp [h]
    · rw [bne_iff_ne]
      intro e
      have := congrArg (fun v => v.getLsbD pos) e
      simp [hb, hmask pos hp] at this
  have h0 : (0 : BitVec w) = 0#w := rfl
  rw [h0, hne]
  cases hb : f.getLsbD pos
  · simp only [Bool.false_eq_true, if_false]
    congr 1
    apply BitVec.eq_of_getLsbD_eq
    intro i hi
    simp only [getLsbD_bits, hi, decide_true, Bool.true_and]
    by_cases h : i ≤ pos
    · simp [h]
    · simp [h, hz i (by omega)]
  · simp only [if_true]
    congr 1
    apply BitVec.eq_of_getLsbD_eq
    intro i hi
    simp only [getLsbD_bits, hi, decide_true, Bool.true_and, BitVec.getLsbD_or, hmask i hi]
    by_cases h : i ≤ pos
    · rcases Nat.eq_or_lt_of_le h with rfl | h2
      · simp [hb]
      · simp [h, show ¬ pos ≤ i by omega]
    · simp [h, show pos ≤ i by omega]

theorem bf_val {m : St} (hr : Rel slide m s) (k : Bf) (w32 : Bool) (rd rn : Reg) {lsb width : Nat}
    (h1 : 1 ≤ width) (h2 : lsb + width ≤ W w32) :
    liftBf m k (W w32) rd rn lsb width =
      m.set rd (some (bits (W w32) (bfBit k (s.reg (W w32) rd) (s.reg (W w32) rn) lsb width))) := by
  have hw := W_le64 w32
  generalize W w32 = w at *
  have hl : lsb < w := by omega
  unfold liftBf
  simp only [hr.get]
  generalize s.reg w rd = d
  generalize s.reg w rn = x
  cases k <;> simp only [moveField_some hw x hl, extract_some hw x hl, and_some, or_some]
  · rw [signFill_some hw _ (by omega)]
    · congr 2
      apply BitVec.eq_of_getLsbD_eq
      intro i hi
      simp only [getLsbD_bits, hi, decide_true, Bool.true_and, bfBit,
        show lsb + width - 1 < w by omega, show lsb ≤ lsb + width - 1 by omega,
        show lsb + width - 1 < lsb + width by omega, and_self, if_true]
      by_cases a : i < lsb
      · simp [a, show i ≤ lsb + width - 1 by omega, show ¬ lsb ≤ i by omega]
      · by_cases b : i < lsb + width
        · simp [a, b, show i ≤ lsb + width - 1 by omega, show lsb ≤ i by omega]
        · simp [a, b, show ¬ i ≤ lsb + width - 1 by omega,
            show lsb + width - 1 - lsb = width - 1 by omega]
    · intro i hi
      simp only [getLsbD_bits, show ¬ (lsb ≤ i ∧ i < lsb + width) by omega, if_false, Bool.and_false]
  · rw [signFill_some hw _ (by omega)]
    · congr 2
      apply BitVec.eq_of_getLsbD_eq
      intro i hi
      simp only [getLsbD_bits, hi, decide_true, Bool.true_and, bfBit, show width - 1 < w by omega,
        show width - 1 < width by omega, if_true]
      by_cases a : i < width
      · simp [a, show i ≤ width - 1 by omega]
      · simp [a, show ¬ i ≤ width - 1 by omega, show lsb + (width - 1) = lsb + width - 1 by omega]
    · intro i hi
      simp only [getLsbD_bits, show ¬ i < width by omega, if_false, Bool.and_false]
  · congr 2
    apply BitVec.eq_of_getLsbD_eq
    intro i hi
    simp only [getLsbD_bits, hi, decide_true, Bool.true_and, bfBit, BitVec.getLsbD_or,
      BitVec.getLsbD_and, BitVec.getLsbD_setWidth, BitVec.getLsbD_not, BitVec.getLsbD_shiftLeft,
      getLsbD_ones, show i < 64 by omega]
    by_cases a : lsb ≤ i ∧ i < lsb + width
    · simp [a, show ¬ i < lsb by omega, show i - lsb < width by omega, show i - lsb < 64 by omega]
    · by_cases b : i < lsb
      · simp [a, b]
      · simp [a, b, show ¬ i - lsb < width by omega]
  · congr 2
    apply BitVec.eq_of_getLsbD_eq
    intro i hi
    simp only [getLsbD_bits, hi, decide_true, Bool.true_and, bfBit, BitVec.getLsbD_or,
      BitVec.getLsbD_and, BitVec.getLsbD_setWidth, BitVec.getLsbD_not,
      getLsbD_ones, show i < 64 by omega]
    by_cases a : i < width <;> simp [a]
  · rfl
  · rfl

theorem sim_bf {k : Bf} {w32 : Bool} {rd rn : Reg} {lsb width : Nat}
    (hs : step (.bf k w32 rd rn lsb width) len s = some s') :
    Simulates cfg slide (.bf k w32 rd rn lsb width) len s s' := by
  obtain ⟨s1, hp, rfl⟩ := step_plain hs rfl
  simp only [S.plain] at hp
  split at hp
  · rename_i h
    simp only [fieldOk, decide_eq_true_eq] at h
    cases hp
    refine plain_sim (fun m => some (liftBf m k (W w32) rd rn lsb width)) (fun _ _ => rfl) ?_
    intro start m hr hpc hst
    exact ⟨_, rfl, by rw [bf_val hr k w32 rd rn h.1 h.2]; exact hr.set _ _⟩
  · cases hp

theorem sim_bfc {w32 : Bool} {rd : Reg} {lsb width : Nat}
    (hs : step (.bfc w32 rd lsb width) len s = some s') :
    Simulates cfg slide (.bfc w32 rd lsb width) len s s' := by
  obtain ⟨s1, hp, rfl⟩ := step_plain hs rfl
  simp only [S.plain] at hp
  split at hp
  · rename_i h
    simp only [fieldOk, decide_eq_true_eq] at h
    cases hp
    refine plain_sim (fun m => some (liftBfc m (W w32) rd lsb width)) (fun _ _ => rfl) ?_
    intro start m hr hpc hst
    refine ⟨_, rfl, ?_⟩
    have hw := W_le64 w32
    have : liftBfc m (W w32) rd lsb width = m.set rd (some (bits (W w32) fun i =>
        if lsb ≤ i ∧ i < lsb + width then false else (s.reg (W w32) rd).getLsbD i)) := by
      unfold liftBfc
      simp only [hr.get, and_some]
      congr 2
      apply BitVec.eq_of_getLsbD_eq
      intro i hi
      simp only [getLsbD_bits, hi, decide_true, Bool.true_and, BitVec.getLsbD_or,
        BitVec.getLsbD_and, BitVec.getLsbD_setWidth, BitVec.getLsbD_not, BitVec.getLsbD_shiftLeft,
        getLsbD_ones, show i < 64 by omega]
      by_cases a : lsb ≤ i ∧ i < lsb + width
      · simp [a, show ¬ i < lsb by omega, show i - lsb < width by omega, show i - lsb < 64 by omega]
      · by_cases b : i < lsb
        · simp [a, b]
        · simp [a, b, show ¬ i - lsb < width by omega]
    rw [this]
    exact hr.set _ _
  · cases hp

theorem sim_extend {w32 : Bool} {rd rn : Reg} {e : Ext}
    (hs : step (.extend w32 rd rn e) len s = some s') :
    Simulates cfg slide (.extend w32 rd rn e) len s s' := by
  obtain ⟨s1, hp, rfl⟩ := step_plain hs rfl
  simp only [S.plain] at hp
  split at hp
  · rename_i h
    cases hp
    refine plain_sim (fun m => (A64.extend (m.get (W w32) rn) (W w32) e 0).map fun v => m.set rd v)
      (fun _ _ => rfl) ?_
    intro start m hr hpc hst
    exact ⟨_, by rw [hr.get, extend_some _ _ _ h (W_pos w32)]; rfl, hr.set _ _⟩
  · cases hp

theorem extr_val {m : St} (hr : Rel slide m s) (w32 : Bool) (rd rn rm : Reg) {lsb : Nat}
    (h : lsb < W w32) :
    liftExtr m (W w32) rd rn rm lsb = m.set rd (some (bits (W w32) fun i =>
        if i + lsb < W w32 then (s.reg (W w32) rm).getLsbD (i + lsb)
        else (s.reg (W w32) rn).getLsbD (i + lsb - W w32))) := by
  have hw := W_le64 w32
  have h0 := W_pos w32
  generalize W w32 = w at *
  unfold liftExtr
  simp only [hr.get, zext_some, shl_some, ofNat_lt (show w < w * 2 by omega), show w < w * 2 by omega,
    if_true, or_some, lshr_some, ofNat_lt (show lsb < w * 2 by omega), show lsb < w * 2 by omega,
    and_some, trunc_some]
  congr 2
  apply BitVec.eq_of_getLsbD_eq
  intro i hi
  simp only [getLsbD_bits, hi, decide_true, Bool.true_and, BitVec.getLsbD_or,
      BitVec.getLsbD_and, BitVec.getLsbD_setWidth, BitVec.getLsbD_ushiftRight, BitVec.getLsbD_shiftLeft,
      getLsbD_ones, show i < 64 by omega, show i < w * 2 by omega, Bool.and_true,
      show lsb + i < w * 2 by omega]
  rw [Nat.add_comm lsb i]
  by_cases a : i + lsb < w
  · simp [a]
  · have : (s.reg w rm).getLsbD (i + lsb) = false := BitVec.getLsbD_of_ge _ _ (by omega)
    simp [a, this, show i + lsb - w < w * 2 by omega]

theorem sim_extr {w32 : Bool} {rd rn rm : Reg} {lsb : Nat}
    (hs : step (.extr w32 rd rn rm lsb) len s = some s') :
    Simulates cfg slide (.extr w32 rd rn rm lsb) len s s' := by
  obtain ⟨s1, hp, rfl⟩ := step_plain hs rfl
  simp only [S.plain] at hp
  split at hp
  · rename_i h
    cases hp
    refine plain_sim (fun m => some (liftExtr m (W w32) rd rn rm lsb)) (fun _ _ => rfl) ?_
    intro start m hr hpc hst
    exact ⟨_, rfl, by rw [extr_val hr w32 rd rn rm h]; exact hr.set _ _⟩
  · cases hp

/-! ### Reversing and counting -/

theorem revBytes_lanes (k n : Nat) (hk : 0 < k) (x : BitVec (8 * k * n)) :
    (Bits.ofLanes (8 * k) n fun i =>
      Bits.ofLanes 8 k fun j => Bits.lane 8 (Bits.lane (8 * k) x i) (k - 1 - j)) = revBytes k x := by
  apply BitVec.eq_of_getLsbD_eq
  intro i hi
  have h8 : 0 < 8 * k := by omega
  have hm : i % (8 * k) < 8 * k := Nat.mod_lt _ h8
  have hd : i % (8 * k) / 8 < k := Nat.div_lt_of_lt_mul hm
  have e1 : i / 8 / k = i / (8 * k) := Nat.div_div_eq_div_mul _ _ _
  have e2 : i / 8 % k = i % (8 * k) / 8 := (Nat.mod_mul_right_div_self _ _ _).symm
  have e3 : i % (8 * k) % 8 = i % 8 := Nat.mod_mul_right_mod _ _ _
  rw [revBytes, getLsbD_bits, Bits.getLsbD_ofLanes _ _ _ _ h8, Bits.getLsbD_ofLanes _ _ _ _ (by decide)]
  simp only [hi, decide_true, Bool.true_and, hm, Bits.lane, BitVec.getLsbD_extractLsb']
  rw [e1, e2, e3]
  have h3 : i % 8 < 8 := Nat.mod_lt _ (by decide)
  have h4 : 8 * (k - 1 - i % (8 * k) / 8) + i % 8 < 8 * k := by
    have : 8 * (k - 1 - i % (8 * k) / 8) ≤ 8 * (k - 1) := Nat.mul_le_mul_left _ (by omega)
    omega
  simp only [h3, h4, decide_true, Bool.true_and]
  congr 1
  rw [Nat.mul_add, Nat.mul_assoc]
  omega

theorem revBytes_whole (k : Nat) (x : BitVec (8 * k)) :
    (Bits.ofLanes 8 k fun i => Bits.lane 8 x (k - 1 - i)) = revBytes k x := by
  apply BitVec.eq_of_getLsbD_eq
  intro i hi
  have hd : i / 8 < k := Nat.div_lt_of_lt_mul hi
  rw [revBytes, getLsbD_bits, Bits.getLsbD_ofLanes _ _ _ _ (by decide)]
  simp only [hi, decide_true, Bool.true_and, Bits.lane, BitVec.getLsbD_extractLsb',
    Nat.mod_lt _ (show 0 < 8 by decide), Nat.div_eq_of_lt hd, Nat.mod_eq_of_lt hd, Nat.mul_zero,
    Nat.zero_add]

theorem bitrev_bits {w : Nat} (x : BitVec w) : Bits.bitrev x = bits w fun i => x.getLsbD (w - 1 - i) := by
  apply BitVec.eq_of_getLsbD_eq
  intro i hi
  simp only [Bits.bitrev, getLsbD_bits, hi, BitVec.getLsbD_reverse, BitVec.getMsbD, decide_true]

theorem clz_unique {w : Nat} (x : BitVec w) (n : Nat) (h0 : n ≤ w)
    (h1 : ∀ i, i < n → x.getMsbD i = false) (h2 : n < w → x.getMsbD n = true) : Bits.clz x = n := by
  have ⟨a, b⟩ := Bits.clz_spec x
  have hl := Bits.clz_le x
  rcases Nat.lt_trichotomy (Bits.clz x) n with h | h | h
  · have := h1 _ h
    rw [b (by omega)] at this; cases this
  · exact h
  · have := a _ h
    rw [h2 (by omega)] at this; cases this

/-- CLS: the leading bits equal to the sign bit, not counting the sign bit itself. -/
theorem cls_clz {w : Nat} (hw : 0 < w) (x : BitVec w) :
    Bits.clz (x ^^^ x.sshiftRight (w - 1)) =
      1 + Bits.clz (x.extractLsb' 1 (w - 1) ^^^ x.extractLsb' 0 (w - 1)) := by
  have hy := Bits.clz_spec (x.extractLsb' 1 (w - 1) ^^^ x.extractLsb' 0 (w - 1))
  have hyl := Bits.clz_le (x.extractLsb' 1 (w - 1) ^^^ x.extractLsb' 0 (w - 1))
  generalize hn : Bits.clz (x.extractLsb' 1 (w - 1) ^^^ x.extractLsb' 0 (w - 1)) = n at *
  have hs : ∀ i, i < w → (x ^^^ x.sshiftRight (w - 1)).getMsbD i =
      (x.getLsbD (w - 1 - i) ^^ x.getLsbD (w - 1)) := by
    intro i hi
    simp only [BitVec.getMsbD, hi, decide_true, Bool.true_and, BitVec.getLsbD_xor,
      BitVec.getLsbD_sshiftRight, show ¬ w ≤ w - 1 - i by omega, decide_false, Bool.not_false]
    by_cases h : w - 1 + (w - 1 - i) < w
    · rw [if_pos h]
      have : w - 1 + (w - 1 - i) = w - 1 := by omega
      rw [this]
    · rw [if_neg h, BitVec.msb_eq_getLsbD_last]
  have ht : ∀ i, i < w - 1 → (x.extractLsb' 1 (w - 1) ^^^ x.extractLsb' 0 (w - 1)).getMsbD i =
      (x.getLsbD (w - 1 - i) ^^ x.getLsbD (w - 1 - (i + 1))) := by
    intro i hi
    simp only [BitVec.getMsbD, hi, decide_true, Bool.true_and, BitVec.getLsbD_xor,
      BitVec.getLsbD_extractLsb', show w - 1 - 1 - i < w - 1 by omega, Nat.zero_add,
      show 1 + (w - 1 - 1 - i) = w - 1 - i by omega, show w - 1 - (i + 1) = w - 1 - 1 - i by omega]
  -- the first `n + 1` bits agree with the sign bit
  have hagree : ∀ i, i ≤ n → x.getLsbD (w - 1 - i) = x.getLsbD (w - 1) := by
    intro i
    induction i with
    | zero => intro _; rfl
    | succ i ih =>
      intro hi
      have h1 := hy.1 i (by omega)
      rw [ht i (by omega)] at h1
      rw [← ih (by omega)]
      revert h1
      cases x.getLsbD (w - 1 - i) <;> cases x.getLsbD (w - 1 - (i + 1)) <;> simp
  apply clz_unique
  · omega
  · intro i hi
    rw [hs i (by omega), hagree i (by omega), Bool.xor_self]
  · intro hlt
    have h1 := hy.2 (by omega)
    rw [ht n (by omega)] at h1
    rw [hs _ hlt, Nat.add_comm 1 n, ← hagree n (Nat.le_refl _)]
    revert h1
    cases x.getLsbD (w - 1 - n) <;> cases x.getLsbD (w - 1 - (n + 1)) <;> simp

theorem ofNat_succ_sub {w : Nat} (n : Nat) : BitVec.ofNat w (1 + n) - 1#w = BitVec.ofNat w n := by
  rw [BitVec.ofNat_add, BitVec.add_comm, BitVec.add_sub_cancel]

theorem unary_val (k : Unary) (w32 : Bool) (x : BitVec (W w32)) (h : ¬ (k = .rev32 ∧ w32 = true)) :
    A64.unaryVal k w32 (some x) = some (unaryVal k x) := by
  cases w32 <;> cases k <;> simp only [A64.unaryVal, unaryVal, bitreverse, un_some, bitrev_bits,
    bswapLanes, bswap]
  · exact congrArg some (revBytes_lanes 2 4 (by decide) x)
  · exact congrArg some (revBytes_whole 8 x)
  · exact congrArg some (revBytes_lanes 4 2 (by decide) x)
  · exact ctlz_false x
  · have h1 : ashr (some x) (some 0x3f#64) = some (x.sshiftRight 63) := by
      rw [ashr_some]; exact if_pos (by decide)
    have : IR.sub (ctlz false (IR.xor (some x) (ashr (some x) (some 0x3f#64)))) (some 1#64) =
        some (BitVec.ofNat 64 (Bits.clz (x.extractLsb' 1 63 ^^^ x.extractLsb' 0 63))) := by
      rw [h1, xor_some, ctlz_false, sub_some]
      have := cls_clz (by decide) x
      rw [show x.sshiftRight 63 = x.sshiftRight (W false - 1) from rfl, this, ofNat_succ_sub]
      rfl
    exact this
  · exact congrArg some (revBytes_lanes 2 2 (by decide) x)
  · exact congrArg some (revBytes_whole 4 x)
  · exact absurd ⟨rfl, rfl⟩ h
  · exact ctlz_false x
  · have h1 : ashr (some x) (some 0x1f#32) = some (x.sshiftRight 31) := by
      rw [ashr_some]; exact if_pos (by decide)
    have : IR.sub (ctlz false (IR.xor (some x) (ashr (some x) (some 0x1f#32)))) (some 1#32) =
        some (BitVec.ofNat 32 (Bits.clz (x.extractLsb' 1 31 ^^^ x.extractLsb' 0 31))) := by
      rw [h1, xor_some, ctlz_false, sub_some]
      have := cls_clz (by decide) x
      rw [show x.sshiftRight 31 = x.sshiftRight (W true - 1) from rfl, this, ofNat_succ_sub]
      rfl
    exact this

theorem sim_unary {k : Unary} {w32 : Bool} {rd rn : Reg} (hs : step (.unary k w32 rd rn) len s = some s') :
    Simulates cfg slide (.unary k w32 rd rn) len s s' := by
  obtain ⟨s1, hp, rfl⟩ := step_plain hs rfl
  simp only [S.plain] at hp
  split at hp
  · cases hp
  · rename_i h
    cases hp
    refine plain_sim (fun m => some (m.set rd (A64.unaryVal k w32 (m.get (W w32) rn)))) (fun _ _ => rfl) ?_
    intro start m hr hpc hst
    exact ⟨_, rfl, by rw [hr.get, unary_val k w32 _ h]; exact hr.set _ _⟩

/-! ### Hints, system registers, cache maintenance -/

theorem sim_hint (hs : step .hint len s = some s') : Simulates cfg slide .hint len s s' := by
  obtain ⟨s1, hp, rfl⟩ := step_plain hs rfl
  cases hp
  exact plain_sim (fun m => some m) (fun _ _ => rfl) fun _ m hr _ _ => ⟨m, rfl, hr⟩

theorem sim_dmb {crm : Nat} (ok : dmbOk crm = true) (hs : step (.dmb crm) len s = some s') :
    Simulates cfg slide (.dmb crm) len s s' := by
  obtain ⟨s1, hp, rfl⟩ := step_plain hs rfl
  cases hp
  refine plain_sim (fun m => some m) (fun start m => ?_) fun _ m hr _ _ => ⟨m, rfl, hr⟩
  simp only [lift, ok, if_true]

theorem lshr_bit (x : BitVec 64) (k : Nat) (hk : k < 64) :
    trunc 1 (IR.lshr (some x) (some (BitVec.ofNat 64 k))) = some (BitVec.ofBool (x.getLsbD k)) := by
  rw [lshr_some, ofNat_lt hk, if_pos hk, trunc_some]
  congr 1
  apply BitVec.eq_of_getLsbD_eq
  intro i hi
  have : i = 0 := by omega
  subst this
  simp [BitVec.getLsbD_setWidth, BitVec.getLsbD_ushiftRight]

theorem sim_msr {sys : Sys} {rt : Reg} (hs : step (.msr sys rt) len s = some s') :
    Simulates cfg slide (.msr sys rt) len s s' := by
  obtain ⟨s1, hp, rfl⟩ := step_plain hs rfl
  cases sys <;> simp only [S.plain, Option.some.injEq, reduceCtorEq] at hp
  · subst hp
    refine plain_sim (fun m => liftMsr m .tpidr rt) (fun _ _ => rfl) ?_
    intro start m hr hpc hst
    refine ⟨_, rfl, hr.gp, hr.sp, hr.vec, hr.get 64 rt, hr.mem, hr.pc, hr.fl⟩
  · subst hp
    refine plain_sim (fun m => liftMsr m .nzcv rt) (fun _ _ => rfl) ?_
    intro start m hr hpc hst
    refine ⟨_, rfl, hr.nzcv _ rfl ?_ ?_ ?_ ?_⟩ <;>
      simp [St.setF, hr.get, lshr_bit]

theorem sim_mrs {sys : Sys} {rt : Reg} (hs : step (.mrs sys rt) len s = some s') :
    Simulates cfg slide (.mrs sys rt) len s s' := by
  obtain ⟨s1, hp, rfl⟩ := step_plain hs rfl
  cases sys <;> simp only [S.plain, Option.some.injEq, reduceCtorEq] at hp
  · subst hp
    refine plain_sim (fun m => liftMrs m .tpidr rt) (fun _ _ => rfl) ?_
    intro start m hr hpc hst
    exact ⟨_, rfl, by rw [hr.tpidr]; exact hr.set rt s.tpidr⟩
  · simp only [bind, Option.bind_eq_some_iff, pure, Option.some.injEq, S.nzcv] at hp
    obtain ⟨_, ⟨n, hn, z, hz, c, hc, v, hv, rfl⟩, rfl⟩ := hp
    refine plain_sim (fun m => liftMrs m .nzcv rt) (fun _ _ => rfl) ?_
    intro start m hr hpc hst
    refine ⟨_, rfl, ?_⟩
    simp only [hr.fl _ _ hn, hr.fl _ _ hz, hr.fl _ _ hc, hr.fl _ _ hv]
    cases n <;> cases z <;> cases c <;> cases v <;> exact hr.set rt _
  · subst hp
    refine plain_sim (fun m => liftMrs m .dczid rt) (fun _ _ => rfl) ?_
    intro start m hr hpc hst
    exact ⟨_, rfl, hr.set rt 4#64⟩

theorem sim_cfinv (hs : step .cfinv len s = some s') : Simulates cfg slide .cfinv len s s' := by
  obtain ⟨s1, hp, rfl⟩ := step_plain hs rfl
  simp only [S.plain, bind, Option.bind_eq_some_iff, pure, Option.some.injEq] at hp
  obtain ⟨c, hc, rfl⟩ := hp
  refine plain_sim (fun m => some (m.setF .c (IR.not (m.fl .c)))) (fun _ _ => rfl) ?_
  intro start m hr hpc hst
  refine ⟨_, rfl, hr.gp, hr.sp, hr.vec, hr.tpidr, hr.mem, hr.pc, ?_⟩
  intro f b hb
  by_cases h : f = .c
  · subst h
    simp only [if_true, Option.some.injEq] at hb
    subst hb
    simp only [St.setF, if_true, hr.fl _ _ hc, not_some]
    cases c <;> rfl
  · simp only [h, if_false] at hb
    simp only [St.setF, h, if_false]
    exact hr.fl _ _ hb

theorem block_mask (x : BitVec 64) : (x &&& ~~~ 0x3f#64).toNat = x.toNat / 64 * 64 := by
  have h : (~~~ 0x3f#64) = BitVec.allOnes 64 <<< 6 := by decide
  have h2 : x &&& ~~~ 0x3f#64 = (x >>> 6) <<< 6 := by
    rw [h]
    apply BitVec.eq_of_getLsbD_eq
    intro i hi
    simp only [BitVec.getLsbD_and, BitVec.getLsbD_shiftLeft, BitVec.getLsbD_allOnes, hi, decide_true,
      Bool.true_and, BitVec.getLsbD_ushiftRight]
    by_cases h : i < 6
    · simp [h]
    · simp [h, show 6 + (i - 6) = i by omega, show i - 6 < 64 by omega]
  have := x.isLt
  rw [h2, BitVec.toNat_shiftLeft, BitVec.toNat_ushiftRight, Nat.shiftRight_eq_div_pow, Nat.shiftLeft_eq]
  omega

theorem sim_dczva {rt : Reg} (hs : step (.dczva rt) len s = some s') :
    Simulates cfg slide (.dczva rt) len s s' := by
  obtain ⟨s1, hp, rfl⟩ := step_plain hs rfl
  simp only [S.plain, Option.some.injEq] at hp
  subst hp
  refine plain_sim (fun m => liftDczva m rt) (fun _ _ => rfl) ?_
  intro start m hr hpc hst
  unfold liftDczva
  simp only [hr.get, and_some]
  refine ⟨_, rfl, hr.gp, hr.sp, hr.vec, hr.tpidr, ?_, hr.pc, hr.fl⟩
  funext a
  have hb := block_mask (s.reg 64 rt)
  generalize s.reg 64 rt &&& ~~~ 0x3f#64 = b at *
  generalize s.reg 64 rt = x at *
  have hiff : (a - b).toNat < 64 ↔ a.toNat / 64 = x.toNat / 64 := by
    have := a.isLt; have := b.isLt; have := x.isLt
    rw [BitVec.toNat_sub]
    omega
  rw [hr.mem]
  simp only [Mem.toV]
  by_cases h : a.toNat / 64 = x.toNat / 64
  · rw [if_pos (hiff.2 h), if_pos h]; rfl
  · rw [if_neg (fun e => h (hiff.1 e)), if_neg h]

end Verif.A64.Spec
