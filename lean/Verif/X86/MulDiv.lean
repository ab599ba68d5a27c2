import Verif.X86.Shifts

/-! Multiplication and division bodies against the specification. -/

set_option linter.unusedSimpArgs false

namespace Verif.X86.Spec

open Verif.IR

variable {slide : BitVec 64} {m : St} {s s' : S}

/-! ### Numbers and bit vectors -/

theorem ofInt_eq_iff {w : Nat} (x y : Int) :
    BitVec.ofInt w x = BitVec.ofInt w y ↔ x % (2 ^ w : Nat) = y % (2 ^ w : Nat) := by
  have hp : (0 : Int) < ((2 ^ w : Nat) : Int) := by
    have := Nat.two_pow_pos w; omega
  have hx := Int.emod_nonneg x (by omega : ((2 ^ w : Nat) : Int) ≠ 0)
  have hy := Int.emod_nonneg y (by omega : ((2 ^ w : Nat) : Int) ≠ 0)
  rw [← BitVec.toNat_inj, BitVec.toNat_ofInt, BitVec.toNat_ofInt]
  omega

theorem ext_num (signed : Bool) {w v : Nat} (x : BitVec w) (h : w ≤ v) :
    extOp signed v (some x) = some (BitVec.ofInt v (num signed x)) := by
  cases signed
  · simp only [extOp, Bool.false_eq_true, if_false, zext_some, num, Option.some.injEq]
    apply BitVec.eq_of_toNat_eq
    rw [BitVec.toNat_setWidth, BitVec.toNat_ofInt]
    omega
  · simp only [extOp, if_true, sext_some, num, Option.some.injEq]
    apply BitVec.eq_of_toInt_eq
    rw [BitVec.toInt_signExtend, BitVec.toInt_ofInt, Nat.min_eq_right h]
    have h1 := BitVec.toInt_lt (x := x)
    have h2 := BitVec.le_toInt (x := x)
    rcases Nat.eq_zero_or_pos w with rfl | hw
    · have : x.toInt = 0 := by simp [BitVec.of_length_zero]
      simp [this]
    · have hp : (2 : Int) ^ w = 2 * 2 ^ (w - 1) := by
        rw [← Int.pow_succ']; congr 1; omega
      have hv : (2 : Int) ^ w ≤ 2 ^ v := by
        exact_mod_cast Nat.pow_le_pow_right (by decide) h
      rw [Int.bmod_eq_of_le, Int.bmod_eq_of_le] <;> push_cast <;> omega

theorem num_ofInt (signed : Bool) {w : Nat} (x : BitVec w) : BitVec.ofInt w (num signed x) = x := by
  cases signed
  · simp only [num, Bool.false_eq_true, if_false]
    apply BitVec.eq_of_toNat_eq
    rw [BitVec.toNat_ofInt, ← Int.natCast_emod, Int.toNat_natCast, Nat.mod_eq_of_lt x.isLt]
  · simp [num]

theorem setWidth_ofInt {w v : Nat} (x : Int) (h : w ≤ v) :
    (BitVec.ofInt v x).setWidth w = BitVec.ofInt w x := by
  have hv : (2 ^ w : Nat) ∣ (2 ^ v : Nat) := Nat.pow_dvd_pow 2 h
  have hv' : ((2 ^ w : Nat) : Int) ∣ ((2 ^ v : Nat) : Int) := Int.natCast_dvd_natCast.mpr hv
  have hp : 0 < 2 ^ w := Nat.two_pow_pos w
  have hpv : 0 < 2 ^ v := Nat.two_pow_pos v
  have e := Int.emod_emod_of_dvd x hv'
  apply BitVec.eq_of_toNat_eq
  rw [BitVec.toNat_setWidth, BitVec.toNat_ofInt, BitVec.toNat_ofInt]
  have hx := Int.emod_nonneg x (by omega : ((2 ^ v : Nat) : Int) ≠ 0)
  have hx2 := Int.emod_nonneg x (by omega : ((2 ^ w : Nat) : Int) ≠ 0)
  apply Int.ofNat.inj
  have : ((((x % ((2 ^ v : Nat) : Int)).toNat % 2 ^ w : Nat)) : Int) =
      ((x % ((2 ^ w : Nat) : Int)).toNat : Int) := by
    rw [Int.natCast_emod, Int.toNat_of_nonneg hx, Int.toNat_of_nonneg hx2, e]
  exact this

theorem high_ofInt {w : Nat} (x : Int) :
    (BitVec.ofInt (w * 2) x >>> w).setWidth w = BitVec.ofInt w (x / 2 ^ w) := by
  have hp : 0 < 2 ^ w := Nat.two_pow_pos w
  have hpv : 0 < 2 ^ (w * 2) := Nat.two_pow_pos _
  have hsq : 2 ^ (w * 2) = 2 ^ w * 2 ^ w := by rw [Nat.mul_two, Nat.pow_add]
  apply BitVec.eq_of_toNat_eq
  rw [BitVec.toNat_setWidth, BitVec.toNat_ushiftRight, BitVec.toNat_ofInt, BitVec.toNat_ofInt,
    Nat.shiftRight_eq_div_pow]
  have hx := Int.emod_nonneg x (by omega : ((2 ^ (w * 2) : Nat) : Int) ≠ 0)
  have hx2 := Int.emod_nonneg (x / 2 ^ w) (by omega : ((2 ^ w : Nat) : Int) ≠ 0)
  have : ((((x % ((2 ^ (w * 2) : Nat) : Int)).toNat / 2 ^ w % 2 ^ w : Nat)) : Int)
      = ((x / 2 ^ w % ((2 ^ w : Nat) : Int)).toNat : Int) := by
    rw [Int.natCast_emod, Int.natCast_ediv, Int.toNat_of_nonneg hx, Int.toNat_of_nonneg hx2]
    have hc : (2 : Int) ^ w = ((2 ^ w : Nat) : Int) := by push_cast; rfl
    rw [hc]
    generalize hP : ((2 ^ w : Nat) : Int) = P at *
    have hQ : ((2 ^ (w * 2) : Nat) : Int) = P * P := by rw [hsq, Int.natCast_mul, hP]
    rw [hQ]
    have hP0 : 0 < P := by omega
    -- x = P*P*q + r
    have e1 := Int.emod_add_mul_ediv x (P * P)
    have : x / P = (x % (P * P)) / P + P * (x / (P * P)) := by
      conv => lhs; rw [← e1]
      rw [Int.mul_assoc, Int.add_mul_ediv_left _ _ (by omega)]
    rw [this, Int.add_mul_emod_self_left]
  exact Int.ofNat.inj this

/-- The product of two numbers of `w` bits fits into `2 w` bits, so the comparison of the double-width
product with the extended low half detects overflow. -/
theorem mul_overflow (signed : Bool) {w : Nat} (hw : 0 < w) (a b : BitVec w) :
    (BitVec.ofInt (w * 2) (num signed a * num signed b) !=
      BitVec.ofInt (w * 2) (num signed (BitVec.ofInt w (num signed a * num signed b)))) =
    !fits signed w (num signed a * num signed b) := by
  have hp : 0 < 2 ^ w := Nat.two_pow_pos w
  have hsq : 2 ^ (w * 2) = 2 ^ w * 2 ^ w := by rw [Nat.mul_two, Nat.pow_add]
  rw [Bool.eq_iff_iff]
  simp only [bne_iff_ne, ne_eq, Bool.not_eq_true', ofInt_eq_iff]
  cases signed
  · simp only [num, fits, Bool.false_eq_true, if_false, decide_eq_false_iff_not]
    have ha := a.isLt
    have hb := b.isLt
    have hab : a.toNat * b.toNat < 2 ^ w * 2 ^ w := by
      have h1 : a.toNat * b.toNat ≤ a.toNat * 2 ^ w := Nat.mul_le_mul_left _ (Nat.le_of_lt hb)
      have h2 : a.toNat * 2 ^ w < 2 ^ w * 2 ^ w := Nat.mul_lt_mul_of_pos_right ha hp
      omega
    rw [← Int.natCast_mul, BitVec.toNat_ofInt, ← Int.natCast_emod, ← Int.natCast_emod, ← Int.natCast_emod,
      Int.toNat_natCast]
    generalize a.toNat * b.toNat = p at *
    have hc : (2 : Int) ^ w = ((2 ^ w : Nat) : Int) := by push_cast; rfl
    have hle : 2 ^ w ≤ 2 ^ (w * 2) := Nat.pow_le_pow_right (by decide) (by omega)
    have hm : p % 2 ^ w < 2 ^ w := Nat.mod_lt _ hp
    rw [hc, Nat.mod_eq_of_lt (by omega : p < 2 ^ (w * 2)),
      Nat.mod_eq_of_lt (by omega : p % 2 ^ w < 2 ^ (w * 2))]
    constructor
    · intro h hn
      apply h
      rw [Nat.mod_eq_of_lt (by omega)]
    · intro h hn
      apply h
      have : p = p % 2 ^ w := by exact_mod_cast hn
      omega
  · simp only [num, fits, if_true, sOver, Bool.not_eq_false', decide_eq_true_eq]
    have ha1 := BitVec.toInt_lt (x := a)
    have ha2 := BitVec.le_toInt (x := a)
    have hb1 := BitVec.toInt_lt (x := b)
    have hb2 := BitVec.le_toInt (x := b)
    have hp2 : (2 : Int) ^ w = 2 * 2 ^ (w - 1) := by
      rw [← Int.pow_succ']; congr 1; omega
    have hP : (0 : Int) < 2 ^ (w - 1) := Int.pow_pos (by decide)
    have hq : ((2 ^ (w * 2) : Nat) : Int) = 4 * (2 ^ (w - 1) * 2 ^ (w - 1)) := by
      rw [hsq]; push_cast; rw [hp2]
      rw [Int.mul_assoc, Int.mul_left_comm (2 ^ (w - 1)) 2, ← Int.mul_assoc]; rfl
    generalize hPP : (2 : Int) ^ (w - 1) = P at *
    generalize a.toInt = x at *
    generalize b.toInt = y at *
    -- bounds of the product
    have hub : x * y ≤ P * P := by
      rcases Int.le_total 0 x with hx | hx <;> rcases Int.le_total 0 y with hy | hy
      · calc x * y ≤ P * y := Int.mul_le_mul_of_nonneg_right (by omega) hy
          _ ≤ P * P := Int.mul_le_mul_of_nonneg_left (by omega) (by omega)
      · have := Int.mul_nonneg hx (by omega : 0 ≤ -y)
        have h2 := Int.mul_pos hP hP
        rw [Int.mul_neg] at this; omega
      · have := Int.mul_nonneg (by omega : 0 ≤ -x) hy
        have h2 := Int.mul_pos hP hP
        rw [Int.neg_mul] at this; omega
      · have h3 : -x * -y ≤ P * P := by
          calc -x * -y ≤ P * -y := Int.mul_le_mul_of_nonneg_right (by omega) (by omega)
            _ ≤ P * P := Int.mul_le_mul_of_nonneg_left (by omega) (by omega)
        rw [Int.neg_mul_neg] at h3; exact h3
    have hlb : -(P * P) ≤ x * y := by
      rcases Int.le_total 0 x with hx | hx <;> rcases Int.le_total 0 y with hy | hy
      · have := Int.mul_nonneg hx hy
        have h2 := Int.mul_pos hP hP
        omega
      · have h3 : x * -y ≤ P * P := by
          calc x * -y ≤ P * -y := Int.mul_le_mul_of_nonneg_right (by omega) (by omega)
            _ ≤ P * P := Int.mul_le_mul_of_nonneg_left (by omega) (by omega)
        rw [Int.mul_neg] at h3; omega
      · have h3 : -x * y ≤ P * P := by
          calc -x * y ≤ P * y := Int.mul_le_mul_of_nonneg_right (by omega) (by omega)
            _ ≤ P * P := Int.mul_le_mul_of_nonneg_left (by omega) (by omega)
        rw [Int.neg_mul] at h3; omega
      · have := Int.mul_nonneg (by omega : 0 ≤ -x) (by omega : 0 ≤ -y)
        have h2 := Int.mul_pos hP hP
        rw [Int.neg_mul_neg] at this; omega
    have hPle : P ≤ P * P := by
      calc P = P * 1 := by rw [Int.mul_one]
        _ ≤ P * P := Int.mul_le_mul_of_nonneg_left (by omega) (by omega)
    generalize x * y = p at *
    have hr1 := BitVec.toInt_lt (x := BitVec.ofInt w p)
    have hr2 := BitVec.le_toInt (x := BitVec.ofInt w p)
    rw [hPP] at hr1 hr2
    rw [hq]
    generalize P * P = Q at *
    constructor
    · intro h
      rcases Int.lt_or_le p (-P) with h1 | h1
      · exact Or.inl h1
      · rcases Int.lt_or_le p P with h2 | h2
        · exfalso; apply h
          rw [BitVec.toInt_ofInt, Int.bmod_eq_of_le]
          · push_cast; omega
          · push_cast; omega
        · exact Or.inr h2
    · intro h hn
      -- equal modulo 4Q and both in (-2Q, 2Q), hence equal
      have h1 := Int.emod_emod_of_dvd
      have e1 := Int.emod_add_mul_ediv p (4 * Q)
      have e2 := Int.emod_add_mul_ediv (BitVec.ofInt w p).toInt (4 * Q)
      rw [hn] at e1
      have hd : p - (BitVec.ofInt w p).toInt = 4 * Q * (p / (4 * Q) - (BitVec.ofInt w p).toInt / (4 * Q)) := by
        rw [Int.mul_sub]; omega
      generalize (p / (4 * Q) - (BitVec.ofInt w p).toInt / (4 * Q)) = k at hd
      have hk : k = 0 := by
        rcases Int.lt_or_le k 0 with hk | hk
        · have : 4 * Q * k ≤ 4 * Q * (-1) := Int.mul_le_mul_of_nonneg_left (by omega) (by omega)
          omega
        · rcases Int.lt_or_le 0 k with hk2 | hk2
          · have : 4 * Q * 1 ≤ 4 * Q * k := Int.mul_le_mul_of_nonneg_left (by omega) (by omega)
            omega
          · omega
      subst hk
      omega

theorem smul_fits {w : Nat} (a b : BitVec w) :
    a.smulOverflow b = !fits true w (num true a * num true b) := by
  simp only [BitVec.smulOverflow, fits, num, sOver, if_true, Bool.not_not]
  rw [Bool.eq_iff_iff]; simp only [Bool.or_eq_true, decide_eq_true_eq]
  constructor <;> (rintro (h | h) <;> omega)

theorem umul_fits {w : Nat} (a b : BitVec w) :
    a.umulOverflow b = !fits false w (num false a * num false b) := by
  simp only [BitVec.umulOverflow, fits, num, Bool.false_eq_true, if_false]
  have hc : (2 : Int) ^ w = ((2 ^ w : Nat) : Int) := by push_cast; rfl
  rw [Bool.eq_iff_iff, hc, ← Int.natCast_mul]
  simp only [decide_eq_true_eq, Bool.not_eq_true', decide_eq_false_iff_not]
  omega

/-! ### Multiplication -/

theorem Rel.mulFlags (h : Rel slide m s) (cfg : Cfg) (signed : Bool) {w : Nat} (hw : 0 < w)
    (a b : BitVec w) :
    Rel slide (X86.mulFlags cfg m signed (some a) (some b))
      (s.setFl (some (!fits signed w (num signed a * num signed b))) none none none none
        (some (!fits signed w (num signed a * num signed b)))) := by
  have hov : (if cfg.overflowIntrinsics = true then
      bin (fun a b => BitVec.ofBool (if signed = true then a.smulOverflow b else a.umulOverflow b)) (some a) (some b)
    else icmp .ne (IR.mul (extOp signed (w * 2) (some a)) (extOp signed (w * 2) (some b)))
      (extOp signed (w * 2) (IR.mul (some a) (some b))))
      = some (BitVec.ofBool (!fits signed w (num signed a * num signed b))) := by
    split
    · rw [bin_some]
      cases signed
      · simp only [Bool.false_eq_true, if_false, umul_fits]
      · simp only [if_true, smul_fits]
    · have hlow : a * b = BitVec.ofInt w (num signed a * num signed b) := by
        rw [BitVec.ofInt_mul, num_ofInt, num_ofInt]
      rw [ext_num _ _ (by omega), ext_num _ _ (by omega), mul_some, mul_some, ext_num _ _ (by omega),
        ← BitVec.ofInt_mul, icmp_some, hlow]
      simp only [Pred.eval]
      rw [mul_overflow signed hw]
  simp only [X86.mulFlags, hov]
  refine h.flags rfl rfl ?_
  intro f x hx
  have hdf := h.fl .df x
  cases f <;> simp only [S.setFl, Option.some.injEq, reduceCtorEq] at hx <;>
    first
    | (subst hx; rfl)
    | exact hdf hx

theorem Rel.mulStore (h : Rel slide m s) (z : Sz) (p : Int) :
    Rel slide (X86.mulStore m z (some (BitVec.ofInt (z.bits * 2) p))) (s.setPair z p) := by
  cases z with
  | b => exact h.store rax .w _
  | _ =>
    simp only [X86.mulStore, S.setPair, trunc_some, lshr_some]
    rw [if_pos (by decide), setWidth_ofInt _ (by decide)]
    rw [trunc_some, show (BitVec.ofNat _ _).toNat = _ from ofNat_toNat_lt (by decide), high_ofInt]
    exact (h.store rax _ _).store rdx _ _

theorem body_mul1 (cfg : Cfg) (h : Rel slide m s) (signed : Bool) (z : Sz) (r : Op)
    (hr : Op.plain r = true) (hs : stepMul1 s signed z r = some s') :
    ∃ m', liftMul1 cfg slide m signed z r = some m' ∧ Rel slide m' s' := by
  simp only [stepMul1, Option.bind_eq_bind, Option.bind_eq_some_iff, Option.pure_def,
    Option.some.injEq] at hs
  obtain ⟨b, hb, hs⟩ := hs
  have h0 : 0 < z.bits := by have := bits_gt z; omega
  refine ⟨X86.mulFlags cfg (X86.mulStore m z (some (BitVec.ofInt (z.bits * 2)
    (num signed b * num signed (s.reg rax z))))) signed (some b) (some (s.reg rax z)), ?_, ?_⟩
  · simp only [liftMul1, h.opLoad z r b hr hb, h.get, Option.bind_eq_bind, Option.bind_some,
      Option.pure_def]
    rw [ext_num _ _ (by omega), ext_num _ _ (by omega), mul_some, ← BitVec.ofInt_mul]
  · rw [← hs]
    exact (h.mulStore z _).mulFlags cfg signed h0 b (s.reg rax z)

theorem body_imul2 (cfg : Cfg) (h : Rel slide m s) (z : Sz) (d r t : Op) (hd : Op.plain d = true)
    (hr : Op.plain r = true) (ht : Op.plain t = true) (hs : stepImul2 s z d r t = some s') :
    ∃ m', liftImul2 cfg slide m z d r t = some m' ∧ Rel slide m' s' := by
  simp only [stepImul2, Option.bind_eq_bind, Option.bind_eq_some_iff, Option.pure_def,
    Option.some.injEq] at hs
  obtain ⟨a, ha, b, hb, s1, hw, hs⟩ := hs
  have h0 : 0 < z.bits := by have := bits_gt z; omega
  have hlow : a * b = BitVec.ofInt z.bits (num true a * num true b) := by
    rw [BitVec.ofInt_mul, num_ofInt, num_ofInt]
  obtain ⟨m1, e1, e2⟩ := h.opStore z d _ hd hw
  refine ⟨X86.mulFlags cfg m1 true (some a) (some b), ?_, ?_⟩
  · simp only [liftImul2, h.opLoad z r a hr ha, h.opLoad z t b ht hb, Option.bind_eq_bind,
      Option.bind_some, Option.pure_def, mul_some, hlow, e1]
  · rw [← hs]
    exact e2.mulFlags cfg true h0 a b

/-! ### Division -/

theorem num_ofInt_of_range (signed : Bool) {w : Nat} (hw : 0 < w) (x : Int)
    (h : fits signed w x = true) : num signed (BitVec.ofInt w x) = x := by
  cases signed
  · simp only [fits, Bool.false_eq_true, if_false, decide_eq_true_eq] at h
    simp only [num, Bool.false_eq_true, if_false, BitVec.toNat_ofInt]
    have hc : (2 : Int) ^ w = ((2 ^ w : Nat) : Int) := by push_cast; rfl
    rw [hc] at h
    rw [Int.emod_eq_of_lt h.1 h.2, Int.toNat_of_nonneg h.1]
  · simp only [fits, if_true, sOver, Bool.not_eq_true', decide_eq_false_iff_not] at h
    simp only [num, if_true, BitVec.toInt_ofInt]
    have hp2 : (2 : Int) ^ w = 2 * 2 ^ (w - 1) := by
      rw [← Int.pow_succ']; congr 1; omega
    generalize (2 : Int) ^ (w - 1) = P at *
    rw [Int.bmod_eq_of_le] <;> push_cast <;> omega

theorem num_eq_zero (signed : Bool) {w : Nat} (x : BitVec w) : x = 0#w ↔ num signed x = 0 := by
  constructor
  · rintro rfl; cases signed <;> simp [num]
  · intro h
    rw [← num_ofInt signed x, h]; simp

/-- Division of numbers of `w` bits, when the quotient fits into `v` bits. -/
theorem divRem_num (signed : Bool) {w v : Nat} (hw : 0 < w) (hv : v ≤ w) (hv0 : 0 < v)
    (a b : BitVec w) (hb : num signed b ≠ 0)
    (hf : fits signed v ((num signed a).tdiv (num signed b)) = true) :
    divRem signed (some a) (some b) =
      some (some (BitVec.ofInt w ((num signed a).tdiv (num signed b))),
        some (BitVec.ofInt w ((num signed a).tmod (num signed b)))) := by
  have hb0 : b ≠ 0#w := fun e => hb ((num_eq_zero signed b).1 e)
  cases signed
  · simp only [divRem, Bool.false_eq_true, if_false, udiv, urem, hb0, Option.bind_eq_bind,
      Option.bind_some, un_some, Option.pure_def, num, Option.some.injEq, Prod.mk.injEq]
    constructor
    · apply BitVec.eq_of_toNat_eq
      rw [BitVec.toNat_ofInt, ← Int.ofNat_tdiv, ← Int.natCast_emod, Int.toNat_natCast,
        Nat.mod_eq_of_lt (Nat.lt_of_le_of_lt (Nat.div_le_self _ _) a.isLt)]
      rfl
    · apply BitVec.eq_of_toNat_eq
      rw [BitVec.toNat_ofInt, ← Int.ofNat_tmod, ← Int.natCast_emod, Int.toNat_natCast,
        Nat.mod_eq_of_lt (Nat.lt_of_le_of_lt (Nat.mod_le _ _) a.isLt)]
      rfl
  · simp only [num, if_true] at hf hb ⊢
    have hno : ¬ (a = BitVec.intMin w ∧ b = BitVec.allOnes w) := by
      rintro ⟨rfl, rfl⟩
      have h1 : (BitVec.intMin w).toInt = -2 ^ (w - 1) := by
        rw [BitVec.toInt_intMin_of_pos hw]
      have h2 : (BitVec.allOnes w).toInt = -1 := by
        rw [BitVec.toInt_allOnes, if_pos hw]
      simp only [fits, if_true, sOver, Bool.not_eq_true', decide_eq_false_iff_not] at hf
      rw [h1, h2, Int.tdiv_neg, Int.tdiv_one] at hf
      have : (2 : Int) ^ (v - 1) ≤ 2 ^ (w - 1) := by
        exact_mod_cast Nat.pow_le_pow_right (by decide) (by omega)
      omega
    simp only [divRem, if_true, sdiv, srem, hb0, hno, or_self, if_false, Option.bind_eq_bind,
      Option.bind_some, Option.pure_def, Option.some.injEq, Prod.mk.injEq]
    constructor
    · apply BitVec.eq_of_toInt_eq
      rw [BitVec.toInt_sdiv, BitVec.toInt_ofInt]
    · rw [← BitVec.toInt_srem, BitVec.ofInt_toInt]

theorem undef_all (h : Rel slide m s) :
    Rel slide (m.undef [.of, .sf, .zf, .af, .pf, .cf]) (s.setFl none none none none none none) := by
  refine h.flags rfl rfl ?_
  intro f x hx
  have hdf := h.fl .df x
  cases f <;> simp only [S.setFl, reduceCtorEq] at hx
  exact hdf hx

/-- What the lifter learned about the upper half of the dividend when translating; the null dereference is for IDIV only. -/
def HighOk (s : S) (signed : Bool) (z : Sz) : High → Prop
  | .unknown => True
  | .null => s.reg rdx z = 0
  | .ashr none => signed = false
  | .ashr (some k) => s.reg rdx z = (s.reg rax z).sshiftRight k

theorem dividend_short (signed : Bool) (z : Sz) (hz : z ≠ .b) (high : High) (hh : HighOk s signed z high)
    (hd : divShort signed z high = some true) : s.dividend signed z = num signed (s.reg rax z) := by
  have hdv : s.dividend signed z = num signed (s.reg rdx z) * 2 ^ z.bits + (s.reg rax z).toNat := by
    cases z <;> first | exact absurd rfl hz | rfl
  rw [hdv]
  have h0 : 0 < z.bits := by have := bits_gt z; omega
  cases high with
  | unknown => simp [divShort] at hd
  | null =>
    simp only [divShort, Option.some.injEq, Bool.not_eq_true'] at hd
    subst hd
    simp only [HighOk] at hh
    simp [hh, num]
  | ashr k =>
    cases k with
    | none =>
      simp only [HighOk] at hh
      simp [hh, divShort] at hd
    | some k =>
      cases signed with
      | false => simp [divShort] at hd
      | true =>
        simp only [divShort, if_true, Option.map_some, Option.some.injEq, decide_eq_true_eq] at hd
        subst hd
        simp only [HighOk] at hh
        rw [hh]
        simp only [num, if_true]
        generalize s.reg rax z = a
        have h1 : (a.sshiftRight (z.bits - 1)).toInt = if a.msb then -1 else 0 := by
          rw [BitVec.toInt_sshiftRight, Int.shiftRight_eq_div_pow]
          have hl := BitVec.toInt_lt (x := a)
          have hg := BitVec.le_toInt (x := a)
          have hP : (0 : Int) < 2 ^ (z.bits - 1) := Int.pow_pos (by decide)
          rw [BitVec.msb_eq_toInt]
          by_cases hn : a.toInt < 0
          · simp only [hn, decide_true, if_true]
            push_cast
            generalize (2 : Int) ^ (z.bits - 1) = P at *
            rw [Int.ediv_eq_iff_of_pos hP]
            omega
          · simp only [hn, decide_false, Bool.false_eq_true, if_false]
            push_cast
            exact Int.ediv_eq_zero_of_lt (by omega) (by omega)
        rw [h1, BitVec.toInt_eq_msb_cond]
        cases a.msb
        · simp
        · simp only [if_true]; push_cast; omega

theorem dividend_full (signed : Bool) (z : Sz) (hz : z ≠ .b) :
    num signed ((s.reg rax z).setWidth (z.bits * 2) ||| (s.reg rdx z).setWidth (z.bits * 2) <<< z.bits)
      = s.dividend signed z := by
  have hdv : s.dividend signed z = num signed (s.reg rdx z) * 2 ^ z.bits + (s.reg rax z).toNat := by
    cases z <;> first | exact absurd rfl hz | rfl
  rw [hdv]
  have h0 : 0 < z.bits := by have := bits_gt z; omega
  clear hdv
  generalize s.reg rax z = a
  generalize s.reg rdx z = b
  generalize z.bits = w at *
  have hcat : a.setWidth (w * 2) ||| b.setWidth (w * 2) <<< w = (b ++ a).cast (by omega) := by
    apply BitVec.eq_of_getLsbD_eq
    intro i hi
    simp only [BitVec.getLsbD_or, BitVec.getLsbD_setWidth, BitVec.getLsbD_shiftLeft, hi, decide_true,
      Bool.true_and, BitVec.getLsbD_cast, BitVec.getLsbD_append]
    by_cases h : i < w
    · simp [h]
    · rw [BitVec.getLsbD_of_ge a i (by omega)]
      simp [h, show i - w < w * 2 by omega]
  rw [hcat]
  have ha := a.isLt
  have hb := b.isLt
  have hc : (2 : Int) ^ w = ((2 ^ w : Nat) : Int) := by push_cast; rfl
  have htn : ((b ++ a).cast (by omega : w + w = w * 2)).toNat = b.toNat * 2 ^ w + a.toNat := by
    rw [BitVec.toNat_cast, BitVec.toNat_append, Nat.shiftLeft_eq, ← Nat.shiftLeft_eq,
      ← Nat.shiftLeft_add_eq_or_of_lt ha, Nat.shiftLeft_eq]
  cases signed
  · simp only [num, Bool.false_eq_true, if_false, htn, hc]
    push_cast; rfl
  · simp only [num, if_true]
    have hm : ((b ++ a).cast (by omega : w + w = w * 2)).msb = b.msb := by
      rw [BitVec.msb_cast, BitVec.msb_append]; simp; omega
    rw [BitVec.toInt_eq_msb_cond, hm, htn, BitVec.toInt_eq_msb_cond (x := b), Nat.mul_two, Nat.pow_add, hc]
    cases b.msb
    · simp
    · simp only [if_true]; push_cast; rw [Int.sub_mul]; omega

theorem Rel.divDone (h : Rel slide m s) (z : Sz) (hz : z ≠ .b) (q r : BitVec z.bits) :
    Rel slide ((m.store rax z (some q)).store rdx z (some r)) ((s.setReg rax z q).setRem z r) := by
  cases z <;> first | exact absurd rfl hz | exact (h.store rax _ q).store rdx _ r

theorem body_div (h : Rel slide m s) (signed : Bool) (z : Sz) (r : Op) (high : High)
    (hr : Op.plain r = true) (hh : z ≠ .b → HighOk s signed z high)
    (hs : stepDiv s signed z r = some s') :
    ∃ m', liftDiv slide m signed z r high = some m' ∧ Rel slide m' s' := by
  simp only [stepDiv, Option.bind_eq_bind, Option.bind_eq_some_iff] at hs
  obtain ⟨v, hv, hs⟩ := hs
  have h0 : 0 < z.bits := by have := bits_gt z; omega
  split at hs
  · simp at hs
  · rename_i hde
    simp only [not_or, Bool.not_eq_false] at hde
    simp only [Option.pure_def, Option.some.injEq] at hs
    obtain ⟨hne, hft⟩ := hde
    suffices hm : ∃ m1, divCore slide m signed z r high = some m1 ∧
        Rel slide m1 ((s.setReg rax z (BitVec.ofInt z.bits ((s.dividend signed z).tdiv (num signed v)))).setRem z
          (BitVec.ofInt z.bits ((s.dividend signed z).tmod (num signed v)))) by
      obtain ⟨m1, e1, e2⟩ := hm
      refine ⟨m1.undef [.of, .sf, .zf, .af, .pf, .cf], ?_, hs ▸ undef_all e2⟩
      simp [liftDiv, e1]
    have hl := h.opLoad z r v hr hv
    by_cases hz : z = .b
    · subst hz
      have he : extOp signed (Sz.bits .w) (some v) = some (BitVec.ofInt (Sz.bits .w) (num signed v)) :=
        ext_num signed v (by decide)
      have hfv : fits signed (Sz.bits .w) (num signed v) = true := by
        cases signed
        · simp only [fits, num, Bool.false_eq_true, if_false, decide_eq_true_eq]
          have hb : v.toNat < 2 ^ 8 := v.isLt
          constructor
          · omega
          · have : (2 : Int) ^ (Sz.bits .w) = 65536 := by decide
            omega
        · simp only [fits, num, if_true, sOver, Bool.not_eq_true', decide_eq_false_iff_not]
          have h1 : v.toInt < 2 ^ 7 := BitVec.toInt_lt
          have h2 : -2 ^ 7 ≤ v.toInt := BitVec.le_toInt v
          have : (2 : Int) ^ (Sz.bits .w - 1) = 32768 := by decide
          omega
      have hn := num_ofInt_of_range signed (by decide : 0 < Sz.bits .w) _ hfv
      have hdr := divRem_num signed (w := Sz.bits .w) (v := Sz.bits .b) (by decide) (by decide) (by decide)
        (s.reg rax .w) (BitVec.ofInt (Sz.bits .w) (num signed v)) (by rw [hn]; exact hne)
        (by rw [hn]; exact hft)
      rw [hn] at hdr
      refine ⟨_, ?_, ((h.store rax .b _).storeH 0 _)⟩
      rotate_left
      · simp only [divCore, if_true, div8, h.get, hl, Option.bind_eq_bind, Option.bind_some, he, hdr,
          Option.pure_def, trunc_some]
        rw [setWidth_ofInt _ (by decide : Sz.bits .b ≤ Sz.bits .w),
          setWidth_ofInt _ (by decide : 8 ≤ Sz.bits .w)]
        rfl
    · have hhz := hh hz
      simp only [divCore, hz, if_false]
      cases hsh : divShort signed z high with
      | none =>
        exfalso
        cases high with
        | ashr k =>
          cases k with
          | none =>
            simp only [HighOk] at hhz
            simp [hhz, divShort] at hsh
          | some k => cases signed <;> simp [divShort] at hsh
        | _ => simp [divShort] at hsh
      | some short =>
        cases short with
        | true =>
          have hdd := dividend_short signed z hz high hhz hsh
          rw [hdd] at hft ⊢
          have hdr := divRem_num signed h0 (Nat.le_refl _) h0 (s.reg rax z) v hne hft
          refine ⟨_, ?_, h.divDone z hz _ _⟩
          simp only [divLow, h.get, hl, Option.bind_eq_bind, Option.bind_some, hdr, Option.pure_def]
        | false =>
          have hdd := dividend_full (s := s) signed z hz
          rw [← hdd] at hft ⊢
          have he := ext_num signed v (by omega : z.bits ≤ z.bits * 2)
          have hfv : fits signed (z.bits * 2) (num signed v) = true := by
            cases signed
            · simp only [fits, num, Bool.false_eq_true, if_false, decide_eq_true_eq]
              have hb := v.isLt
              have : 2 ^ z.bits ≤ 2 ^ (z.bits * 2) := Nat.pow_le_pow_right (by decide) (by omega)
              have hc : (2 : Int) ^ (z.bits * 2) = ((2 ^ (z.bits * 2) : Nat) : Int) := by push_cast; rfl
              rw [hc]; omega
            · simp only [fits, num, if_true, sOver, Bool.not_eq_true', decide_eq_false_iff_not]
              have h1 := BitVec.toInt_lt (x := v)
              have h2 := BitVec.le_toInt v
              have : (2 : Int) ^ (z.bits - 1) ≤ 2 ^ (z.bits * 2 - 1) := by
                exact_mod_cast Nat.pow_le_pow_right (by decide) (by omega)
              omega
          have hn := num_ofInt_of_range signed (by omega : 0 < z.bits * 2) _ hfv
          generalize hD : ((s.reg rax z).setWidth (z.bits * 2) |||
            (s.reg rdx z).setWidth (z.bits * 2) <<< z.bits) = D at hft ⊢
          have hdr := divRem_num signed (by omega : 0 < z.bits * 2) (by omega : z.bits ≤ z.bits * 2) h0
            D (BitVec.ofInt (z.bits * 2) (num signed v)) (by rw [hn]; exact hne) (by rw [hn]; exact hft)
          rw [hn] at hdr
          refine ⟨_, ?_, h.divDone z hz _ _⟩
          have hsh : (BitVec.ofNat (z.bits * 2) z.bits).toNat = z.bits :=
            ofNat_toNat_lt (lt_two_pow (by omega))
          simp only [divFull, h.get, hl, Option.bind_eq_bind, Option.bind_some, zext_some, shl_some, hsh,
            if_pos (by omega : z.bits < z.bits * 2), or_some, hD, he, hdr, Option.pure_def, trunc_some]
          rw [setWidth_ofInt _ (by omega), setWidth_ofInt _ (by omega)]

end Verif.X86.Spec
