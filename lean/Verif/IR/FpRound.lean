import Verif.IR.FpArith

/-!
The rounding of `Fp.round` is the one of IEEE 754: `Nearest` says what "the representable number
nearest to `n / d`, ties to even" means, without computing it, and `round_nearest` proves it.
-/

namespace Verif.Fp

/-- The formats the lifters use. -/
def Format (w : Nat) : Prop := w = 32 ∨ w = 64

/-- Value in units of the bit pattern `m` (without sign).  For `m = infMag w` this is the first power of
two that is too large, as IEEE 754 wants it for the decision whether a result overflows. -/
def unitsM (w m : Nat) : Nat :=
  let e := m / 2 ^ mantBits w
  let f := m % 2 ^ mantBits w
  if e = 0 then f else (2 ^ mantBits w + f) * 2 ^ (e - 1)

theorem units_eq {w : Nat} (x : BitVec w) : units x = unitsM w (mag x) := rfl

/-- Distance of natural numbers. -/
def dist (a b : Nat) : Nat := (a - b) + (b - a)

/-- IEEE 754 rounding to nearest, ties to even: of all bit patterns up to infinity, `m` is the closest to
`n / d` units; if another one is equally close, `m` is the one with an even mantissa. -/
def Nearest (w n d m : Nat) : Prop :=
  m ≤ infMag w ∧ ∀ m' ≤ infMag w, m' ≠ m →
    dist (unitsM w m * d) n < dist (unitsM w m' * d) n ∨
    (dist (unitsM w m * d) n = dist (unitsM w m' * d) n ∧ m % 2 = 0)

theorem mant_pos (w : Nat) : 0 < mantBits w := by unfold mantBits; split <;> decide

theorem infMag_eq {w : Nat} (hw : Format w) : infMag w = (2 ^ (w - 1 - mantBits w) - 1) * 2 ^ mantBits w ∧
    4 ≤ 2 ^ (w - 1 - mantBits w) ∧ infMag w < 2 ^ (w - 1) := by
  rcases hw with rfl | rfl <;> decide

/-- Value of a bit pattern given as exponent and mantissa with leading digit. -/
theorem unitsM_of (w k r : Nat) (h1 : r ≤ 2 ^ (mantBits w + 1)) (h2 : k = 0 ∨ 2 ^ mantBits w ≤ r) :
    unitsM w (k * 2 ^ mantBits w + r) = r * 2 ^ k := by
  unfold unitsM
  have hp := Nat.two_pow_pos (mantBits w)
  rw [Nat.pow_succ] at h1
  generalize hP : 2 ^ mantBits w = P at *
  have key : ∀ j f, f < P → (k * P + r = j * P + f) →
      (k * P + r) / P = j ∧ (k * P + r) % P = f := by
    intro j f hf he
    rw [he]
    constructor
    · rw [Nat.mul_comm, Nat.mul_add_div hp, Nat.div_eq_of_lt hf, Nat.add_zero]
    · rw [Nat.mul_comm, Nat.mul_add_mod, Nat.mod_eq_of_lt hf]
  by_cases hr : r < P
  · obtain rfl : k = 0 := by omega
    obtain ⟨ha, hb⟩ := key 0 r hr rfl
    simp only [ha, hb, if_true, Nat.pow_zero, Nat.mul_one]
  · by_cases hr2 : r < 2 * P
    · obtain ⟨ha, hb⟩ := key (k + 1) (r - P) (by omega) (by rw [Nat.add_mul]; omega)
      simp only [ha, hb, Nat.add_one_ne_zero, if_false, Nat.add_sub_cancel]
      congr 1; omega
    · obtain ⟨ha, hb⟩ := key (k + 2) 0 hp (by rw [Nat.add_mul]; omega)
      obtain rfl : r = 2 * P := by omega
      simp only [ha, hb, Nat.add_one_ne_zero, if_false, Nat.add_zero]
      show P * 2 ^ (k + 1) = _
      rw [Nat.pow_succ, Nat.mul_comm (2 ^ k), ← Nat.mul_assoc, Nat.mul_comm P]

/-- Every bit pattern is of that form. -/
theorem decomp (w m : Nat) : ∃ k r, m = k * 2 ^ mantBits w + r ∧ r < 2 ^ (mantBits w + 1) ∧
    (k = 0 ∨ 2 ^ mantBits w ≤ r) := by
  have hp := Nat.two_pow_pos (mantBits w)
  rw [Nat.pow_succ]
  generalize 2 ^ mantBits w = P at *
  have hm := Nat.div_add_mod m P
  have hf := Nat.mod_lt m hp
  rw [Nat.mul_comm] at hm
  generalize hq : m / P = q at hm
  cases q with
  | zero => exact ⟨0, m, by omega, by omega, .inl rfl⟩
  | succ k =>
    rw [Nat.add_mul] at hm
    exact ⟨k, P + m % P, by omega, by omega, .inr (by omega)⟩

theorem unitsM_succ (w m : Nat) : unitsM w m < unitsM w (m + 1) := by
  obtain ⟨k, r, rfl, h1, h2⟩ := decomp w m
  rw [unitsM_of w k r (by omega) h2, Nat.add_assoc, unitsM_of w k (r + 1) (by omega) (by omega), Nat.add_mul]
  have := Nat.two_pow_pos k
  omega

theorem unitsM_lt {w m m' : Nat} (h : m < m') : unitsM w m < unitsM w m' := by
  induction m' with
  | zero => omega
  | succ n ih =>
    have := unitsM_succ w n
    rcases Nat.lt_or_ge m n with h' | h'
    · have := ih h'; omega
    · obtain rfl : m = n := by omega
      exact this

theorem unitsM_le {w m m' : Nat} (h : m ≤ m') : unitsM w m ≤ unitsM w m' := by
  rcases Nat.lt_or_ge m m' with h' | h'
  · exact Nat.le_of_lt (unitsM_lt h')
  · obtain rfl : m = m' := by omega
    exact Nat.le_refl _

theorem unitsM_inj {w m m' : Nat} (h : unitsM w m = unitsM w m') : m = m' := by
  rcases Nat.lt_trichotomy m m' with h' | h' | h'
  · have := unitsM_lt (w := w) h'; omega
  · exact h'
  · have := unitsM_lt (w := w) h'; omega

theorem log2_bounds {a p : Nat} : a < 2 ^ (p + 1 + (Nat.log2 a - p)) ∧
    (Nat.log2 a - p = 0 ∨ 2 ^ (p + (Nat.log2 a - p)) ≤ a) := by
  by_cases ha : a = 0
  · subst ha
    refine ⟨Nat.two_pow_pos _, .inl ?_⟩
    have : Nat.log2 0 = 0 := by decide
    omega
  · have h1 := Nat.lt_log2_self (n := a)
    have h2 := Nat.log2_self_le ha
    constructor
    · exact Nat.lt_of_lt_of_le h1 (Nat.pow_le_pow_right (by decide) (by omega))
    · by_cases h : Nat.log2 a - p = 0
      · exact .inl h
      · refine .inr (Nat.le_trans (Nat.pow_le_pow_right (by decide) ?_) h2)
        omega

/-- The magnitude computed by `round`. -/
def roundMag (w n d : Nat) : Nat :=
  let k := Nat.log2 (n / d) - mantBits w
  min (infMag w) (k * 2 ^ mantBits w + rne n (d * 2 ^ k))

theorem round_eq (w : Nat) (neg : Bool) (n d : Nat) : round w neg n d = signed w neg (roundMag w n d) := rfl

/-- **Rounding is correct**: the result is the nearest number, ties to even. -/
theorem roundMag_nearest {w : Nat} (hw : Format w) (n d : Nat) (hd : 0 < d) :
    Nearest w n d (roundMag w n d) := by
  obtain ⟨hinf, hE, -⟩ := infMag_eq hw
  unfold roundMag
  simp only
  have hlog := log2_bounds (a := n / d) (p := mantBits w)
  generalize Nat.log2 (n / d) - mantBits w = k at *
  obtain ⟨hl1, hl2⟩ := hlog
  have hk := Nat.two_pow_pos k
  have hp := Nat.two_pow_pos (mantBits w)
  have hpe : 2 ^ mantBits w % 2 = 0 := by
    obtain ⟨q, hq⟩ : ∃ q, mantBits w = q + 1 := ⟨mantBits w - 1, by have := mant_pos w; omega⟩
    rw [hq, Nat.pow_succ]; omega
  have hP1 : 2 ^ (mantBits w + 1) = 2 * 2 ^ mantBits w := by rw [Nat.pow_succ, Nat.mul_comm]
  -- quotient and remainder
  have hD : 0 < d * 2 ^ k := Nat.mul_pos hd hk
  have hdiv : n / (d * 2 ^ k) = n / d / 2 ^ k := (Nat.div_div_eq_div_mul _ _ _).symm
  have ha1 : n / (d * 2 ^ k) < 2 * 2 ^ mantBits w := by
    rw [hdiv, Nat.div_lt_iff_lt_mul hk, ← hP1, ← Nat.pow_add]; exact hl1
  have ha2 : k = 0 ∨ 2 ^ mantBits w ≤ n / (d * 2 ^ k) := by
    refine hl2.imp id fun h => ?_
    rw [hdiv, Nat.le_div_iff_mul_le hk, ← Nat.pow_add]; exact h
  have hn := Nat.div_add_mod n (d * 2 ^ k)
  have hb := Nat.mod_lt n hD
  -- the result is `r` units of `2^k`
  have hr : ∃ r, rne n (d * 2 ^ k) = r ∧
      ((r = n / (d * 2 ^ k) ∧ (2 * (n % (d * 2 ^ k)) < d * 2 ^ k ∨
        (2 * (n % (d * 2 ^ k)) = d * 2 ^ k ∧ r % 2 = 0))) ∨
       (r = n / (d * 2 ^ k) + 1 ∧ (d * 2 ^ k < 2 * (n % (d * 2 ^ k)) ∨
        (2 * (n % (d * 2 ^ k)) = d * 2 ^ k ∧ r % 2 = 0)))) := by
    unfold rne
    simp only
    split
    · exact ⟨_, rfl, .inl ⟨rfl, by omega⟩⟩
    · exact ⟨_, rfl, .inr ⟨rfl, by omega⟩⟩
  obtain ⟨r, hrne, hr⟩ := hr
  rw [hrne]
  generalize hDg : d * 2 ^ k = D at *
  generalize hag : n / D = a at *
  generalize hbg : n % D = b at *
  have hr1 : r ≤ 2 ^ (mantBits w + 1) := by omega
  have hr2 : k = 0 ∨ 2 ^ mantBits w ≤ r := by omega
  have hu := unitsM_of w k r hr1 hr2
  have hrD : r * 2 ^ k * d = r * D := by rw [← hDg, Nat.mul_assoc, Nat.mul_comm (2 ^ k)]
  rw [Nat.mul_comm D a] at hn
  by_cases hclip : k * 2 ^ mantBits w + r ≤ infMag w
  · rw [Nat.min_eq_right hclip]
    refine ⟨hclip, fun m' hm' hne => ?_⟩
    rw [hu, hrD]
    rcases Nat.lt_or_ge m' (k * 2 ^ mantBits w + r) with hlt | hge
    · -- a smaller number
      by_cases hedge : k = 0 ∨ 2 ^ mantBits w < r
      · have hr0 : 0 < r := by
          rcases hedge with rfl | h
          · omega
          · omega
        have h1 : unitsM w m' ≤ (r - 1) * 2 ^ k := by
          rw [← unitsM_of w k (r - 1) (by omega) (by omega)]
          exact unitsM_le (by omega)
        have h2 : unitsM w m' * d ≤ (r - 1) * D := by
          rw [← hDg, Nat.mul_comm d, ← Nat.mul_assoc]
          exact Nat.mul_le_mul_right d h1
        have h3 : r * D = (r - 1) * D + D := by
          conv => lhs; rw [show r = (r - 1) + 1 by omega]
          rw [Nat.add_mul, Nat.one_mul]
        generalize unitsM w m' * d = U at *
        rcases hr with ⟨hra, hrb⟩ | ⟨hra, hrb⟩
        · subst hra
          left; unfold dist; omega
        · have : r - 1 = a := by omega
          rw [this] at h2 h3
          rw [h3]
          rcases hrb with hrb | ⟨hrb, hev⟩
          · left; unfold dist; omega
          · by_cases heq : U = a * D
            · right
              refine ⟨by unfold dist; omega, ?_⟩
              rw [Nat.add_mod, Nat.mul_mod, hpe]; simp [hev]
            · left; unfold dist; omega
      · have hra : r = a := by omega
        have h1 : unitsM w m' < r * 2 ^ k := by rw [← hu]; exact unitsM_lt hlt
        have h2 : unitsM w m' * d < r * D := by
          rw [← hrD]; exact Nat.mul_lt_mul_of_pos_right h1 hd
        left
        subst hra
        unfold dist; omega
    · -- a larger number
      have hgt : k * 2 ^ mantBits w + r + 1 ≤ m' := by omega
      have h1 : (r + 1) * 2 ^ k ≤ unitsM w m' := by
        refine Nat.le_trans ?_ (unitsM_le hgt)
        have := unitsM_succ w (k * 2 ^ mantBits w + r)
        by_cases hr3 : r < 2 ^ (mantBits w + 1)
        · rw [Nat.add_assoc, unitsM_of w k (r + 1) (by omega) (by omega)]; exact Nat.le_refl _
        · have e : k * 2 ^ mantBits w + r + 1 = (k + 1) * 2 ^ mantBits w + (2 ^ mantBits w + 1) := by
            rw [Nat.add_mul]; omega
          rw [e, unitsM_of w (k + 1) _ (by omega) (.inr (by omega)), Nat.pow_succ]
          rw [show (2 ^ mantBits w + 1) * (2 ^ k * 2) = (2 * 2 ^ mantBits w + 2) * 2 ^ k by
            rw [Nat.mul_comm (2 ^ k) 2, ← Nat.mul_assoc]; congr 1; omega]
          exact Nat.mul_le_mul_right _ (by omega)
      have h2 : (r + 1) * D ≤ unitsM w m' * d := by
        rw [← hDg, Nat.mul_comm d, ← Nat.mul_assoc]
        exact Nat.mul_le_mul_right d h1
      rw [Nat.add_mul, Nat.one_mul] at h2
      generalize unitsM w m' * d = U at *
      rcases hr with ⟨hra, hrb⟩ | ⟨hra, hrb⟩
      · subst hra
        rcases hrb with hrb | ⟨hrb, hev⟩
        · left; unfold dist; omega
        · by_cases heq : U = r * D + D
          · right
            refine ⟨by unfold dist; omega, ?_⟩
            rw [Nat.add_mod, Nat.mul_mod, hpe]; simp [hev]
          · left; unfold dist; omega
      · subst hra
        rw [Nat.add_mul, Nat.one_mul] at *
        left; unfold dist; omega
  · rw [Nat.min_eq_left (by omega)]
    refine ⟨Nat.le_refl _, fun m' hm' hne => ?_⟩
    left
    -- overflow: `n / d` is not below the value of infinity
    have hkE : 2 ^ (w - 1 - mantBits w) - 2 ≤ k := by
      refine Classical.byContradiction fun hc => ?_
      have h1 : k + 2 ≤ 2 ^ (w - 1 - mantBits w) - 1 := by omega
      have h2 := Nat.mul_le_mul_right (2 ^ mantBits w) h1
      rw [Nat.add_mul] at h2
      omega
    have hk0 : 2 ^ mantBits w ≤ a := by omega
    have hiu : unitsM w (infMag w) = 2 ^ mantBits w * 2 ^ (2 ^ (w - 1 - mantBits w) - 2) := by
      rw [← unitsM_of w _ (2 ^ mantBits w) (by omega) (.inr (Nat.le_refl _)), hinf]
      congr 1
      rw [show 2 ^ (w - 1 - mantBits w) - 1 = (2 ^ (w - 1 - mantBits w) - 2) + 1 by omega, Nat.add_mul, Nat.one_mul]
    have h3 : unitsM w (infMag w) * d ≤ n := by
      rw [hiu]
      have : 2 ^ (2 ^ (w - 1 - mantBits w) - 2) ≤ 2 ^ k := Nat.pow_le_pow_right (by decide) hkE
      calc 2 ^ mantBits w * 2 ^ (2 ^ (w - 1 - mantBits w) - 2) * d
          ≤ a * 2 ^ k * d := Nat.mul_le_mul_right d (Nat.mul_le_mul hk0 this)
        _ = a * D := by rw [← hDg, Nat.mul_assoc, Nat.mul_comm (2 ^ k)]
        _ ≤ n := by omega
    have h4 : unitsM w m' * d < unitsM w (infMag w) * d :=
      Nat.mul_lt_mul_of_pos_right (unitsM_lt (by omega)) hd
    unfold dist; omega

/-- There is only one nearest number. -/
theorem nearest_unique {w n d m m' : Nat} (h : Nearest w n d m) (h' : Nearest w n d m') (hd : 0 < d) : m = m' := by
  refine Classical.byContradiction fun hne => ?_
  have h1 := h.2 m' h'.1 (Ne.symm hne)
  have h2 := h'.2 m h.1 hne
  have hev : dist (unitsM w m * d) n = dist (unitsM w m' * d) n ∧ m % 2 = 0 ∧ m' % 2 = 0 := by omega
  obtain ⟨he, e1, e2⟩ := hev
  -- two even numbers at the same distance have an odd one between them
  have main : ∀ a b, a < b → a % 2 = 0 → b % 2 = 0 → b ≤ infMag w → Nearest w n d a →
      dist (unitsM w a * d) n = dist (unitsM w b * d) n → False := by
    intro a b hab ha hb hbi hna heq
    have h3 := hna.2 (a + 1) (by omega) (by omega)
    have l1 := Nat.mul_lt_mul_of_pos_right (unitsM_succ w a) hd
    have l2 := Nat.mul_lt_mul_of_pos_right (unitsM_lt (w := w) (show a + 1 < b by omega)) hd
    unfold dist at *
    omega
  rcases Nat.lt_or_ge m m' with hl | hl
  · exact main m m' hl e1 e2 h'.1 h he
  · exact main m' m (by omega) e2 e1 h.1 h' he.symm

/-- A representable number is rounded to itself. -/
theorem roundMag_exact {w : Nat} (hw : Format w) {n d m : Nat} (hd : 0 < d) (hm : m ≤ infMag w)
    (h : unitsM w m * d = n) : roundMag w n d = m := by
  refine nearest_unique (roundMag_nearest hw n d hd) ⟨hm, fun m' _ hne => .inl ?_⟩ hd
  have : unitsM w m' * d ≠ unitsM w m * d := fun e =>
    hne (unitsM_inj (Nat.eq_of_mul_eq_mul_right hd e))
  unfold dist
  omega

theorem roundMag_le (w n d : Nat) : roundMag w n d ≤ infMag w := Nat.min_le_left _ _

/-- Rounding depends on the quotient only. -/
theorem roundMag_scale {w : Nat} (hw : Format w) (n d t : Nat) (hd : 0 < d) (ht : 0 < t) :
    roundMag w (n * t) (d * t) = roundMag w n d := by
  refine nearest_unique (roundMag_nearest hw _ _ (Nat.mul_pos hd ht)) ?_ (Nat.mul_pos hd ht)
  have h := roundMag_nearest hw n d hd
  refine ⟨h.1, fun m' hm' hne => ?_⟩
  have hs : ∀ m, dist (unitsM w m * (d * t)) (n * t) = dist (unitsM w m * d) n * t := by
    intro m
    unfold dist
    rw [Nat.add_mul, Nat.sub_mul, Nat.sub_mul, Nat.mul_assoc]
  rw [hs, hs]
  rcases h.2 m' hm' hne with h | ⟨h, he⟩
  · exact .inl (Nat.mul_lt_mul_of_pos_right h ht)
  · exact .inr ⟨by rw [h], he⟩

/-! ### Sign and magnitude -/

theorem mag_signed {w : Nat} (hw : 0 < w) (neg : Bool) {m : Nat} (hm : m < 2 ^ (w - 1)) :
    mag (signed w neg m) = m := by
  have h2 : 2 ^ w = 2 * 2 ^ (w - 1) := by
    conv => lhs; rw [show w = (w - 1) + 1 by omega]
    rw [Nat.pow_succ, Nat.mul_comm]
  unfold mag signed
  rw [BitVec.toNat_ofNat]
  cases neg
  · simp only [Bool.false_eq_true, if_false, Nat.zero_add]
    rw [Nat.mod_eq_of_lt (a := m) (by omega), Nat.mod_eq_of_lt hm]
  · simp only [if_true]
    rw [Nat.mod_eq_of_lt (a := 2 ^ (w - 1) + m) (by omega), Nat.add_mod_left, Nat.mod_eq_of_lt hm]

theorem msb_signed {w : Nat} (hw : 0 < w) (neg : Bool) {m : Nat} (hm : m < 2 ^ (w - 1)) :
    (signed w neg m).msb = neg := by
  have h2 : 2 ^ w = 2 * 2 ^ (w - 1) := by
    conv => lhs; rw [show w = (w - 1) + 1 by omega]
    rw [Nat.pow_succ, Nat.mul_comm]
  unfold signed
  rw [BitVec.msb_eq_decide, BitVec.toNat_ofNat]
  cases neg
  · simp only [Bool.false_eq_true, if_false, Nat.zero_add]
    rw [Nat.mod_eq_of_lt (by omega)]
    simpa using hm
  · simp only [if_true]
    rw [Nat.mod_eq_of_lt (by omega)]
    simp

/-- A bit pattern is its sign and magnitude. -/
theorem signed_self {w : Nat} (hw : 0 < w) (x : BitVec w) : signed w x.msb (mag x) = x := by
  have h2 : 2 ^ w = 2 * 2 ^ (w - 1) := by
    conv => lhs; rw [show w = (w - 1) + 1 by omega]
    rw [Nat.pow_succ, Nat.mul_comm]
  have hx := x.isLt
  apply BitVec.eq_of_toNat_eq
  unfold signed mag
  rw [BitVec.toNat_ofNat, BitVec.msb_eq_decide]
  by_cases h : 2 ^ (w - 1) ≤ x.toNat
  · simp only [h, decide_true, if_true]
    rw [Nat.mod_eq_sub_mod h, Nat.mod_eq_of_lt (a := x.toNat - _) (by omega), Nat.add_sub_cancel' h,
      Nat.mod_eq_of_lt hx]
  · simp only [h, decide_false, Bool.false_eq_true, if_false, Nat.zero_add]
    rw [Nat.mod_eq_of_lt (a := x.toNat) (by omega), Nat.mod_eq_of_lt hx]

theorem fmt_pos {w : Nat} (hw : Format w) : 0 < w := by rcases hw with rfl | rfl <;> decide

theorem mag_round {w : Nat} (hw : Format w) (neg : Bool) (n d : Nat) :
    mag (round w neg n d) = roundMag w n d := by
  rw [round_eq, mag_signed (fmt_pos hw)]
  have := roundMag_le w n d
  have := (infMag_eq hw).2.2
  omega

theorem msb_round {w : Nat} (hw : Format w) (neg : Bool) (n d : Nat) :
    (round w neg n d).msb = neg := by
  rw [round_eq, msb_signed (fmt_pos hw)]
  have := roundMag_le w n d
  have := (infMag_eq hw).2.2
  omega

theorem round_not_nan {w : Nat} (hw : Format w) (neg : Bool) (n d : Nat) :
    isNaN (round w neg n d) = false := by
  unfold isNaN
  rw [mag_round hw]
  have := roundMag_le w n d
  simp; omega

end Verif.Fp
