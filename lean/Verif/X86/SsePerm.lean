import Verif.X86.SseArith

/-! Simulation proofs for the SSE permutations and the state save instructions, and all SSE instructions in
one theorem. -/

set_option linter.unusedSimpArgs false
set_option linter.constructorNameAsVariable false
set_option maxRecDepth 4000

namespace Verif.X86.Spec

open Verif.IR Verif.Bits

variable {slide : BitVec 64} {m : St} {s s' : S}

/-- One lane of a shuffle of two registers. -/
theorem shuffle_get {w n k : Nat} {a b : BitVec k} {mask : List Nat} {i j : Nat} (h : mask[i]? = some j)
    (hj : j < 2 * n) : Vec.shuffle n (Vec.ofBits w (some a)) (Vec.ofBits w (some b)) mask i =
      some (if j < n then lane w a j else lane w b (j - n)) := by
  rw [Vec.shuffle_eq h]
  by_cases e : j < n
  · rw [if_pos e, if_pos e]; rfl
  · rw [if_neg e, if_pos hj, if_neg e]; rfl

theorem field_lt (imm : BitVec 64) (k n : Nat) : field imm k n < 2 ^ n := BitVec.isLt _

theorem unpckMask_get (hi : Bool) (z : Sz) :
    ∀ i, i < z.cnt → (unpckMask hi z)[i]? =
      some (i / 2 + (if hi then 64 / z.bits else 0) + (if i % 2 = 0 then 0 else z.cnt)) := by
  cases hi <;> cases z <;> decide

theorem unpck_bound (hi : Bool) (z : Sz) :
    ∀ i, i < z.cnt → i / 2 + (if hi then 64 / z.bits else 0) < z.cnt := by
  cases hi <;> cases z <;> decide

theorem sim_unpck (h : Rel slide m s) {hi : Bool} {z : Sz} {d : Fin 16} {o : XOp}
    (ho : XOp.plain o = true) (hs : s.sse (.unpck hi z d o) = some s') : BodyOk slide m (.unpck hi z d o) s' := by
  sse_open hs
  refine h.bin128 ho (by decide) z.bits_cnt hs (fun a b i hl => ?_)
  have hb := unpck_bound hi z i hl
  have hg := unpckMask_get hi z i hl
  generalize i / 2 + (if hi then 64 / z.bits else 0) = j at *
  by_cases e : i % 2 = 0
  · rw [if_pos e] at hg ⊢
    rw [shuffle_get hg (by omega), Nat.add_zero, if_pos hb]
  · rw [if_neg e] at hg ⊢
    rw [shuffle_get hg (by omega), if_neg (by omega), Nat.add_sub_cancel]

theorem field01 (imm : BitVec 64) (k : Nat) (hk : k < 64) : immField imm k 1 = field imm k 1 :=
  immField_eq imm (k := k) (n := 1) (by omega)

/-- Testing a single bit of the immediate. -/
theorem immField_bit1 (imm : BitVec 64) : (immField imm 0 2 ≠ 0) ↔ field imm 1 1 = 1 := by
  unfold immField field
  have e : imm.sshiftRight 0 &&& BitVec.ofNat 64 2 = ((imm.extractLsb' 1 1).setWidth 64) <<< 1 := by
    apply BitVec.eq_of_getLsbD_eq
    intro i hi
    rw [BitVec.getLsbD_and, BitVec.getLsbD_sshiftRight, BitVec.getLsbD_ofNat, BitVec.getLsbD_shiftLeft,
      BitVec.getLsbD_setWidth, BitVec.getLsbD_extractLsb']
    by_cases h1 : i = 1
    · subst h1; simp; intro _; rfl
    · have : Nat.testBit 2 i = false := by
        rw [show (2 : Nat) = 2 ^ 1 from rfl, Nat.testBit_two_pow]; simp; omega
      rw [this]
      simp
      omega
  rw [e, BitVec.toNat_shiftLeft, BitVec.toNat_setWidth]
  have := (imm.extractLsb' 1 1).isLt
  generalize (imm.extractLsb' 1 1).toNat = x at *
  rw [Nat.shiftLeft_eq]
  omega

theorem sim_shufpd (h : Rel slide m s) {d : Fin 16} {o : XOp} {imm : BitVec 64}
    (ho : XOp.plain o = true) (hs : s.sse (.shufpd d o imm) = some s') : BodyOk slide m (.shufpd d o imm) s' := by
  sse_open hs
  refine h.bin128 ho (by decide) rfl hs (fun a b i hi => ?_)
  have f0 := field_lt imm 0 1
  have f1 := field_lt imm 1 1
  have b1 := immField_bit1 imm
  rcases (show i = 0 ∨ i = 1 by omega) with rfl | rfl
  · rw [shuffle_get (j := field imm 0 1) _ (by omega), if_pos (by omega), if_pos rfl]
    rw [field01 imm 0 (by decide)]
    show some (if field imm 0 1 ≠ 0 then 1 else 0) = _
    congr 1
    split <;> omega
  · rw [shuffle_get (j := 2 + field imm 1 1) _ (by omega), if_neg (by omega), if_neg (by decide),
      Nat.add_sub_cancel_left]
    show some (if immField imm 0 2 ≠ 0 then 3 else 2) = _
    congr 1
    by_cases e : field imm 1 1 = 1
    · rw [if_pos (b1.2 e), e]
    · rw [if_neg (fun hc => e (b1.1 hc))]; omega

theorem immField3 (imm : BitVec 64) {k : Nat} (hk : k ≤ 62) : immField imm k 3 = field imm k 2 :=
  immField_eq imm (k := k) (n := 2) (by omega)

theorem sim_shufps (h : Rel slide m s) {d : Fin 16} {o : XOp} {imm : BitVec 64}
    (ho : XOp.plain o = true) (hs : s.sse (.shufps d o imm) = some s') : BodyOk slide m (.shufps d o imm) s' := by
  sse_open hs
  refine h.bin128 ho (by decide) rfl hs (fun a b i hi => ?_)
  have hf := field_lt imm (2 * i) 2
  have e := range_map_get (n := 4) (fun i => (if i < 2 then 0 else 4) + immField imm (2 * i) 3) hi
  simp only [immField3 imm (show 2 * i ≤ 62 by omega)] at e
  by_cases h2 : i < 2
  · rw [if_pos h2] at e ⊢
    rw [shuffle_get e (by omega), if_pos (by omega), Nat.zero_add]
  · rw [if_neg h2] at e ⊢
    rw [shuffle_get e (by omega), if_neg (by omega), Nat.add_sub_cancel_left]

theorem sim_pshufd (h : Rel slide m s) {d : Fin 16} {o : XOp} {imm : BitVec 64}
    (ho : XOp.plain o = true) (hs : s.sse (.pshufd d o imm) = some s') : BodyOk slide m (.pshufd d o imm) s' := by
  sse_open hs
  refine h.bin128 ho (by decide) rfl hs (fun a b i hi => ?_)
  have hf := field_lt imm (2 * i) 2
  have e := range_map_get (n := 4) (fun i => immField imm (2 * i) 3) hi
  simp only [immField3 imm (show 2 * i ≤ 62 by omega)] at e
  rw [shuffle_get e (by omega), if_pos (by omega)]

/-- PSHUFHW is right only if the bits above the immediate repeat it. -/
def PshufwOk (hi : Bool) (imm : BitVec 64) : Prop :=
  hi = true → ∀ i, i < 4 → field imm (8 + 2 * i) 2 = field imm (2 * i) 2

theorem sim_pshufw (h : Rel slide m s) {hi : Bool} {d : Fin 16} {o : XOp} {imm : BitVec 64}
    (ho : XOp.plain o = true) (hok : PshufwOk hi imm) (hs : s.sse (.pshufw hi d o imm) = some s') :
    BodyOk slide m (.pshufw hi d o imm) s' := by
  sse_open hs
  refine h.bin128 ho (by decide) rfl hs (fun a b i hl => ?_)
  have e := range_map_get (n := 8) (fun i => if (if hi then 4 else 0) ≤ i ∧ i < (if hi then 4 else 0) + 4 then
    (if hi then 4 else 0) + immField imm (2 * i) 3 else i) hl
  simp only [immField3 imm (show 2 * i ≤ 62 by omega)] at e
  have e' : (pshufwMask hi imm)[i]? = _ := e
  have hf := field_lt imm (2 * i) 2
  cases hi
  · simp only [Bool.false_eq_true, if_false, Nat.zero_le, true_and, Nat.zero_add] at e' ⊢
    by_cases h4 : i < 4
    · rw [if_pos h4] at e' ⊢
      rw [shuffle_get e' (by omega), if_pos (by omega)]
    · rw [if_neg h4] at e' ⊢
      rw [shuffle_get e' (by omega), if_pos (by omega)]
  · simp only [if_true] at e' ⊢
    by_cases h4 : i < 4
    · rw [if_neg (by omega)] at e'
      rw [if_pos h4, shuffle_get e' (by omega), if_pos (by omega)]
    · rw [if_pos (by omega)] at e'
      rw [if_neg h4, shuffle_get e' (by omega), if_pos (by omega)]
      have := hok rfl (i - 4) (by omega)
      rw [show 8 + 2 * (i - 4) = 2 * i by omega] at this
      rw [this]

/-- Bits of the zero mask. -/
theorem zmask_bit (imm : BitVec 64) {i : Nat} (hi : i < 4) :
    (immField imm 0 15).testBit i = decide (field imm i 1 = 1) := by
  rw [show (15 : Nat) = 2 ^ 4 - 1 from rfl, immField_eq imm (by decide)]
  unfold field
  rw [← BitVec.getLsbD, BitVec.getLsbD_extractLsb']
  simp only [hi, decide_true, Bool.true_and, Nat.zero_add]
  have e : (imm.extractLsb' i 1).getLsbD 0 = imm.getLsbD i := by simp
  rw [← e, BitVec.getLsbD, Nat.testBit_zero]
  have := (imm.extractLsb' i 1).isLt
  rw [Bool.eq_iff_iff]
  simp only [decide_eq_true_eq]
  omega

theorem sim_insertps (h : Rel slide m s) {d : Fin 16} {o : XOp} {imm : BitVec 64}
    (ho : XOp.plain o = true) (hs : s.sse (.insertps d o imm) = some s') : BodyOk slide m (.insertps d o imm) s' := by
  sse_open hs
  have put : ∀ v : BitVec 32, ∃ m', (if immField imm 0 15 = 0 then
        some (m.setX d 4 ((m.xvec .d d).insert 4 (immField imm 4 3) (some v)))
      else some (m.setX d 4 (Vec.shuffle 4 ((m.xvec .d d).insert 4 (immField imm 4 3) (some v)) Vec.zero
        ((List.range 4).map fun i => if (immField imm 0 15).testBit i then 4 else i)))) = some m' ∧
      Rel slide m' (s.setXs d 32 fun i =>
        if field imm i 1 = 1 then 0 else if i = field imm 4 2 then v else lane 32 (s.vec d) i) := by
    intro v
    have f := field_lt imm 4 2
    have ins : ∀ i, ((m.xvec .d d).insert 4 (immField imm 4 3) (some v)) i =
        some (if i = field imm 4 2 then v else lane 32 (s.vec d) i) := by
      intro i
      rw [h.xvec, immField3 imm (by decide), Vec.insert, if_pos (by omega)]
      split <;> rfl
    by_cases hz : immField imm 0 15 = 0
    · rw [if_pos hz]
      refine ⟨_, rfl, h.setX d rfl fun i hi => ?_⟩
      have := zmask_bit imm hi
      rw [hz, Nat.zero_testBit] at this
      rw [ins, if_neg (show ¬ field imm i 1 = 1 by simpa using this.symm)]
    · rw [if_neg hz]
      refine ⟨_, rfl, h.setX d rfl fun i hi => ?_⟩
      rw [Vec.shuffle_eq (range_map_get _ hi), zmask_bit imm hi]
      by_cases hb : field imm i 1 = 1
      · rw [if_pos (show decide (field imm i 1 = 1) = true by simpa using hb), if_pos hb]; rfl
      · rw [if_neg (show ¬ decide (field imm i 1 = 1) = true by simpa using hb), if_neg hb, if_pos hi, ins]
  unfold S.insertps at hs
  unfold liftInsertps
  cases o with
  | gp r => cases hs
  | x r =>
    cases hs
    have hv : s.xsrc 16 16 (.x r) = some (s.vec r) := by
      simp only [S.xsrc]; congr 1; exact BitVec.extractLsb'_eq_self
    have hl : X86.xloadV slide m .d 4 1 (.x r) = _ := h.xloadV (z := .d) (al := 1) (o := .x r) rfl (by decide) hv
    have f := field_lt imm 6 2
    have ex : Vec.extract 4 (Vec.ofBits Sz.d.bits (some (s.vec r))) (immField imm 6 3) =
        some (lane 32 (s.vec r) (field imm 6 2)) := by
      rw [immField3 imm (by decide), Vec.extract, if_pos (by omega)]; rfl
    simp only [hl, Option.bind_eq_bind, Option.bind_some, Option.map_some, ex]
    exact put _
  | mem a =>
    cases hs
    have hl := h.xload (n := 4) (al := 1) (al' := 1) (o := .mem a) ho (Nat.dvd_refl 1)
        (by rw [S.xsrc, if_pos (Nat.mod_one _)])
    simp only [hl, Option.bind_eq_bind, Option.bind_some]
    exact put _

theorem cnt_pow (z : Sz) : ∃ n, n ≤ 4 ∧ z.cnt = 2 ^ n := by
  cases z
  · exact ⟨4, by decide, rfl⟩
  · exact ⟨3, by decide, rfl⟩
  · exact ⟨2, by decide, rfl⟩
  · exact ⟨1, by decide, rfl⟩

/-- The index of PINSR and PEXTR. -/
theorem immField_idx (z : Sz) (imm : BitVec 64) : immField imm 0 (z.cnt - 1) = field imm 0 8 % (128 / z.bits) := by
  rw [← Sz.cnt_eq]
  obtain ⟨n, hn, e⟩ := cnt_pow z
  rw [e, immField_eq imm (by omega)]
  unfold field
  rw [extract0, extract0, BitVec.toNat_setWidth, BitVec.toNat_setWidth]
  exact (Nat.mod_mod_of_dvd _ (Nat.pow_dvd_pow 2 (by omega))).symm

theorem idx_lt (z : Sz) (imm : BitVec 64) : field imm 0 8 % (128 / z.bits) < z.cnt := by
  rw [← Sz.cnt_eq]; exact Nat.mod_lt _ (by cases z <;> decide)

theorem sim_pinsr (h : Rel slide m s) {z : Sz} {d : Fin 16} {o : XOp} {imm : BitVec 64}
    (ho : XOp.plain o = true) (hs : s.sse (.pinsr z d o imm) = some s') : BodyOk slide m (.pinsr z d o imm) s' := by
  sse_open hs
  obtain ⟨v, hv, hs⟩ := Option.bind_eq_some_iff.1 hs
  cases hs
  simp only [h.xload ho (Nat.dvd_refl 1) hv, Option.bind_eq_bind, Option.bind_some, pure]
  refine ⟨_, rfl, h.setX d z.bits_cnt fun i hi => ?_⟩
  rw [h.xvec, immField_idx, Vec.insert, if_pos (idx_lt z imm)]
  by_cases e : i = field imm 0 8 % (128 / z.bits)
  · rw [if_pos e, if_pos e]
  · rw [if_neg e, if_neg e]; rfl

theorem sim_pextr (h : Rel slide m s) {z : Sz} {d : XOp} {r : Fin 16} {imm : BitVec 64}
    (hd : XOp.plain d = true) (hs : s.sse (.pextr z d r imm) = some s') : BodyOk slide m (.pextr z d r imm) s' := by
  sse_open hs
  unfold liftPextr
  have e : (m.xvec z r).extract z.cnt (immField imm 0 (z.cnt - 1)) =
      some (lane z.bits (s.vec r) (field imm 0 8 % (128 / z.bits))) := by
    rw [h.xvec, immField_idx, Vec.extract, if_pos (idx_lt z imm)]; rfl
  rw [e]
  cases d with
  | x q => cases hs
  | gp q => cases hs; exact ⟨_, rfl, h.setGp q _⟩
  | mem a => cases hs; exact h.xstoreMem hd _ (Nat.mod_one _)

theorem sim_movdup (h : Rel slide m s) {odd : Bool} {z : Sz} {d : Fin 16} {o : XOp} (ho : XOp.plain o = true)
    (ha : z = .q → ∀ a, o = .mem a → (s.ea a).toNat % 8 = 0)
    (hs : s.sse (.movdup odd z d o) = some s') : BodyOk slide m (.movdup odd z d o) s' := by
  unfold BodyOk
  cases z with
  | b => cases hs
  | w => cases hs
  | d =>
    have hs : (s.packed .d d o fun _ b i => b (i / 2 * 2 + (if odd then 1 else 0))) = some s' := hs
    refine h.bin128 (z := .d) (w := 32) (n := 4) (al := 16) (f := fun _ v => Vec.shuffle 4 v v
      ((List.range 4).map fun i => i / 2 * 2 + odd.toNat)) ho (by decide) rfl hs (fun a b i hi => ?_) |> fun ⟨m', h1, h2⟩ => ⟨m', ?_, h2⟩
    · have ho : odd.toNat = 0 ∨ odd.toNat = 1 := by cases odd <;> decide
      refine (shuffle_get (w := 32) (range_map_get (fun i => i / 2 * 2 + odd.toNat) hi) (by omega)).trans ?_
      rw [if_pos (by omega)]
      cases odd <;> rfl
    · rw [← h1]; cases o <;> rfl
  | q =>
    cases odd
    · have hs : (do
          let b ← s.xsrc 8 1 o
          return s.setXs d 64 fun _ => b) = some s' := hs
      obtain ⟨v, hv, hs⟩ := Option.bind_eq_some_iff.1 hs
      cases hs
      cases o with
      | mem a =>
        have hv' : s.xsrc 8 8 (.mem a) = some v := by
          simp only [S.xsrc, Nat.mod_one, if_true] at hv
          simp only [S.xsrc, ha rfl a rfl, if_true, hv]
        have hl : X86.xload slide m (Sz.q.bytes * 1) (Sz.q.bytes * 1) (.mem a) = some (some v) :=
          h.xload (n := 8) ho (Nat.dvd_refl 8) hv'
        simp only [Sse.lift, liftMovdup, X86.xloadV, hl, Option.map_some, Option.bind_eq_bind, Option.bind_some, pure]
        refine ⟨_, rfl, h.setX d rfl fun i hi => ?_⟩
        have e : lane 64 v 0 = v := BitVec.extractLsb'_eq_self
        rcases (show i = 0 ∨ i = 1 by have hi : i < 2 := hi; omega) with rfl | rfl
        · exact congrArg some e
        · exact congrArg some e
      | x q =>
        have hv2 : s.xsrc 16 16 (.x q) = some (s.vec q) := by
          simp only [S.xsrc]; congr 1; exact BitVec.extractLsb'_eq_self
        have hl : X86.xloadV slide m .q Sz.q.cnt (Sz.q.bytes * Sz.q.cnt) (.x q) = _ :=
          h.xloadV (z := .q) (al := 16) (o := .x q) rfl (by decide) hv2
        obtain rfl := Option.some.inj hv
        simp only [Sse.lift, liftMovdup, hl, Option.bind_eq_bind, Option.bind_some, pure]
        refine ⟨_, rfl, h.setX d rfl fun i hi => ?_⟩
        rcases (show i = 0 ∨ i = 1 by have hi : i < 2 := hi; omega) with rfl | rfl <;> rfl
      | gp q =>
        have hl := h.xload (n := 16) (al := 16) (al' := 16) (o := .gp q) rfl (Nat.dvd_refl 16) rfl
        have hl : X86.xloadV slide m .q Sz.q.cnt (Sz.q.bytes * Sz.q.cnt) (.gp q) = _ :=
          congrArg (Option.map (Vec.ofBits Sz.q.bits)) hl
        obtain rfl := Option.some.inj hv
        simp only [Sse.lift, liftMovdup, hl, Option.bind_eq_bind, Option.bind_some, pure]
        refine ⟨_, rfl, h.setX d rfl fun i hi => ?_⟩
        have e : lane 64 ((s.gp q).extractLsb' 0 (8 * 16)) 0 = (s.gp q).extractLsb' 0 (8 * 8) := by
          apply BitVec.eq_of_getLsbD_eq
          intro j hj
          simp [lane, show j < 64 by omega, show j < 128 by omega]
        rcases (show i = 0 ∨ i = 1 by have hi : i < 2 := hi; omega) with rfl | rfl
        · exact congrArg some e
        · exact congrArg some e
    · cases hs

theorem sim_pshiftBytes (h : Rel slide m s) {right : Bool} {d : Fin 16} {imm : BitVec 64} (hi : ImmOk imm)
    (hs : s.sse (.pshiftBytes right d imm) = some s') : BodyOk slide m (.pshiftBytes right d imm) s' := by
  sse_open hs
  cases hs
  refine ⟨_, rfl, h.setX d rfl fun i hl => ?_⟩
  have hk : min (imm.toNat % 2 ^ 32) 16 = min (field imm 0 8) 16 := by
    rcases hi.cases with ⟨h1, h2 | ⟨h2, h3⟩⟩ <;> omega
  rw [hk, h.xvec]
  generalize field imm 0 8 = k
  cases right
  · simp only [Bool.false_eq_true, if_false]
    rw [Vec.shuffle_eq (range_map_get _ hl)]
    by_cases e : k ≤ i
    · rw [if_pos e, if_neg (by omega), if_pos (by omega), show i + (16 - min k 16) - 16 = i - k by omega]; rfl
    · rw [if_neg e, if_pos (by omega)]; rfl
  · simp only [if_true]
    rw [Vec.shuffle_eq (range_map_get _ hl)]
    by_cases e : i + k < 16
    · rw [if_pos e, if_pos (by omega), show i + min k 16 = i + k by omega]; rfl
    · rw [if_neg e, if_neg (by omega), if_pos (by omega)]; rfl

theorem sim_palignr (h : Rel slide m s) {d : Fin 16} {o : XOp} {imm : BitVec 64} (ho : XOp.plain o = true)
    (hi : ImmOk imm) (hs : s.sse (.palignr d o imm) = some s') : BodyOk slide m (.palignr d o imm) s' := by
  sse_open hs
  refine h.bin128 ho (by decide) rfl hs (fun a b i hl => ?_)
  have hk : imm.toNat % 2 ^ 32 = field imm 0 8 ∨ 32 ≤ imm.toNat % 2 ^ 32 ∧ 32 ≤ field imm 0 8 := by
    rcases hi.cases with ⟨h1, h2 | ⟨h2, h3⟩⟩ <;> omega
  unfold palignrV
  generalize imm.toNat % 2 ^ 32 = n at hk
  generalize field imm 0 8 = k at hk
  by_cases h32 : 32 ≤ n
  · rw [if_neg (show ¬ n = 0 by omega), if_neg (show ¬ n = 16 by omega), if_pos h32,
      if_neg (show ¬ i + k < 16 by omega), if_neg (show ¬ i + k < 32 by omega)]
    rfl
  have hk : n = k := by omega
  subst hk
  by_cases h0 : n = 0
  · subst h0
    rw [if_pos rfl, if_pos (by omega)]; rfl
  by_cases h16 : n = 16
  · subst h16
    rw [if_neg (by decide), if_pos rfl, if_neg (by omega), if_pos (by omega), Nat.add_sub_cancel]; rfl
  rw [if_neg h0, if_neg h16, if_neg h32]
  have e := range_map_get (n := 16) (fun i => i + n % 16) hl
  by_cases hg : 16 < n
  · simp only [if_pos hg]
    rw [Vec.shuffle_eq e]
    by_cases hj : i + n % 16 < 16
    · rw [if_pos hj, if_neg (by omega), if_pos (by omega), show i + n - 16 = i + n % 16 by omega]; rfl
    · rw [if_neg hj, if_pos (by omega), if_neg (by omega), if_neg (by omega)]; rfl
  · simp only [if_neg hg]
    refine (shuffle_get (w := 8) e (by omega)).trans ?_
    have : n % 16 = n := Nat.mod_eq_of_lt (by omega)
    rw [this]
    by_cases hj : i + n < 16
    · rw [if_pos hj, if_pos hj]; rfl
    · rw [if_neg hj, if_neg hj, if_pos (by omega)]; rfl

/-! ### FXSAVE and FXRSTOR -/

/-- Slot of an XMM register in the FXSAVE area. -/
def fxSlot (a : BitVec 64) (r : Fin 16) : BitVec 64 := a + BitVec.ofNat 64 (160 + 16 * r.val)

theorem fxSlot_aligned {a : BitVec 64} (ha : a.toNat % 16 = 0) (r : Fin 16) : (fxSlot a r).toNat % 16 = 0 := by
  unfold fxSlot
  rw [BitVec.toNat_add, BitVec.toNat_ofNat]
  have := r.isLt
  omega

theorem fxrstor_fold (a : BitVec 64) (ha : a.toNat % 16 = 0) (l : List (Fin 16)) :
    ∀ {m : St} {s : S}, Rel slide m s →
      ∃ m', l.foldlM (fun (m : St) i => do
          let v ← X86.load m (IR.add (some a) (some (BitVec.ofNat 64 (fxHeader + 16 * i.val)))) 16 16
          return m.mergeX i v) m = some m' ∧
        Rel slide m' { s with vec := fun r => if r ∈ l then s.mem.read (fxSlot a r) 16 else s.vec r } := by
  induction l with
  | nil => intro m s h; exact ⟨m, rfl, by simpa using h⟩
  | cons i l ih =>
    intro m s h
    have hl : X86.load m (IR.add (some a) (some (BitVec.ofNat 64 (fxHeader + 16 * i.val)))) 16 16 =
        some (some (s.mem.read (fxSlot a i) 16)) := h.read (fxSlot a i) 16 16 (fxSlot_aligned ha i)
    obtain ⟨m', h1, h2⟩ := ih (h.merge128 i (s.mem.read (fxSlot a i) 16))
    refine ⟨m', ?_, ?_⟩
    · rw [List.foldlM_cons]
      simp only [hl, Option.bind_eq_bind, Option.bind_some, pure]
      exact h1
    · refine Eq.mp (congrArg (Rel slide m') ?_) h2
      simp only [S.setX]
      congr 1
      funext r
      by_cases h3 : r ∈ l
      · simp [h3]
      · by_cases h4 : r = i <;> simp [h3, h4]

theorem sim_fxrstor (h : Rel slide m s) {o : MemOp} (ho : MemOp.plain o = true)
    (hs : s.sse (.fxrstor o) = some s') : BodyOk slide m (.fxrstor o) s' := by
  sse_open hs
  split at hs
  · cases hs
  next ha =>
    cases hs
    obtain ⟨m', h1, h2⟩ := fxrstor_fold (s.ea o) (by simpa using ha) (List.finRange 16) h
    refine ⟨m', ?_, ?_⟩
    · unfold liftFxrstor
      rw [opAddr_plain h o ho]
      exact h1
    · simpa [List.mem_finRange, fxSlot] using h2

theorem fxsave_fold (a : BitVec 64) (ha : a.toNat % 16 = 0) (l : List (Fin 16)) :
    ∀ {m : St} {s : S}, Rel slide m s →
      ∃ m' mem', l.foldlM (fun (m : St) i =>
          X86.store m (IR.add (some a) (some (BitVec.ofNat 64 (fxHeader + 16 * i.val)))) 16 16 (m.vec i)) m = some m' ∧
        Rel slide m' { s with mem := mem' } ∧
        (∀ r, r ∈ l → mem'.read (fxSlot a r) 16 = s.vec r) ∧
        (∀ r, r ∉ l → mem'.read (fxSlot a r) 16 = s.mem.read (fxSlot a r) 16) ∧
        ∀ p, (p - a).toNat < 160 ∨ 416 ≤ (p - a).toNat → mem' p = s.mem p := by
  induction l with
  | nil => intro m s h; exact ⟨m, s.mem, rfl, h, by simp, by simp, fun _ _ => rfl⟩
  | cons i l ih =>
    intro m s h
    obtain ⟨m1, e1, r1, _⟩ := h.write (fxSlot a i) 16 16 (s.vec i) (fxSlot_aligned ha i)
    obtain ⟨m', mem', e2, r2, k1, k2, k3⟩ := ih r1
    refine ⟨m', mem', ?_, r2, ?_, ?_, ?_⟩
    · rw [List.foldlM_cons, h.vec]
      have e1' : X86.store m (IR.add (some a) (some (BitVec.ofNat 64 (fxHeader + 16 * i.val)))) 16 16
        (some (s.vec i)) = some m1 := e1
      simp only [e1', Option.bind_eq_bind, Option.bind_some]
      exact e2
    · intro r hr
      by_cases hl : r ∈ l
      · exact k1 r hl
      · rw [k2 r hl]
        rcases List.mem_cons.1 hr with rfl | hr
        · exact Mem.read_write _ _ _ _ (by decide)
        · exact absurd hr hl
    · intro r hr
      have hn : r ∉ l ∧ r ≠ i := ⟨fun h => hr (List.mem_cons_of_mem _ h), fun h => hr (h ▸ List.mem_cons_self)⟩
      rw [k2 r hn.1]
      refine Mem.read_write_disjoint _ _ _ _ _ _ fun j hj => ?_
      have hne : r.val ≠ i.val := fun h => hn.2 (Fin.ext h)
      have b1 := r.isLt
      have b2 := i.isLt
      unfold fxSlot
      bv_omega
    · intro p hp
      rw [k3 p hp]
      show Mem.write _ _ _ _ _ = _
      unfold Mem.write
      rw [if_neg]
      have b2 := i.isLt
      unfold fxSlot
      bv_omega

/-- FXSAVE stores every XMM register into its slot and touches nothing outside the 416 bytes; the rest of the
area is zeroed, which is not what the processor does (there is no x87 and MXCSR state to store). -/
theorem fxsave_saves (h : Rel slide m s) {o : MemOp} (ho : MemOp.plain o = true) (ha : (s.ea o).toNat % 16 = 0) :
    ∃ m' mem', (Sse.fxsave o).lift slide m = some m' ∧ Rel slide m' { s with mem := mem' } ∧
      (∀ r, mem'.read (s.ea o + BitVec.ofNat 64 (160 + 16 * r.val)) 16 = s.vec r) ∧
      (∀ p, 416 ≤ (p - s.ea o).toNat → mem' p = s.mem p) ∧ ∀ p, (p - s.ea o).toNat < 160 → mem' p = 0 := by
  obtain ⟨m1, e1, r1, _⟩ := h.write (s.ea o) fxHeader 16 0 ha
  obtain ⟨m', mem', e2, r2, k1, k2, k3⟩ := fxsave_fold (s.ea o) ha (List.finRange 16) r1
  refine ⟨m', mem', ?_, r2, fun r => k1 r (List.mem_finRange r), ?_, ?_⟩
  · show liftFxsave slide m o = some m'
    unfold liftFxsave
    rw [opAddr_plain h o ho]
    simp only [Option.bind_eq_bind, Option.bind_some]
    have e1' : X86.store m (some (s.ea o)) fxHeader 16 (some 0) = some m1 := e1
    rw [e1']
    exact e2
  · intro p hp
    rw [k3 p (.inr hp)]
    show Mem.write _ _ _ _ _ = _
    unfold Mem.write
    rw [if_neg]
    unfold fxHeader
    omega
  · intro p hp
    rw [k3 p (.inl hp)]
    show Mem.write _ _ _ _ _ = _
    unfold Mem.write
    rw [if_pos (show _ < fxHeader from hp)]
    exact BitVec.extractLsb'_zero

/-! ### All instructions -/

/-- The states in which the lifted code of an SSE instruction is proved right. -/
def SseOk (s : S) : Sse → Prop
  | .movq _ d o => XOp.plain d = true ∧ XOp.plain o = true
  | .movs z d o => XOp.plain d = true ∧ XOp.plain o = true ∧ ∀ a, d = .mem a → (s.ea a).toNat % z.bytes = 0
  | .movdq _ d o => XOp.plain d = true ∧ XOp.plain o = true
  | .movnt o _ => MemOp.plain o = true
  | .movhlps _ _ => True
  | .movlp d o => XOp.plain d = true ∧ XOp.plain o = true ∧ ∀ a, d = .mem a → (s.ea a).toNat % 8 = 0
  | .movhp _ d o => XOp.plain d = true ∧ XOp.plain o = true ∧ ∀ a, d = .mem a → (s.ea a).toNat % 8 = 0
  | .bin _ _ _ _ _ o => XOp.plain o = true
  | .addsub _ _ o => XOp.plain o = true
  | .andn _ _ o => XOp.plain o = true
  | .comis _ _ o => XOp.plain o = true
  | .cmp scalar z _ o imm => XOp.plain o = true ∧ ImmOk imm ∧
    (scalar = true → ∀ a, o = .mem a → (s.ea a).toNat % z.bytes = 0)
  | .fminmax _ scalar z _ o => XOp.plain o = true ∧
    (scalar = true → ∀ a, o = .mem a → (s.ea a).toNat % z.bytes = 0)
  | .sqrt _ _ _ o => XOp.plain o = true
  | .cvt k _ o => XOp.plain o = true ∧ CvtOk s k o
  | .cvttsi z iz _ o => XOp.plain o = true ∧ ∀ b, s.xsrc z.bytes 1 o = some b → FitsSi iz.bits b
  | .cvtsi _ _ _ o => XOp.plain o = true
  | .unpck _ _ _ o => XOp.plain o = true
  | .shufpd _ o _ => XOp.plain o = true
  | .shufps _ o _ => XOp.plain o = true
  | .pshufd _ o _ => XOp.plain o = true
  | .pshufw hi _ o imm => XOp.plain o = true ∧ PshufwOk hi imm
  | .insertps _ o _ => XOp.plain o = true
  | .pinsr _ _ o _ => XOp.plain o = true
  | .pextr _ d _ _ => XOp.plain d = true
  | .movdup _ z _ o => XOp.plain o = true ∧ (z = .q → ∀ a, o = .mem a → (s.ea a).toNat % 8 = 0)
  | .pshift _ _ _ c => (∀ o, c = .inl o → XOp.plain o = true) ∧ ∀ imm, c = .inr imm → ImmOk imm
  | .pshiftBytes _ _ imm => ImmOk imm
  | .palignr _ o imm => XOp.plain o = true ∧ ImmOk imm
  | .pavg _ _ o => XOp.plain o = true
  | .pmulh _ _ o => XOp.plain o = true
  | .pmuld _ _ o => XOp.plain o = true
  | .pmaddwd _ o => XOp.plain o = true
  | .padds _ _ _ _ _ o => XOp.plain o = true
  | .psadbw _ o => XOp.plain o = true
  | .pmaddubsw _ o => XOp.plain o = true
  | .pack _ _ _ o => XOp.plain o = true
  | .pcmp _ _ _ o => XOp.plain o = true
  | .pminmax _ _ _ _ o => XOp.plain o = true
  | .pabs _ _ o => XOp.plain o = true
  | .psign _ _ o => XOp.plain o = true
  | .movmsk _ rz _ _ => rz = .q
  | .pmovx _ _ _ _ o => XOp.plain o = true
  | .fxsave _ => True
  | .fxrstor o => MemOp.plain o = true
  | .prefetch o => MemOp.plain o = true
  | .fence => True

theorem sim_sse_body (h : Rel slide m s) (i : Sse) (hok : SseOk s i) (hs : s.sse i = some s') :
    BodyOk slide m i s' := by
  cases i with
  | movq z d o => exact sim_movq h hok.1 hok.2 hs
  | movs z d o => exact sim_movs h hok.1 hok.2.1 hok.2.2 hs
  | movdq al d o => exact sim_movdq h hok.1 hok.2 hs
  | movnt o r => exact sim_movnt h hok hs
  | movhlps d r => exact sim_movhlps h hs
  | movlp d o => exact sim_movlp h hok.1 hok.2.1 hok.2.2 hs
  | movhp pd d o => exact sim_movhp h hok.1 hok.2.1 hok.2.2 hs
  | bin op horz scalar z d o => exact sim_bin h hok hs
  | addsub z d o => exact sim_addsub h hok hs
  | andn z d o => exact sim_andn h hok hs
  | comis z d o => exact sim_comis h hok hs
  | cmp scalar z d o imm => exact sim_cmp h hok.1 hok.2.1 hok.2.2 hs
  | fminmax mx scalar z d o => exact sim_fminmax h hok.1 hok.2 hs
  | sqrt scalar z d o => exact sim_sqrt h hok hs
  | cvt k d o => exact sim_cvt h hok.1 hok.2 hs
  | cvttsi z iz d o => exact sim_cvttsi h hok.1 hok.2 hs
  | cvtsi z iz d o => exact sim_cvtsi h hok hs
  | unpck hi z d o => exact sim_unpck h hok hs
  | shufpd d o imm => exact sim_shufpd h hok hs
  | shufps d o imm => exact sim_shufps h hok hs
  | pshufd d o imm => exact sim_pshufd h hok hs
  | pshufw hi d o imm => exact sim_pshufw h hok.1 hok.2 hs
  | insertps d o imm => exact sim_insertps h hok hs
  | pinsr z d o imm => exact sim_pinsr h hok hs
  | pextr z d r imm => exact sim_pextr h hok hs
  | movdup odd z d o => exact sim_movdup h hok.1 hok.2 hs
  | pshift k z d c => exact sim_pshift h hok.1 hok.2 hs
  | pshiftBytes right d imm => exact sim_pshiftBytes h hok hs
  | palignr d o imm => exact sim_palignr h hok.1 hok.2 hs
  | pavg z d o => exact sim_pavg h hok hs
  | pmulh sgn d o => exact sim_pmulh h hok hs
  | pmuld sgn d o => exact sim_pmuld h hok hs
  | pmaddwd d o => exact sim_pmaddwd h hok hs
  | padds sub sgn horz z d o => exact sim_padds h hok hs
  | psadbw d o => exact sim_psadbw h hok hs
  | pmaddubsw d o => exact sim_pmaddubsw h hok hs
  | pack sgn z d o => exact sim_pack h hok hs
  | pcmp gt z d o => exact sim_pcmp h hok hs
  | pminmax mx sgn z d o => exact sim_pminmax h hok hs
  | pabs z d o => exact sim_pabs h hok hs
  | psign z d o => exact sim_psign h hok hs
  | movmsk z rz d r =>
    cases hok
    exact sim_movmsk h hs
  | pmovx sgn zf zt d o => exact sim_pmovx h hok hs
  | fxsave o => cases hs
  | fxrstor o => exact sim_fxrstor h hok hs
  | prefetch o =>
    cases hs
    refine ⟨m, ?_, h⟩
    show (do let _ ← X86.opAddr slide m o; return m) = some m
    rw [opAddr_plain h o hok]; rfl
  | fence => cases hs; exact ⟨m, rfl, h⟩

end Verif.X86.Spec
