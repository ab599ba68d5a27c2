import Verif.X86.SseProofs
import Verif.X86.Flags

/-! Simulation proofs for the SSE data movement, conversion and compare instructions. -/

set_option linter.unusedSimpArgs false
set_option linter.constructorNameAsVariable false

namespace Verif.X86

theorem Sz.bits_pos (z : Sz) : 0 < z.bits := by cases z <;> decide
theorem Sz.cnt_eq (z : Sz) : z.cnt = 128 / z.bits := by cases z <;> rfl
theorem Sz.bits_cnt (z : Sz) : z.bits * z.cnt = 128 := by cases z <;> rfl

end Verif.X86

namespace Verif.X86.Spec

open Verif.IR Verif.Bits

variable {slide : BitVec 64} {m : St} {s s' : S}

/-- The body of an SSE instruction is right in the state `s`. -/
def BodyOk (slide : BitVec 64) (m : St) (i : Sse) (s' : S) : Prop :=
  ∃ m', i.lift slide m = some m' ∧ Rel slide m' s'

theorem ofLanes_single {w : Nat} (hw : 0 < w) (h2 : w * (128 / w) = 128) (v : BitVec w) :
    (ofLanes w (128 / w) fun i => if i = 0 then v else 0).setWidth 128 = v.setWidth 128 := by
  apply BitVec.eq_of_getLsbD_eq
  intro i hi
  rw [BitVec.getLsbD_setWidth, BitVec.getLsbD_setWidth, getLsbD_ofLanes _ _ _ _ hw, h2]
  simp only [hi, decide_true, Bool.true_and]
  by_cases h : i < w
  · rw [if_pos (Nat.div_eq_of_lt h), Nat.mod_eq_of_lt h]
  · rw [if_neg (by rw [Nat.div_eq_zero_iff]; omega), BitVec.getLsbD_of_ge v i (by omega)]
    simp

/-- Writing the low element of a vector of zeros. -/
theorem setXs_single (r : Fin 16) (z : Sz) (v : BitVec z.bits) :
    s.setXs r z.bits (fun i => if i = 0 then v else 0) = s.setX r (v.setWidth 128) := by
  rw [S.setXs, ofLanes_single z.bits_pos (by rw [← Sz.cnt_eq, Sz.bits_cnt])]

theorem setLow_setX (r : Fin 16) {w : Nat} (hw : w ≤ 128) (v : BitVec w) :
    (s.setX r 0).setLow r v = s.setX r (v.setWidth 128) := by
  have : ((0#128).extractLsb' w (128 - w) ++ v).setWidth 128 = v.setWidth 128 := by
    rw [← merge128 w hw]; simp
  simp only [S.setLow, S.setX, if_true]
  congr 1
  funext x
  split
  · exact this
  · rfl

theorem setXs_zero (r : Fin 16) (z : Sz) : s.setXs r z.bits (fun _ => 0) = s.setX r 0 := by
  have h := setXs_single (s := s) r z 0
  have e : (fun i : Nat => if i = 0 then (0 : BitVec z.bits) else 0) = fun _ => 0 := by funext i; split <;> rfl
  rw [e] at h
  rw [h]
  congr 1
  simp

/-- Aligned or not, a store of the lifted code. -/
theorem Rel.xstoreMem (h : Rel slide m s) {o : MemOp} (ho : MemOp.plain o = true) {n al : Nat} (v : BitVec (8 * n))
    (ha : (s.ea o).toNat % al = 0) :
    ∃ m', (do
      let a ← X86.opAddr slide m o
      X86.store m a n al (some v)) = some m' ∧ Rel slide m' (s.store (s.ea o) n v) := by
  obtain ⟨m', h1, h2, _⟩ := h.write (s.ea o) n al v ha
  refine ⟨m', ?_, h2⟩
  rw [opAddr_plain h o ho]
  exact h1

theorem sim_movq (h : Rel slide m s) {z : Sz} {d o : XOp} (hd : XOp.plain d = true) (ho : XOp.plain o = true)
    (hs : s.sse (.movq z d o) = some s') : BodyOk slide m (.movq z d o) s' := by
  unfold S.sse at hs
  obtain ⟨v, hv, hs⟩ := Option.bind_eq_some_iff.1 hs
  have hl := h.xload ho (Nat.dvd_refl 1) hv
  unfold BodyOk Sse.lift
  simp only [hl, Option.bind_eq_bind, Option.bind_some, pure]
  cases d with
  | x r =>
    cases hs
    refine ⟨_, rfl, ?_⟩
    rw [← setXs_single r z v]
    refine h.setX r z.bits_cnt fun i hi => ?_
    simp only [Vec.insert, Vec.zero]
    rw [if_pos (by cases z <;> decide)]
    split <;> rfl
  | gp r =>
    cases hs
    exact ⟨_, rfl, h.store r z v⟩
  | mem a =>
    cases hs
    exact h.xstoreMem hd v (Nat.mod_one _)

theorem lane0 {k w : Nat} (x : BitVec k) : x.extractLsb' 0 w = lane w x 0 := rfl

theorem sim_movs (h : Rel slide m s) {z : Sz} {d o : XOp} (hd : XOp.plain d = true) (ho : XOp.plain o = true)
    (ha : ∀ a, d = .mem a → (s.ea a).toNat % z.bytes = 0)
    (hs : s.sse (.movs z d o) = some s') : BodyOk slide m (.movs z d o) s' := by
  unfold S.sse at hs
  unfold BodyOk Sse.lift
  cases d with
  | x r =>
    cases o with
    | x q =>
      cases hs
      have hl := h.xload (n := z.bytes) (al := 1) (al' := 1) (o := .x q) rfl (Nat.dvd_refl 1) rfl
      simp only [hl, Option.bind_eq_bind, Option.bind_some, xstore]
      exact ⟨_, rfl, h.mergeX r _ (by cases z <;> decide)⟩
    | gp q => cases hs
    | mem a =>
      cases hs
      have hl := h.xload (n := z.bytes) (al := 1) (al' := 1) (o := .mem a) ho (Nat.dvd_refl 1)
        (by rw [S.xsrc, if_pos (Nat.mod_one _)])
      simp only [hl, Option.bind_eq_bind, Option.bind_some, xstore]
      refine ⟨_, rfl, ?_⟩
      rw [← setLow_setX r (show z.bits ≤ 128 by cases z <;> decide), ← setXs_zero r z]
      exact (h.setX r z.bits_cnt fun i hi => rfl).mergeX r _ (by cases z <;> decide)
  | gp r => cases o <;> cases hs
  | mem a =>
    cases o with
    | x q =>
      cases hs
      have hl := h.xload (n := z.bytes) (al := 1) (al' := 1) (o := .x q) rfl (Nat.dvd_refl 1) rfl
      simp only [hl, Option.bind_eq_bind, Option.bind_some, xstore]
      exact h.xstoreMem hd (lane z.bits (s.vec q) 0) (ha a rfl)
    | gp q => cases hs
    | mem q => cases hs

theorem sim_movdq (h : Rel slide m s) {al : Bool} {d o : XOp} (hd : XOp.plain d = true) (ho : XOp.plain o = true)
    (hs : s.sse (.movdq al d o) = some s') : BodyOk slide m (.movdq al d o) s' := by
  unfold S.sse at hs
  obtain ⟨v, hv, hs⟩ := Option.bind_eq_some_iff.1 hs
  have hl := h.xload ho (Nat.dvd_refl _) hv
  unfold BodyOk Sse.lift
  simp only [hl, Option.bind_eq_bind, Option.bind_some, pure]
  have hx : ∀ r, ∃ m', xstore slide m 16 (if al = true then 16 else 1) (.x r) (some v) = some m' ∧
      Rel slide m' (s.setX r v) := fun r => ⟨_, rfl, h.merge128 r v⟩
  cases d with
  | x r => cases o <;> cases hs <;> exact hx r
  | gp r => cases o <;> cases hs
  | mem a =>
    cases o with
    | x q =>
      simp only at hs
      split at hs
      · cases hs
      next hn =>
        cases hs
        refine h.xstoreMem hd v ?_
        cases al
        · exact Nat.mod_one _
        · simpa using hn
    | gp q => cases hs
    | mem q => cases hs

theorem sim_movnt (h : Rel slide m s) {o : MemOp} {r : Fin 16} (ho : MemOp.plain o = true)
    (hs : s.sse (.movnt o r) = some s') : BodyOk slide m (.movnt o r) s' := by
  unfold S.sse at hs
  unfold BodyOk Sse.lift
  simp only at hs
  split at hs
  · cases hs
  next hn =>
    cases hs
    simp only [h.vec]
    exact h.xstoreMem (n := 16) ho (s.vec r) (by simpa using hn)

/-- A 64-bit word from two 32-bit elements of a register. -/
theorem toBits_pair {v : Vec 32} {x : BitVec 128} {j : Nat} (h0 : v 0 = some (lane 32 x (2 * j)))
    (h1 : v 1 = some (lane 32 x (2 * j + 1))) : v.toBits 2 = some (lane 64 x j) := by
  rw [Vec.toBits_eq (f := fun i => lane 32 x (2 * j + i))]
  · congr 1
    apply lane_ext (w := 32) (n := 2)
    intro i hi
    rw [lane_ofLanes _ _ _ _ hi]
    apply BitVec.eq_of_getLsbD_eq
    intro k hk
    simp only [lane, BitVec.getLsbD_extractLsb', hk, decide_true, Bool.true_and,
      show 32 * i + k < 64 by omega]
    congr 1
    omega
  · intro i hi
    rcases (show i = 0 ∨ i = 1 by omega) with rfl | rfl
    · exact h0
    · exact h1

theorem sim_movhlps (h : Rel slide m s) {d r : Fin 16} (hs : s.sse (.movhlps d r) = some s') :
    BodyOk slide m (.movhlps d r) s' := by
  unfold S.sse at hs
  cases hs
  refine ⟨_, rfl, ?_⟩
  unfold St.setX
  rw [toBits_pair (x := s.vec r) (j := 1) (by rw [h.xvec]; rfl) (by rw [h.xvec]; rfl)]
  exact h.mergeX d _ (by decide)

theorem sim_movlp (h : Rel slide m s) {d o : XOp} (hd : XOp.plain d = true) (ho : XOp.plain o = true)
    (ha : ∀ a, d = .mem a → (s.ea a).toNat % 8 = 0)
    (hs : s.sse (.movlp d o) = some s') : BodyOk slide m (.movlp d o) s' := by
  unfold S.sse at hs
  unfold BodyOk Sse.lift
  cases d with
  | x r =>
    cases o with
    | mem a =>
      cases hs
      have hl := h.xload (n := 8) (al := 1) (al' := 1) (o := .mem a) ho (Nat.dvd_refl 1)
        (by rw [S.xsrc, if_pos (Nat.mod_one _)])
      simp only [hl, Option.bind_eq_bind, Option.bind_some, xstore]
      exact ⟨_, rfl, h.mergeX r _ (by decide)⟩
    | _ => cases hs
  | gp r => cases o <;> cases hs
  | mem a =>
    cases o with
    | x q =>
      cases hs
      have hl := h.xload (n := 8) (al := 1) (al' := 1) (o := .x q) rfl (Nat.dvd_refl 1) rfl
      simp only [hl, Option.bind_eq_bind, Option.bind_some, xstore]
      exact h.xstoreMem (n := 8) hd (lane 64 (s.vec q) 0) (ha a rfl)
    | _ => cases hs

/-- A register described by its four 32-bit elements. -/
theorem setXs_pairs (r : Fin 16) (f : Nat → BitVec 32) (g : Nat → BitVec 64)
    (h : ∀ i, i < 4 → f i = lane 32 (g (i / 2)) (i % 2)) : s.setXs r 32 f = s.setXs r 64 g := by
  unfold S.setXs
  refine congrArg (s.setX r) ?_
  apply BitVec.eq_of_getLsbD_eq
  intro i hi
  have e1 : 128 / 32 = 4 := rfl
  have e2 : 128 / 64 = 2 := rfl
  rw [BitVec.getLsbD_setWidth, BitVec.getLsbD_setWidth, e1, e2, getLsbD_ofLanes _ _ _ _ (by decide),
    getLsbD_ofLanes _ _ _ _ (by decide), h _ (by omega)]
  simp only [lane, BitVec.getLsbD_extractLsb', show i % 32 < 32 by omega, decide_true, Bool.true_and, hi]
  rw [show i / 32 / 2 = i / 64 by omega, show 32 * (i / 32 % 2) + i % 32 = i % 64 by omega]

theorem lane_lane {k : Nat} (x : BitVec k) (i : Nat) : lane 32 x i = lane 32 (lane 64 x (i / 2)) (i % 2) := by
  apply BitVec.eq_of_getLsbD_eq
  intro j hj
  simp only [lane, BitVec.getLsbD_extractLsb', hj, decide_true, Bool.true_and, show 32 * (i % 2) + j < 64 by omega]
  congr 1
  omega

theorem sim_movhp (h : Rel slide m s) {pd : Bool} {d o : XOp} (hd : XOp.plain d = true) (ho : XOp.plain o = true)
    (ha : ∀ a, d = .mem a → (s.ea a).toNat % 8 = 0)
    (hs : s.sse (.movhp pd d o) = some s') : BodyOk slide m (.movhp pd d o) s' := by
  unfold S.sse S.movhp at hs
  unfold BodyOk Sse.lift
  have two : ∀ i, i < 2 → i = 0 ∨ i = 1 := by intro i hi; omega
  have low : ∀ (v : BitVec 64) (r : Fin 16) (o : XOp), X86.xload slide m 8 1 o = some (some v) →
      ∃ m', (if pd = true then liftMovhpd slide m (.x r) o else liftMovhps slide m (.x r) o) = some m' ∧
      Rel slide m' (s.setXs r 64 fun i => if i = 0 then lane 64 (s.vec r) 0 else v) := by
    intro v r o hl
    cases pd
    · simp only [Bool.false_eq_true, if_false, liftMovhps, X86.xloadV]
      have hl' : X86.xload slide m (Sz.d.bytes * 2) 1 o = some (some v) := hl
      rw [hl']
      refine ⟨_, rfl, ?_⟩
      rw [← setXs_pairs r (fun i => if i < 2 then lane 32 (s.vec r) i else lane 32 v (i - 2))]
      · refine h.setX r rfl fun i hi => ?_
        rw [h.xvec]
        rcases (show i = 0 ∨ i = 1 ∨ i = 2 ∨ i = 3 by omega) with rfl | rfl | rfl | rfl <;> rfl
      · intro i hi
        rcases (show i = 0 ∨ i = 1 ∨ i = 2 ∨ i = 3 by omega) with rfl | rfl | rfl | rfl
        · exact lane_lane _ 0
        · exact lane_lane _ 1
        · rfl
        · rfl
    · simp only [if_true, liftMovhpd]
      rw [hl]
      refine ⟨_, rfl, h.setX r rfl fun i hi => ?_⟩
      rw [h.xvec]
      rcases two i hi with rfl | rfl <;> rfl
  cases d with
  | x r =>
    cases o with
    | x q =>
      cases hs
      exact low _ r (.x q) (h.xload (n := 8) (al := 1) (al' := 1) (o := .x q) rfl (Nat.dvd_refl 1) rfl)
    | gp q => cases hs
    | mem a =>
      cases hs
      exact low _ r (.mem a) (h.xload (n := 8) (al := 1) (al' := 1) (o := .mem a) ho (Nat.dvd_refl 1)
        (by rw [S.xsrc, if_pos (Nat.mod_one _)]))
  | gp r => cases o <;> cases hs
  | mem a =>
    cases o with
    | x q =>
      cases hs
      have hv : s.xsrc 16 16 (.x q) = some (s.vec q) := by
        simp only [S.xsrc]; congr 1; exact BitVec.extractLsb'_eq_self
      cases pd
      · have hl := h.xloadV (z := .d) (al := 1) (o := .x q) rfl (by decide) hv
        have e : bitcast 64 ((Vec.shuffle 4 (Vec.ofBits Sz.d.bits (some (s.vec q))) Vec.zero [2, 3]).toBits 2) =
            some (lane 64 (s.vec q) 1) := by
          rw [toBits_pair (x := s.vec q) (j := 1) rfl rfl]
          exact congrArg some (BitVec.setWidth_eq _)
        simp only [Bool.false_eq_true, if_false, liftMovhps]
        have hl' : X86.xloadV slide m .d 4 1 (.x q) = _ := hl
        rw [hl']
        simp only [Option.bind_eq_bind, Option.bind_some]
        rw [e]
        exact h.xstoreMem (n := 8) hd (lane 64 (s.vec q) 1) (ha a rfl)
      · have hl := h.xloadV (z := .q) (al := 1) (o := .x q) rfl (by decide) hv
        simp only [if_true, liftMovhpd]
        have hl' : X86.xloadV slide m .q 2 1 (.x q) = _ := hl
        rw [hl']
        exact h.xstoreMem (n := 8) hd (lane 64 (s.vec q) 1) (ha a rfl)
    | gp q => cases hs
    | mem q => cases hs

theorem sim_comis (h : Rel slide m s) {z : Sz} {d : Fin 16} {o : XOp} (ho : XOp.plain o = true)
    (hs : s.sse (.comis z d o) = some s') : BodyOk slide m (.comis z d o) s' := by
  unfold S.sse S.comis at hs
  obtain ⟨v, hv, hs⟩ := Option.bind_eq_some_iff.1 hs
  have hl := h.xload ho (Nat.dvd_refl 1) hv
  cases hs
  unfold BodyOk Sse.lift liftComis
  simp only [hl, Option.bind_eq_bind, Option.bind_some, pure, h.vec, trunc_some]
  refine ⟨_, rfl, ?_⟩
  have e : (s.vec d).setWidth z.bits = lane z.bits (s.vec d) 0 := by rw [← extract0]; rfl
  rw [e]
  refine { gp := h.gp, vec := h.vec, fs := h.fs, gs := h.gs, mem := h.mem, pc := h.pc, fl := ?_ }
  intro f b hb
  have hfc : ∀ p : Fp.Rel → Bool, fcmp p (some (lane z.bits (s.vec d) 0)) (some v) =
      some (BitVec.ofBool (p (Fp.cmp (lane z.bits (s.vec d) 0) v))) := fun p => rfl
  have key : ∀ b', (some b' : Option Bool) = some b → b' = b := fun b' e => by cases e; rfl
  generalize hr : Fp.cmp (lane z.bits (s.vec d) 0) v = r at hb hfc
  cases f with
  | df => exact h.fl .df b hb
  | pf =>
    rw [getF_pf ((BitVec.ofBool (r != .un)).setWidth 8)]
    · cases hb; cases r <;> decide
    · simp only [St.setF, St.setPf]
      show zext 8 (fcmp _ _ (some v)) = _
      rw [hfc]; rfl
  | zf =>
    cases hb
    simp only [St.getF, St.setF, St.setPf, hfc, reduceCtorEq, if_false, if_true]
    cases r <;> rfl
  | cf =>
    cases hb
    simp only [St.getF, St.setF, St.setPf, hfc, reduceCtorEq, if_false, if_true]
    cases r <;> rfl
  | af => cases hb; rfl
  | of => cases hb; rfl
  | sf => cases hb; rfl

end Verif.X86.Spec
