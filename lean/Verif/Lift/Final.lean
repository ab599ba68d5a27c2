import Verif.Lift.Inv
import Verif.Lift.DecodeFacts

/-! The graph at the end of lifting. -/

namespace Verif.Lift

open Verif.Decode Verif.IR

set_option linter.unusedSimpArgs false

variable {P : Type}

/-- Consecutive instructions of a block: the first one is plain and directly before the second. -/
def Follows (cls : Classifier P) (p d : DInstr P) : Prop :=
  p.inst.stop = d.inst.start ∧ (cls p.inst).1 = .other

theorem chain_pair {cls : Classifier P} {fn : Fn P} (hw : WF cls fn) {pre post : List (DInstr P)}
    {p d : DInstr P} (h : fn.instrs = pre ++ p :: d :: post) (hd : d.newBlock = false) :
    Follows cls p d := by
  have h1 : fn.instrs[pre.length + 1]? = some d := by
    rw [h, List.getElem?_append_right (by omega)]; simp
  have h0 : fn.instrs[pre.length]? = some p := by
    rw [h, List.getElem?_append_right (by omega)]; simp
  obtain ⟨j, q, hj, hq, h2, h3⟩ := hw.chain _ _ h1 hd
  have : j = pre.length := by omega
  subst this
  rw [h0] at hq; cases hq
  exact ⟨h2, h3⟩

theorem chain_list {cls : Classifier P} {fn : Fn P} (hw : WF cls fn) (ds : List (DInstr P)) :
    ∀ (pre post : List (DInstr P)) (p : DInstr P), fn.instrs = pre ++ p :: ds ++ post →
      (∀ x ∈ ds, x.newBlock = false) → List.IsChain (Follows cls) (p :: ds) := by
  induction ds with
  | nil => intro pre post p _ _; exact List.IsChain.singleton _
  | cons d ds ih =>
    intro pre post p h hn
    refine List.IsChain.cons_cons ?_ ?_
    · exact chain_pair hw (pre := pre) (post := ds ++ post) (by simpa using h) (hn d (by simp))
    · exact ih (pre ++ [p]) post d (by simpa using h) (fun x hx => hn x (List.mem_cons_of_mem _ hx))

theorem chain_run {cls : Classifier P} {fn : Fn P} (hw : WF cls fn) {bs : List (Run P)}
    (hf : flat bs = fn.instrs) (hs : Shape bs) {b : Run P} (hb : b ∈ bs) :
    List.IsChain (Follows cls) (b.1 :: b.2) := by
  obtain ⟨l1, l2, rfl⟩ := List.append_of_mem hb
  refine chain_list hw b.2 (flat l1) (flat l2) b.1 ?_ (hs b hb).2
  rw [← hf]; simp [flat]

theorem countEntry_instrs (fn : Fn P) (a : Addr) : (countEntry fn a).instrs = fn.instrs := rfl

theorem blockStart_countEntry (fn : Fn P) (e a : Addr) :
    (countEntry fn e).BlockStart a ↔ fn.BlockStart a := Iff.rfl

theorem target_countEntry (fn : Fn P) (e a : Addr) : target (countEntry fn e) a = target fn a := rfl

theorem pcTerm_countEntry (fn : Fn P) (e : Addr) (f : Option Bool) (a b : Addr) :
    pcTerm (countEntry fn e) f a b = pcTerm fn f a b := by
  unfold pcTerm; simp only [target_countEntry]; rfl

theorem termOf_countEntry (L : SLifter P) (fn : Fn P) (e : Addr) (d : DInstr P) :
    termOf L (countEntry fn e) d = termOf L fn d := by
  unfold termOf; simp only [target_countEntry, pcTerm_countEntry]

/-- What is known about the function returned by `lift`. -/
structure Lifted (cls : Classifier P) (L : SLifter P) (fn : Fn P) (g : Graph P) : Prop where
  out : ∃ e bs g0, (∃ d, fn.instrs.head? = some d ∧ d.inst.start = e ∧ L.ok d.inst = true) ∧
    flat bs = fn.instrs ∧ Shape bs ∧ GInv L (countEntry fn e) e bs g0 ∧ g = sealExit g0

theorem hist_head {cls : Classifier P} {h : List (Call P)} {fn : Fn P} (H : Hist cls h fn)
    {d : DInstr P} {ds : List (DInstr P)} (hd : fn.instrs = d :: ds) : d.newBlock = true := by
  by_contra hn
  have hn : d.newBlock = false := by simpa using hn
  obtain ⟨j, p, hj, -⟩ := (wf_hist H).chain 0 d (by rw [hd]; rfl) hn
  omega

theorem lift_first {L : SLifter P} {fn : Fn P} {g g' : Graph P} {d : DInstr P}
    {ds : List (DInstr P)} (hn : d.newBlock = true)
    (h : liftLoop L fn true none g (d :: ds) = .ok g') : L.ok d.inst = true := by
  by_contra hok
  have hok : L.ok d.inst = false := by simpa using hok
  rw [liftLoop_new hn] at h
  cases he : enter fn g d.inst.start with
  | none => rw [he] at h; cases h
  | some r =>
    rw [he] at h
    simp only [Res.cont, inner, hok] at h
    split at h <;> cases h

/-- The invariant of the graph, with any further invariant `I` of the loop that starts to hold. -/
theorem lift_inv_with {cls : Classifier P} {h : List (Call P)} {fn : Fn P} (H : Hist cls h fn)
    {known : Bool} {L : SLifter P} {g : Graph P} (hl : lift known L fn = .ok g)
    (I : List (Run P) → Graph P → Prop) (hI0 : ∀ g, I [] g)
    (hI : ∀ e, WF cls (countEntry fn e) → ∀ bs r g g1 b g', Shape bs → GInv L (countEntry fn e) e bs g →
      (∀ x ∈ bs, x.1.inst.start ≠ r.1.inst.start) → r.1 ∈ fn.instrs →
      enter (countEntry fn e) g r.1.inst.start = some (g1, b) →
      liftRun L (countEntry fn e) g1 b r.1 r.2 = some g' → I bs g → I (bs ++ [r]) g') :
    ∃ e bs g0, (∃ d, fn.instrs.head? = some d ∧ d.inst.start = e ∧ L.ok d.inst = true) ∧
      flat bs = fn.instrs ∧ Shape bs ∧ GInv L (countEntry fn e) e bs g0 ∧ g = sealExit g0 ∧
      I bs g0 := by
  have hw := wf_hist H
  unfold lift at hl
  split at hl
  · cases hl
  next d ds hd =>
    split at hl
    · cases hl
    · simp only at hl
      have hmem : d ∈ fn.instrs := by rw [hd]; simp
      have hw' := countEntry_wf hw hmem
      split at hl
      · cases hl
      next g1 hs =>
        obtain ⟨hG, h0, hbs, -⟩ := start_inv L hw' hs
        split at hl
        next g2 hloop =>
          cases hl
          have hn := hist_head H hd
          rw [countEntry_instrs] at hloop
          have hok : L.ok d.inst = true := by rw [hd] at hloop; exact lift_first hn hloop
          have hnd : ((countEntry fn d.inst.start).instrs.map (fun d => d.inst.start)).Nodup := by
            have := wf_nodup hw
            simpa [Fn.insts, Function.comp_def, countEntry] using this
          have hres : ∀ a, (countEntry fn d.inst.start).BlockStart a → reserved a = false := by
            rintro a ⟨x, hx, rfl, -⟩
            exact notRes_hist H x.inst (by
              simp only [Fn.insts, List.mem_map]; exact ⟨x, hx, rfl⟩)
          obtain ⟨bs, hb1, hb2, hb3, hb4⟩ := loop_inv hw' hnd hres I (hI _ hw') fn.instrs.length fn.instrs true none g1 g2 []
            (Nat.le_refl _) (by rw [hd]; exact hn) (by simp [flat, countEntry])
            (by intro x hx; cases hx)
            (by intro _ x hx; rw [hd] at hx; simp at hx; subst hx; exact hok) hG (hI0 _) hloop
          refine ⟨d.inst.start, bs, g2, ⟨d, by rw [hd]; rfl, rfl, hok⟩, hb1, hb2, hb3, rfl, hb4⟩
        next hloop =>
          cases hl2 : liftLoop L (countEntry fn d.inst.start) true none g1
            (countEntry fn d.inst.start).instrs with
          | ok g2 => exact absurd hl2 (hloop g2)
          | null => rw [hl2] at hl; cases hl
          | ub => rw [hl2] at hl; cases hl

theorem lift_inv {cls : Classifier P} {h : List (Call P)} {fn : Fn P} (H : Hist cls h fn)
    {known : Bool} {L : SLifter P} {g : Graph P} (hl : lift known L fn = .ok g) :
    Lifted cls L fn g := by
  obtain ⟨e, bs, g0, h1, h2, h3, h4, h5, -⟩ := lift_inv_with H hl (fun _ _ => True) (fun _ => trivial)
    (fun _ _ _ _ _ _ _ _ _ _ _ _ _ _ _ => trivial)
  exact ⟨e, bs, g0, h1, h2, h3, h4, h5⟩

end Verif.Lift
