import Verif.Lift.Preds

/-! Lifting has no undefined behaviour under mild conditions. -/

namespace Verif.Lift

open Verif.Decode Verif.IR

set_option linter.unusedSimpArgs false

variable {P : Type}

theorem branchPc_some {cls : Classifier P} {fn : Fn P} (hw : WF cls fn) {g : Graph P}
    (hv : Valid fn g) (b : Id) (f : Option Bool) {a1 a2 : Addr} (h1 : reserved a1 = false)
    (h2 : reserved a2 = false) : ∃ g', branchPc fn g b f a1 a2 = some g' := by
  cases f with
  | some f =>
    cases f
    · exact ⟨_, by rw [branchPc, resolve_some hw hv h2]; rfl⟩
    · exact ⟨_, by rw [branchPc, resolve_some hw hv h1]; rfl⟩
  | none =>
    have h3 := resolve_some hw (ensure_valid hv a1 h1) h2
    refine ⟨branchCond (ensure fn (ensure fn g (target fn a1)) (target fn a2)) b (target fn a1)
      (target fn a2), ?_⟩
    rw [branchPc, resolve_some hw hv h1]
    simp only [h3, Option.map_some]

theorem finishBlock_some {cls : Classifier P} {L : SLifter P} {fn : Fn P} (hw : WF cls fn)
    {g : Graph P} (hv : Valid fn g) {b : Id} {d : DInstr P} {bb : BB P} (hb : g b = some bb)
    (hrf : bb.rf = decide (L.form d.inst ≠ .returned))
    (hres : ∀ a ∈ (L.form d.inst).targets, reserved a = false) :
    ∃ g', finishBlock L fn g b d = some g' := by
  unfold finishBlock
  rw [hb]
  simp only
  split
  · exact ⟨_, rfl⟩
  next hc =>
    split
    · exact ⟨_, rfl⟩
    · cases hf : L.form d.inst with
      | returned => rw [hrf, hf] at hc; simp at hc
      | value => exact branchPc_some hw hv _ _ (by decide) (by decide)
      | const a => exact branchPc_some hw hv _ _ (hres a (by simp [hf, Form.targets])) (by decide)
      | cond a1 a2 =>
        exact branchPc_some hw hv _ _ (hres a1 (by simp [hf, Form.targets]))
          (hres a2 (by simp [hf, Form.targets]))
      | check a => exact branchPc_some hw hv _ _ (hres a (by simp [hf, Form.targets])) (by decide)

theorem enter_some {cls : Classifier P} {fn : Fn P} (hw : WF cls fn) {g : Graph P}
    (hv : Valid fn g) {a : Addr} (h0 : a ≠ 0) (hr : reserved a = false) (hs : fn.BlockStart a)
    (hrf : ∀ bb, g (.at a) = some bb → bb.rf = false) :
    ∃ r, enter fn g a = some r := by
  unfold enter
  rw [resolve_some hw hv hr, target_at h0 hs]
  simp only
  have : (ensure fn g (.at a) (.at a)).isSome := by simp [ensure]
  obtain ⟨bb, hbb⟩ := Option.isSome_iff_exists.1 this
  rw [hbb]
  simp only
  have : bb.rf = false := by
    rcases ensure_cases hbb with h | ⟨-, -, x, -, rfl⟩
    · exact hrf bb h
    · rfl
  rw [this]
  exact ⟨_, rfl⟩

/-- Conditions under which lifting the decoded instructions is defined: there is no code at address
zero, no direct target is one of the two addresses the maps reserve, and code in the middle of a
block does not return. -/
structure Liftable (cls : Classifier P) (L : SLifter P) (fn : Fn P) : Prop where
  nonzero : ∀ i ∈ fn.insts, i.start ≠ 0
  targets : ∀ i ∈ fn.insts, ∀ a ∈ (L.form i).targets, reserved a = false
  plain : ∀ i ∈ fn.insts, (cls i).1 = .other → L.ok i = true → L.form i ≠ .returned

theorem lifted_inner {cls : Classifier P} {L : SLifter P} {fn : Fn P} (hL : Liftable cls L fn) (ds : List (DInstr P)) :
    ∀ (d : DInstr P), List.IsChain (Follows cls) (d :: ds) → (∀ x ∈ d :: ds, x ∈ fn.instrs) →
    ∀ x ∈ (lifted L (d :: ds)).dropLast, L.form x.inst ≠ .returned := by
  induction ds with
  | nil =>
    intro d _ _ x hx
    have : lifted L [d] = [d] := by simp [lifted]
    rw [this] at hx
    simp at hx
  | cons e es ih =>
    intro d hc hm x hx
    rw [lifted] at hx
    split at hx
    next hok =>
      have hne := lifted_ne_nil L e es
      have : (d :: lifted L (e :: es)).dropLast = d :: (lifted L (e :: es)).dropLast := by
        cases h : lifted L (e :: es) with
        | nil => exact absurd h hne
        | cons y ys => rfl
      rw [this] at hx
      rcases List.mem_cons.1 hx with rfl | hx
      · refine hL.plain x.inst ?_ ?_ hok
        · exact List.mem_map.2 ⟨x, hm x (by simp), rfl⟩
        · exact ((List.isChain_cons_cons.1 hc).1).2
      · exact ih e (List.isChain_cons_cons.1 hc).2 (fun y hy => hm y (List.mem_cons_of_mem _ hy)) x hx
    · simp at hx

theorem loop_defined {cls : Classifier P} {L : SLifter P} {fn : Fn P} (hw : WF cls fn) {e : Addr}
    (hnd : (fn.instrs.map (fun d => d.inst.start)).Nodup)
    (hres : ∀ a, fn.BlockStart a → reserved a = false) (hL : Liftable cls L fn) (n : Nat) :
    ∀ (ds : List (DInstr P)) (first : Bool) (cur : Option Id) (g : Graph P) (bs : List (Run P)),
      ds.length ≤ n → endsHere ds = true → flat bs ++ ds = fn.instrs → Shape bs →
      GInv L fn e bs g → liftLoop L fn first cur g ds ≠ .ub := by
  induction n with
  | zero =>
    intro ds first cur g bs hlen hh hfl hsh H
    have : ds = [] := List.length_eq_zero_iff.1 (Nat.le_zero.1 hlen)
    subst this
    rw [liftLoop]; simp
  | succ n ih =>
    intro ds first cur g bs hlen hh hfl hsh H
    cases ds with
    | nil => rw [liftLoop]; simp
    | cons d ds =>
      have hn : d.newBlock = true := hh
      have hmem : d ∈ fn.instrs := by rw [← hfl]; simp
      have hst : fn.BlockStart d.inst.start := ⟨d, hmem, rfl, hn⟩
      have hnew : ∀ x ∈ bs, x.1.inst.start ≠ d.inst.start := by
        intro x hx heq
        rw [← hfl] at hnd
        simp only [List.map_append, List.map_cons] at hnd
        rw [List.nodup_append] at hnd
        refine hnd.2.2 x.1.inst.start ?_ d.inst.start (by simp) heq
        exact List.mem_map.2 ⟨x.1, mem_flat hx, rfl⟩
      obtain ⟨⟨g1, b⟩, he⟩ := enter_some hw H.valid (hL.nonzero d.inst (List.mem_map.2 ⟨d, hmem, rfl⟩))
        (hres _ hst) hst (fun bb hbb => (H.fresh _ _ hbb hnew).2.2.2)
      obtain ⟨hb, ha0, hr, has, bb, hbb, hrf, hg1⟩ := enter_eq hw H.valid he
      have hbt : bb.term = none := by
        rcases ensure_cases hbb with h | ⟨-, -, x, -, rfl⟩
        · exact (H.fresh _ _ h hnew).2.2.1
        · rfl
      have hmem2 : ∀ x ∈ d :: restOf ds, x ∈ fn.instrs := by
        intro x hx
        rw [← hfl]
        refine List.mem_append_right _ ?_
        rcases List.mem_cons.1 hx with rfl | hx
        · exact List.mem_cons_self
        · exact List.mem_cons_of_mem _ ((List.takeWhile_prefix _).subset hx)
      have hrest : ∀ x ∈ restOf ds, x.newBlock = false := by
        intro y hy
        have := List.mem_takeWhile_imp hy
        simpa using this
      have hchain : List.IsChain (Follows cls) (d :: restOf ds) := by
        refine chain_list hw (restOf ds) (flat bs) (after ds) d ?_ hrest
        rw [← hfl]
        conv => lhs; rw [← rest_after ds]
        simp
      -- the block is finished without undefined behaviour
      have hrun : ∃ g2, liftRun L fn g1 b d (restOf ds) = some g2 := by
        have hgb : g1 b = some (bb.initPhis false) := by rw [hg1, hb]; simp [Graph.set]
        obtain ⟨g2, he2⟩ := emitAll_some (lifted L (d :: restOf ds)) hgb rfl
          (lifted_inner hL (restOf ds) d hchain hmem2)
        have hlast : (lifted L (d :: restOf ds)).getLast? = some (lastOf L d (restOf ds)) :=
          List.getLast?_eq_some_getLast (lifted_ne_nil L d (restOf ds))
        obtain ⟨-, hg2⟩ := emitAll_eq (lifted L (d :: restOf ds)) hgb rfl
          (lifted_ne_nil L d (restOf ds)) he2
        rw [hlast] at hg2
        simp only [Option.mem_def, Option.some.injEq, forall_eq'] at hg2
        have hv2 : Valid fn g2 := by
          rw [hg2]
          refine set_valid ?_ hgb rfl
          rw [hg1]
          refine set_valid ?_ hbb rfl
          have := ensure_valid H.valid d.inst.start hr
          rwa [target_at ha0 has] at this
        obtain ⟨g3, hg3⟩ := finishBlock_some (L := L) (d := lastOf L d (restOf ds)) hw hv2 (b := b)
          (bb := { bb.initPhis false with
            body := (bb.initPhis false).body ++ (lifted L (d :: restOf ds)).map DInstr.inst
            rf := decide (L.form (lastOf L d (restOf ds)).inst ≠ .returned) })
          (by rw [hg2]; simp [Graph.set]) rfl
          (hL.targets _ (List.mem_map.2 ⟨_, hmem2 _ (lastOf_mem L d (restOf ds)), rfl⟩))
        exact ⟨g3, by simp only [liftRun, he2, Option.bind_some, hlast, Option.getD_some]; exact hg3⟩
      obtain ⟨g2, hrun⟩ := hrun
      rw [liftLoop_new hn, he]
      simp only [Res.cont]
      by_cases hfirst : first = true → L.ok d.inst = true
      · rw [inner_eq ds first g1 d hfirst, hrun]
        simp only [Res.cont]
        refine ih (after ds) false (some b) g2 (bs ++ [(d, restOf ds)]) ?_ (endsHere_after ds) ?_ ?_
          (ginv_block (r := (d, restOf ds)) hw H hnew hres he hrun)
        · have := congrArg List.length (rest_after ds)
          simp only [List.length_append] at this
          simp only [List.length_cons] at hlen
          omega
        · rw [flat_append, ← hfl]
          conv => rhs; rw [← rest_after ds]
          simp
        · intro x hx
          simp only [List.mem_append, List.mem_singleton] at hx
          rcases hx with hx | rfl
          · exact hsh x hx
          · exact ⟨hn, hrest⟩
      · -- failure at the first instruction
        have : first = true ∧ L.ok d.inst = false := by
          cases first <;> simp_all
        have hgb : g1 b = some (bb.initPhis false) := by rw [hg1, hb]; simp [Graph.set]
        simp only [inner, emit, hgb, BB.initPhis, if_true, this]
        simp

theorem start_some {cls : Classifier P} {fn : Fn P} (hw : WF cls fn) {e : Addr} (h0 : e ≠ 0)
    (hr : reserved e = false) (hs : fn.BlockStart e) : ∃ g, startGraph fn e = some g := by
  unfold startGraph
  have hv0 : Valid fn (fun x => if x = Id.entry then
      some { maxPreds := some 0, init := some .clean, rf := true } else none : Graph P) := by
    intro a bb h; simp at h
  rw [resolve_some hw hv0 hr, target_at h0 hs]
  exact ⟨_, rfl⟩

theorem lift_defined {cls : Classifier P} {h : List (Call P)} {fn : Fn P} (H : Hist cls h fn)
    (known : Bool) {L : SLifter P} (hL : Liftable cls L fn) : lift known L fn ≠ .ub := by
  have hw := wf_hist H
  unfold lift
  split
  · simp
  next d ds hd =>
    split
    · simp
    · simp only
      have hmem : d ∈ fn.instrs := by rw [hd]; simp
      have hw' := countEntry_wf hw hmem
      have hn := hist_head H hd
      have hres : ∀ a, (countEntry fn d.inst.start).BlockStart a → reserved a = false := by
        rintro a ⟨x, hx, rfl, -⟩
        exact notRes_hist H x.inst (by
          simp only [Fn.insts, List.mem_map]; exact ⟨x, hx, rfl⟩)
      have hst : (countEntry fn d.inst.start).BlockStart d.inst.start := ⟨d, hmem, rfl, hn⟩
      obtain ⟨g, hg⟩ := start_some hw' (hL.nonzero d.inst (List.mem_map.2 ⟨d, hmem, rfl⟩))
        (hres _ hst) hst
      rw [hg]
      simp only
      have hnd : ((countEntry fn d.inst.start).instrs.map (fun d => d.inst.start)).Nodup := by
        have := wf_nodup hw
        simpa [Fn.insts, Function.comp_def, countEntry] using this
      have := loop_defined (L := L) hw' hnd hres ⟨hL.nonzero, hL.targets, hL.plain⟩ fn.instrs.length
        fn.instrs true none g [] (Nat.le_refl _) (by rw [hd]; exact hn) (by simp [flat, countEntry])
        (by intro x hx; cases hx) (start_inv L hw' hg).1
      split
      · simp
      next hr => rw [countEntry_instrs]; exact this

/-- When lifting fails: nothing decoded, unknown architecture, or the first instruction. -/
theorem lift_null {cls : Classifier P} {h : List (Call P)} {fn : Fn P} (H : Hist cls h fn)
    (known : Bool) {L : SLifter P} :
    (lift known L fn = .null →
      fn.instrs = [] ∨ known = false ∨ ∃ d, fn.instrs.head? = some d ∧ L.ok d.inst = false) ∧
    ((fn.instrs = [] ∨ known = false) → lift known L fn = .null) ∧
    ((∃ d, fn.instrs.head? = some d ∧ L.ok d.inst = false) → lift known L fn = .null ∨ lift known L fn = .ub) := by
  have hrest : ∀ (fn : Fn P) n (ds : List (DInstr P)) cur g, ds.length ≤ n → liftLoop L fn false cur g ds ≠ .null := by
    intro fn n
    induction n with
    | zero =>
      intro ds cur g hl
      have : ds = [] := List.length_eq_zero_iff.1 (Nat.le_zero.1 hl)
      subst this
      rw [liftLoop]; simp
    | succ n ih =>
      intro ds cur g hl
      cases ds with
      | nil => rw [liftLoop]; simp
      | cons d ds =>
        rw [liftLoop]
        have hlen := skip_length (L.ok d.inst) ds
        simp only [List.length_cons] at hl
        split
        · simp
        · simp
        · split
          · simp
          · simp only [Bool.and_false, Bool.false_eq_true, if_false]
            split
            · split
              · simp
              · exact ih _ _ _ (by omega)
            · exact ih _ _ _ (by omega)
  refine ⟨?_, ?_, ?_⟩
  · intro hl
    unfold lift at hl
    split at hl
    next hd => exact .inl hd
    next d ds hd =>
      split at hl
      next hk => exact .inr (.inl (by simpa using hk))
      · simp only at hl
        split at hl
        · cases hl
        next g hg =>
          split at hl
          · cases hl
          · rw [countEntry_instrs, hd] at hl
            refine .inr (.inr ⟨d, by rw [hd]; rfl, ?_⟩)
            by_contra hok
            have hok : L.ok d.inst = true := by simpa using hok
            have hn := hist_head H hd
            rw [liftLoop_new hn] at hl
            cases he : enter (countEntry fn d.inst.start) g d.inst.start with
            | none => rw [he] at hl; cases hl
            | some r =>
              rw [he] at hl
              simp only [Res.cont, inner, hok, Bool.not_true, Bool.false_and, Bool.false_eq_true,
                if_false] at hl
              split at hl
              · cases hl
              · split at hl
                · split at hl
                  · cases hl
                  · exact hrest _ _ _ _ _ (Nat.le_refl _) hl
                · exact hrest _ _ _ _ _ (Nat.le_refl _) hl
  · rintro (h | h)
    · simp [lift, h]
    · unfold lift
      split
      · rfl
      · simp [h]
  · rintro ⟨d, hd, hok⟩
    unfold lift
    split
    · exact .inl rfl
    next d' ds hds =>
      rw [hds] at hd
      simp only [List.head?_cons, Option.some.injEq] at hd
      subst hd
      split
      · exact .inl rfl
      · simp only
        split
        · exact .inr rfl
        next g hg =>
          rw [countEntry_instrs, hds]
          have hn := hist_head H hds
          rw [liftLoop_new hn]
          cases he : enter (countEntry fn d'.inst.start) g d'.inst.start with
          | none => exact .inr rfl
          | some r =>
            simp only [Res.cont, inner, hok, Bool.not_false, Bool.true_and, if_true]
            cases emit L r.1 r.2 d'.inst with
            | none => exact .inr rfl
            | some g => exact .inl rfl

end Verif.Lift
