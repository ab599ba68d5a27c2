import Verif.Lift.Blocks
import Mathlib.Data.List.TakeWhile

/-! Invariants of the control-flow graph during the lifting loop. -/

namespace Verif.Lift

open Verif.Decode Verif.IR

set_option linter.unusedSimpArgs false

variable {P : Type}

/-- Successors given by an optional terminator. -/
def succsOpt (o : Option Term) : List Id := (o.map succsOf).getD []

theorem ensureAll_eq {fn : Fn P} (xs : List Id) : ∀ (g : Graph P) (y : Id),
    ensureAll fn g xs y = if y ∈ xs then ensure fn g y y else g y := by
  induction xs with
  | nil => intro g y; simp [ensureAll]
  | cons x xs ih =>
    intro g y
    show ensureAll fn (ensure fn g x) xs y = _
    rw [ih]
    by_cases hy : y = x
    · subst hy
      simp only [List.mem_cons, true_or, if_true]
      split
      · cases y with
        | entry => rfl
        | exit => rfl
        | «at» a => simp [ensure]
      · rfl
    · simp only [List.mem_cons, hy, false_or]
      split
      · cases y with
        | entry => exact ensure_none_ne (by exact hy)
        | exit => exact ensure_none_ne (by exact hy)
        | «at» a =>
          have := ensure_none_ne (fn := fn) (g := g) hy
          simp only [ensure, if_true] at this ⊢
          rw [this]
      · exact ensure_none_ne hy

theorem block_at {fn : Fn P} {g g' : Graph P} {b : Id} {bb : BB P} {o : Option Term}
    (hb : bb.term = none)
    (hg : g' = addTerm fn (g.set b bb) b o) :
    g' b = some { bb with
      term := o
      succs := bb.succs ++ succsOpt o
      preds := bb.preds ++ if b ∈ succsOpt o then [b] else [] } := by
  cases o with
  | none =>
    subst hg
    rcases bb with ⟨mp, pr, su, ini, body, term, rf⟩
    simp only at hb
    subst hb
    simp [addTerm, Graph.set, succsOpt]
  | some tm =>
    subst hg
    have : ensureAll fn (g.set b bb) (succsOf tm) b = some bb :=
      ensureAll_some _ (by simp [Graph.set])
    simp only [addTerm, link, this, Option.map_some, succsOpt, if_true, Option.getD_some]
    by_cases hm : b ∈ succsOf tm <;> simp [hm]

theorem block_other {fn : Fn P} {g g' : Graph P} {b : Id} {bb : BB P} {o : Option Term}
    (hg : g' = addTerm fn (g.set b bb) b o) {y : Id} (hy : y ≠ b) :
    g' y = (if y ∈ succsOpt o then ensure fn g y y else g y).map
      (fun yb => { yb with preds := yb.preds ++ if y ∈ succsOpt o then [b] else [] }) := by
  cases o with
  | none =>
    subst hg
    simp only [addTerm, Graph.set, hy, if_false, succsOpt, Option.map_none, Option.getD_none,
      List.not_mem_nil, List.append_nil]
    cases g y <;> rfl
  | some tm =>
    subst hg
    have : ensureAll fn (g.set b bb) (succsOf tm) y
        = if y ∈ succsOf tm then ensure fn g y y else g y := by
      rw [ensureAll_eq]
      have h1 : (g.set b bb) y = g y := by simp [Graph.set, hy]
      rw [h1]
      have h2 : ensure fn (g.set b bb) y y = ensure fn g y y := by
        cases y <;> simp only [ensure, h1]
      rw [h2]
    simp only [addTerm, link, this, succsOpt, Option.map_some, Option.getD_some, hy, if_false]
    by_cases hm : y ∈ succsOf tm
    · simp only [hm, if_true]
    · simp only [hm, if_false, List.append_nil]

/-- Predecessor and successor lists describe the same edges, given by the terminators. -/
structure Edges (g : Graph P) : Prop where
  succs : ∀ b bb, g b = some bb → bb.succs = succsOpt bb.term
  fwd : ∀ b bb c, g b = some bb → c ∈ bb.succs → ∃ cb, g c = some cb ∧ b ∈ cb.preds
  bwd : ∀ c cb b, g c = some cb → b ∈ cb.preds → ∃ bb, g b = some bb ∧ c ∈ bb.succs
  nodup : ∀ c cb, g c = some cb → cb.preds.Nodup
  noEntry : ∀ b bb, g b = some bb → Id.entry ∉ bb.succs

theorem ensure_self {fn : Fn P} {g : Graph P} {y : Id} {yb : BB P}
    (h : ensure fn g y y = some yb) :
    g y = some yb ∨ g y = none ∧ ∃ a, y = .at a ∧ yb = { maxPreds := some (fn.predsOf a) } := by
  rcases ensure_cases h with h | ⟨h1, -, h3⟩
  · exact .inl h
  · exact .inr ⟨h1, h3⟩

theorem edges_block {fn : Fn P} {g g' : Graph P} {a : Addr} {bb0 bb : BB P} {o : Option Term}
    (he : Edges g)
    (h0 : ensure fn g (.at a) (.at a) = some bb0)
    (hp : bb.preds = bb0.preds) (hs : bb.succs = bb0.succs)
    (ht : bb.term = none) (ht0 : bb0.term = none)
    (hx : (g .exit).isSome)
    (ho : ∀ x ∈ succsOpt o, x = .exit ∨ ∃ c, x = .at c)
    (hg : g' = addTerm fn ((ensure fn g (.at a)).set (.at a) bb) (.at a) o) :
    Edges g' := by
  have hself := block_at ht hg
  have hoth := fun y hy => block_other (y := y) hg hy
  have hens : ∀ y, y ≠ .at a → ensure fn g (.at a) y = g y := fun y hy => ensure_none_ne hy
  have hens2 : ∀ y, y ≠ .at a → ensure fn (ensure fn g (.at a)) y y = ensure fn g y y := by
    intro y hy
    cases y with
    | entry => exact hens _ hy
    | exit => exact hens _ hy
    | «at» c => simp only [ensure, if_true]; rw [if_neg hy]
  have hs0 : bb0.succs = [] := by
    rcases ensure_self h0 with h | ⟨-, c, -, rfl⟩
    · rw [he.succs _ _ h, ht0]; rfl
    · rfl
  have hp0 : ∀ p, p ∈ bb0.preds → ∃ pb, g p = some pb ∧ Id.at a ∈ pb.succs := by
    intro p hp
    rcases ensure_self h0 with h | ⟨-, c, -, rfl⟩
    · exact he.bwd _ _ _ h hp
    · cases hp
  have hnot0 : Id.at a ∉ bb0.preds := by
    intro h
    obtain ⟨pb, h1, h2⟩ := hp0 _ h
    have : pb = bb0 := by
      rcases ensure_self h0 with h | ⟨h, -⟩
      · rw [h] at h1; cases h1; rfl
      · rw [h] at h1; cases h1
    rw [this, hs0] at h2; cases h2
  -- characterization of other blocks
  have hyb : ∀ y yb', y ≠ .at a → g' y = some yb' → ∃ yb, (g y = some yb ∨ (g y = none ∧
      y ∈ succsOpt o ∧ ∃ c, y = .at c ∧ yb = { maxPreds := some (fn.predsOf c) })) ∧
      yb' = { yb with preds := yb.preds ++ if y ∈ succsOpt o then [Id.at a] else [] } := by
    intro y yb' hy h
    rw [hoth y hy] at h
    obtain ⟨yb, h1, rfl⟩ := Option.map_eq_some_iff.1 h
    refine ⟨yb, ?_, rfl⟩
    split at h1
    next hm =>
      rw [hens2 y hy] at h1
      rcases ensure_self h1 with h1 | ⟨h1, h2⟩
      · exact .inl h1
      · exact .inr ⟨h1, hm, h2⟩
    next hm => rw [hens y hy] at h1; exact .inl h1
  have hyb2 : ∀ y yb, y ≠ .at a → g y = some yb →
      g' y = some { yb with preds := yb.preds ++ if y ∈ succsOpt o then [Id.at a] else [] } := by
    intro y yb hy h
    rw [hoth y hy]
    split
    · rw [hens2 y hy, ensure_some h]; rfl
    · rw [hens y hy, h]; rfl
  have hnotold : ∀ y yb, g y = some yb → Id.at a ∉ yb.preds := by
    intro y yb h hm
    obtain ⟨pb, h1, h2⟩ := he.bwd _ _ _ h hm
    have : pb = bb0 := by
      rcases ensure_self h0 with h | ⟨h, -⟩
      · rw [h] at h1; cases h1; rfl
      · rw [h] at h1; cases h1
    rw [this, hs0] at h2; cases h2
  refine ⟨?_, ?_, ?_, ?_, ?_⟩
  · intro y yb' h
    by_cases hy : y = .at a
    · subst hy
      rw [hself] at h; cases h
      simp only [hs, hs0, List.nil_append]
    · obtain ⟨yb, h1, rfl⟩ := hyb y yb' hy h
      rcases h1 with h1 | ⟨-, -, c, -, rfl⟩
      · have := he.succs _ _ h1
        exact this
      · rfl
  · intro y yb' c h hc
    by_cases hy : y = .at a
    · subst hy
      rw [hself] at h; cases h
      simp only [hs, hs0, List.nil_append] at hc
      by_cases hca : c = .at a
      · subst hca
        exact ⟨_, hself, by simp [hc]⟩
      · have hsome : ∃ cb, (if c ∈ succsOpt o then ensure fn (ensure fn g (.at a)) c c
            else ensure fn g (.at a) c) = some cb := by
          rw [if_pos hc, hens2 c hca]
          rcases ho c hc with rfl | ⟨x, rfl⟩
          · exact Option.isSome_iff_exists.1 hx
          · exact ⟨_, by simp only [ensure, if_true]; rfl⟩
        obtain ⟨cb, hcb⟩ := hsome
        refine ⟨_, by rw [hoth c hca, hcb]; rfl, ?_⟩
        simp [hc]
    · obtain ⟨yb, h1, rfl⟩ := hyb y yb' hy h
      rcases h1 with h1 | ⟨-, -, x, -, rfl⟩
      · obtain ⟨cb, h2, h3⟩ := he.fwd _ _ c h1 hc
        by_cases hca : c = .at a
        · subst hca
          refine ⟨_, hself, ?_⟩
          have : cb = bb0 := by rw [ensure_some h2] at h0; cases h0; rfl
          subst this
          simp [hp, h3]
        · exact ⟨_, hyb2 c cb hca h2, by simp [h3]⟩
      · cases hc
  · intro c cb' p h hpm
    have hold : ∀ p pb, g p = some pb → c ∈ pb.succs → ∃ pb', g' p = some pb' ∧ c ∈ pb'.succs := by
      intro p pb h1 h2
      by_cases hpa : p = .at a
      · subst hpa
        have : pb = bb0 := by rw [ensure_some h1] at h0; cases h0; rfl
        subst this
        rw [hs0] at h2; cases h2
      · exact ⟨_, hyb2 p pb hpa h1, h2⟩
    by_cases hca : c = .at a
    · subst hca
      rw [hself] at h; cases h
      simp only [List.mem_append] at hpm
      rcases hpm with hpm | hpm
      · rw [hp] at hpm
        obtain ⟨pb, h1, h2⟩ := hp0 p hpm
        exact hold p pb h1 h2
      · split at hpm
        next hm =>
          simp only [List.mem_singleton] at hpm; subst hpm
          exact ⟨_, hself, by simp [hm]⟩
        · cases hpm
    · obtain ⟨cb, h1, rfl⟩ := hyb c cb' hca h
      simp only [List.mem_append] at hpm
      rcases hpm with hpm | hpm
      · rcases h1 with h1 | ⟨-, -, x, -, rfl⟩
        · obtain ⟨pb, h2, h3⟩ := he.bwd _ _ p h1 hpm
          exact hold p pb h2 h3
        · cases hpm
      · split at hpm
        next hm =>
          simp only [List.mem_singleton] at hpm; subst hpm
          exact ⟨_, hself, by simp [hm]⟩
        · cases hpm
  · intro c cb' h
    by_cases hca : c = .at a
    · subst hca
      rw [hself] at h; cases h
      simp only [hp]
      have hn : bb0.preds.Nodup := by
        rcases ensure_self h0 with h | ⟨-, x, -, rfl⟩
        · exact he.nodup _ _ h
        · exact List.nodup_nil
      split
      · exact List.nodup_append.2 ⟨hn, by simp, by
          intro x hx y hy; simp only [List.mem_singleton] at hy; subst hy
          rintro rfl; exact hnot0 hx⟩
      · simpa using hn
    · obtain ⟨cb, h1, rfl⟩ := hyb c cb' hca h
      have hn : cb.preds.Nodup ∧ Id.at a ∉ cb.preds := by
        rcases h1 with h1 | ⟨-, -, x, -, rfl⟩
        · exact ⟨he.nodup _ _ h1, hnotold _ _ h1⟩
        · exact ⟨List.nodup_nil, by simp⟩
      simp only
      split
      · exact List.nodup_append.2 ⟨hn.1, by simp, by
          intro x hx y hy; simp only [List.mem_singleton] at hy; subst hy
          rintro rfl; exact hn.2 hx⟩
      · simpa using hn.1
  · intro y yb' h
    by_cases hy : y = .at a
    · subst hy
      rw [hself] at h; cases h
      simp only [hs, hs0, List.nil_append]
      intro hm
      rcases ho _ hm with h | ⟨c, h⟩ <;> cases h
    · obtain ⟨yb, h1, rfl⟩ := hyb y yb' hy h
      rcases h1 with h1 | ⟨-, -, x, -, rfl⟩
      · have := he.noEntry _ _ h1
        exact this
      · simp

/-- A block: its first instruction and the others. -/
abbrev Run (P : Type) := DInstr P × List (DInstr P)

/-- All instructions of a list of blocks. -/
def flat (bs : List (Run P)) : List (DInstr P) := bs.flatMap (fun b => b.1 :: b.2)

/-- Only the first instruction of a block is marked as block start. -/
def Shape (bs : List (Run P)) : Prop :=
  ∀ b ∈ bs, b.1.newBlock = true ∧ ∀ x ∈ b.2, x.newBlock = false

/-- A finished block. -/
structure Built (L : SLifter P) (fn : Fn P) (b : Run P) (bb : BB P) : Prop where
  body : bb.body = (lifted L (b.1 :: b.2)).map DInstr.inst
  term : bb.term = termOf L fn (lastOf L b.1 b.2)
  rf : bb.rf = decide (L.form (lastOf L b.1 b.2).inst ≠ .returned)
  init : bb.init.isSome
  inner : ∀ x ∈ (lifted L (b.1 :: b.2)).dropLast, L.form x.inst ≠ .returned

/-- The graph after the blocks `bs` have been lifted. -/
structure GInv (L : SLifter P) (fn : Fn P) (e : Addr) (bs : List (Run P)) (g : Graph P) : Prop where
  valid : Valid fn g
  entryB : g .entry = some { maxPreds := some 0, init := some .clean, rf := true,
                             term := some (.br (.at e)), succs := [.at e] }
  exitB : ∃ pr, g .exit = some { maxPreds := none, preds := pr }
  edges : Edges g
  fresh : ∀ a bb, g (.at a) = some bb → (∀ b ∈ bs, b.1.inst.start ≠ a) →
    bb.init = none ∧ bb.body = [] ∧ bb.term = none ∧ bb.rf = false
  built : ∀ b ∈ bs, b.1.inst.start ≠ 0 ∧
    ∃ bb, g (.at b.1.inst.start) = some bb ∧ Built L fn b bb
  parent : ∀ a bb p, g (.at a) = some bb → bb.init = some (.parent p) →
    bb.maxPreds = some 1 ∧ p ∈ bb.preds
  noClean : ∀ a bb, g (.at a) = some bb → bb.init ≠ some .clean

theorem pcTerm_succs (fn : Fn P) (f : Option Bool) (a b : Addr) :
    ∀ x ∈ succsOf (pcTerm fn f a b), x = target fn a ∨ x = target fn b := by
  intro x hx
  cases f with
  | some f => cases f <;> simp only [pcTerm, succsOf, List.mem_singleton] at hx <;> simp [hx]
  | none =>
    simp only [pcTerm] at hx
    split at hx
    · simp only [succsOf, List.mem_singleton] at hx; exact .inl hx
    · simp only [succsOf, List.mem_cons, List.not_mem_nil, or_false] at hx; exact hx

theorem termOf_succs (L : SLifter P) (fn : Fn P) (d : DInstr P) :
    ∀ x ∈ succsOpt (termOf L fn d), x = .exit ∨ ∃ c, x = .at c := by
  have ht : ∀ a, target fn a = .exit ∨ ∃ c, target fn a = .at c := by
    intro a
    rcases target_exit_or fn a with h | h
    · exact .inl h
    · exact .inr ⟨a, h⟩
  have hp : ∀ f a b, ∀ x ∈ succsOf (pcTerm fn f a b), x = .exit ∨ ∃ c, x = .at c := by
    intro f a b x hx
    rcases pcTerm_succs fn f a b x hx with rfl | rfl
    · exact ht a
    · exact ht b
  intro x hx
  unfold termOf at hx
  split at hx
  · cases hx
  · simp only [succsOpt, Option.map_some, Option.getD_some, succsOf, List.mem_singleton] at hx
    exact .inl hx
  next a _ =>
    split at hx
    · simp only [succsOpt, Option.map_some, Option.getD_some, succsOf, List.mem_singleton] at hx
      exact .inl hx
    · simp only [succsOpt, Option.map_some, Option.getD_some, succsOf, List.mem_singleton] at hx
      subst hx; exact ht a
  next a b _ =>
    split at hx
    · simp only [succsOpt, Option.map_some, Option.getD_some, succsOf, List.mem_singleton] at hx
      exact .inl hx
    · exact hp _ _ _ x hx
  next a _ =>
    split at hx
    · simp only [succsOpt, Option.map_some, Option.getD_some, succsOf, List.mem_singleton] at hx
      exact .inl hx
    · exact hp _ _ _ x hx

theorem pcTerm_valid (fn : Fn P) (L : SLifter P) (d : DInstr P) (c : Addr)
    (h : Id.at c ∈ succsOpt (termOf L fn d)) : c ≠ 0 ∧ fn.BlockStart c := by
  have ht : ∀ a, Id.at c = target fn a → c ≠ 0 ∧ fn.BlockStart c := by
    intro a h
    unfold target at h
    split at h
    next ha => cases h; exact ha
    · cases h
  have hp : ∀ f a b, Id.at c ∈ succsOf (pcTerm fn f a b) → c ≠ 0 ∧ fn.BlockStart c := by
    intro f a b hx
    rcases pcTerm_succs fn f a b _ hx with h | h
    · exact ht a h
    · exact ht b h
  unfold termOf at h
  split at h
  · cases h
  · simp [succsOpt, succsOf] at h
  next a _ =>
    split at h
    · simp [succsOpt, succsOf] at h
    · simp only [succsOpt, Option.map_some, Option.getD_some, succsOf, List.mem_singleton] at h
      exact ht a h
  · split at h
    · simp [succsOpt, succsOf] at h
    · exact hp _ _ _ h
  · split at h
    · simp [succsOpt, succsOf] at h
    · exact hp _ _ _ h

theorem ginv_block {cls : Classifier P} {L : SLifter P} {fn : Fn P} (hw : WF cls fn) {e : Addr}
    {bs : List (Run P)} {g g1 g' : Graph P} {b : Id} {r : Run P} (H : GInv L fn e bs g)
    (hnew : ∀ x ∈ bs, x.1.inst.start ≠ r.1.inst.start)
    (hres : ∀ a, fn.BlockStart a → reserved a = false)
    (h1 : enter fn g r.1.inst.start = some (g1, b)) (h2 : liftRun L fn g1 b r.1 r.2 = some g') :
    GInv L fn e (bs ++ [r]) g' := by
  have hterm : ∀ bb, g (.at r.1.inst.start) = some bb → bb.term = none :=
    fun bb hbb => (H.fresh _ bb hbb hnew).2.2.1
  obtain ⟨ha0, hares, has, hinner, bb0, hbb0, hrf0, hg'⟩ := block_eq hw H.valid h1 h2 hterm
  generalize ha : r.1.inst.start = a at *
  have hb0 : bb0.body = [] ∧ bb0.term = none ∧ bb0.init = none ∧ bb0.maxPreds = some (fn.predsOf a) := by
    rcases ensure_self hbb0 with h | ⟨-, c, hc, rfl⟩
    · have := H.fresh a bb0 h hnew
      exact ⟨this.2.1, this.2.2.1, this.1, (H.valid a bb0 h).2.2.2⟩
    · cases hc; exact ⟨rfl, rfl, rfl, rfl⟩
  generalize hbb : ({ bb0.initPhis false with
            body := bb0.body ++ (lifted L (r.1 :: r.2)).map DInstr.inst
            rf := decide (L.form (lastOf L r.1 r.2).inst ≠ .returned) } : BB P) = bb at hg'
  generalize ho : termOf L fn (lastOf L r.1 r.2) = o at hg'
  have hbbt : bb.term = none := by rw [← hbb]; exact hb0.2.1
  have hos := termOf_succs L fn (lastOf L r.1 r.2)
  have hov := pcTerm_valid fn L (lastOf L r.1 r.2)
  rw [ho] at hos hov
  obtain ⟨pr, hex⟩ := H.exitB
  have hxs : (g .exit).isSome := by rw [hex]; rfl
  have hself := block_at hbbt hg'
  have hoth := fun y hy => block_other (y := y) hg' hy
  have hens : ∀ y, y ≠ .at a → ensure fn g (.at a) y = g y := fun y hy => ensure_none_ne hy
  have hens2 : ∀ y, y ≠ .at a → ensure fn (ensure fn g (.at a)) y y = ensure fn g y y := by
    intro y hy
    cases y with
    | entry => exact hens _ hy
    | exit => exact hens _ hy
    | «at» c => simp only [ensure, if_true]; rw [if_neg hy]
  have hyb : ∀ c cb', c ≠ a → g' (.at c) = some cb' → ∃ cb, (g (.at c) = some cb ∨
      (g (.at c) = none ∧ Id.at c ∈ succsOpt o ∧ cb = { maxPreds := some (fn.predsOf c) })) ∧
      cb' = { cb with preds := cb.preds ++ if Id.at c ∈ succsOpt o then [Id.at a] else [] } := by
    intro c cb' hc h
    have hy : Id.at c ≠ Id.at a := by intro h; cases h; exact hc rfl
    rw [hoth _ hy] at h
    obtain ⟨yb, h1, rfl⟩ := Option.map_eq_some_iff.1 h
    refine ⟨yb, ?_, rfl⟩
    split at h1
    next hm =>
      rw [hens2 _ hy] at h1
      rcases ensure_self h1 with h1 | ⟨h1, x, hx, h2⟩
      · exact .inl h1
      · cases hx; exact .inr ⟨h1, hm, h2⟩
    next hm => rw [hens _ hy] at h1; exact .inl h1
  have hkeep : ∀ y yb, y ≠ .at a → g y = some yb →
      g' y = some { yb with preds := yb.preds ++ if y ∈ succsOpt o then [Id.at a] else [] } := by
    intro y yb hy h
    rw [hoth y hy]
    split
    · rw [hens2 y hy, ensure_some h]; rfl
    · rw [hens y hy, h]; rfl
  refine ⟨?_, ?_, ?_, ?_, ?_, ?_, ?_, ?_⟩
  · -- valid
    intro c cb' h
    by_cases hc : c = a
    · subst hc
      rw [hself] at h; cases h
      refine ⟨ha0, hares, has, ?_⟩
      rw [← hbb]; exact hb0.2.2.2
    · obtain ⟨cb, h1, rfl⟩ := hyb c cb' hc h
      rcases h1 with h1 | ⟨-, h1, rfl⟩
      · have := H.valid c cb h1; exact this
      · have := hov c h1
        exact ⟨this.1, hres c this.2, this.2, rfl⟩
  · -- entry
    rw [hkeep .entry _ (by simp) H.entryB]
    have : Id.entry ∉ succsOpt o := by
      intro h; rcases hos _ h with h | ⟨c, h⟩ <;> cases h
    simp [this]
  · exact ⟨_, hkeep .exit _ (by simp) hex⟩
  · refine edges_block (bb := bb) (bb0 := bb0) H.edges hbb0 ?_ ?_ hbbt hb0.2.1 hxs hos hg'
    · rw [← hbb]; rfl
    · rw [← hbb]; rfl
  · -- fresh
    intro c cb' h hn
    have hc : c ≠ a := by
      have := hn r (by simp); rw [ha] at this; exact fun h => this h.symm
    obtain ⟨cb, h1, rfl⟩ := hyb c cb' hc h
    rcases h1 with h1 | ⟨-, -, rfl⟩
    · have := H.fresh c cb h1 (fun b hb => hn b (by simp [hb])); exact this
    · exact ⟨rfl, rfl, rfl, rfl⟩
  · -- built
    intro x hx
    simp only [List.mem_append, List.mem_singleton] at hx
    rcases hx with hx | rfl
    · obtain ⟨h0, xb, hxb, hB⟩ := H.built x hx
      have hne := hnew x hx
      refine ⟨h0, _, hkeep _ xb (by intro h; cases h; exact hne rfl) hxb, ?_⟩
      exact ⟨hB.body, hB.term, hB.rf, hB.init, hB.inner⟩
    · rw [ha]
      refine ⟨ha0, _, hself, ?_⟩
      refine ⟨?_, ho.symm, ?_, ?_, hinner⟩
      · rw [← hbb]; simp [hb0.1]
      · rw [← hbb]
      · rw [← hbb]; rfl
  · -- parent
    intro c cb' p h hp
    by_cases hc : c = a
    · subst hc
      rw [hself] at h; cases h
      simp only [← hbb, BB.initPhis, Bool.false_or, Option.some.injEq] at hp ⊢
      split at hp
      next q hq =>
        split at hp
        next hm =>
          cases hp
          refine ⟨by simpa using hm, by simp [hq]⟩
        · cases hp
      · cases hp
    · obtain ⟨cb, h1, rfl⟩ := hyb c cb' hc h
      rcases h1 with h1 | ⟨-, -, rfl⟩
      · have := H.parent c cb p h1 hp
        exact ⟨this.1, by simp [this.2]⟩
      · cases hp
  · intro c cb' h
    by_cases hc : c = a
    · subst hc
      rw [hself] at h; cases h
      simp only [← hbb, BB.initPhis]
      split
      · split <;> simp
      · simp
    · obtain ⟨cb, h1, rfl⟩ := hyb c cb' hc h
      rcases h1 with h1 | ⟨-, -, rfl⟩
      · have := H.noClean c cb h1; exact this
      · simp

theorem start_inv {cls : Classifier P} (L : SLifter P) {fn : Fn P} (hw : WF cls fn) {e : Addr}
    {g : Graph P} (h : startGraph fn e = some g) :
    GInv L fn e [] g ∧ e ≠ 0 ∧ fn.BlockStart e ∧
      g = fun x => match x with
        | .entry => some { maxPreds := some 0, init := some .clean, rf := true,
                           term := some (.br (.at e)), succs := [.at e] }
        | .exit => some { maxPreds := none }
        | .at a => if a = e then some { maxPreds := some (fn.predsOf e), preds := [.entry] } else none := by
  unfold startGraph at h
  have hv0 : Valid fn (fun x => if x = Id.entry then
      some { maxPreds := some 0, init := some .clean, rf := true } else none : Graph P) := by
    intro a bb h; simp at h
  split at h
  · cases h
  · cases h
  · cases h
  next g1 a hr =>
    have hres := resolve_reserved hr
    obtain ⟨h1, h2⟩ := resolve_eq hw hv0 hr
    have hx : e ≠ 0 ∧ fn.BlockStart e ∧ a = e := by
      unfold target at h1
      split at h1
      next ha => cases h1; exact ⟨ha.1, ha.2, rfl⟩
      · cases h1
    obtain ⟨h0, hs, rfl⟩ := hx
    have hg : g = fun x => match x with
        | .entry => some { maxPreds := some 0, init := some .clean, rf := true,
                           term := some (.br (.at a)), succs := [.at a] }
        | .exit => some { maxPreds := none }
        | .at c => if c = a then some { maxPreds := some (fn.predsOf a), preds := [.entry] } else none := by
      simp only [Option.some.injEq] at h
      rw [← h, h2, branchTo_eq]
      funext x
      cases x with
      | entry => simp [Graph.set, link, ensure, succsOf]
      | exit => simp [Graph.set]
      | «at» c =>
        by_cases hc : c = a
        · subst hc; simp [Graph.set, link, ensure, succsOf]
        · simp [Graph.set, link, ensure, hc]
    refine ⟨?_, h0, hs, hg⟩
    subst hg
    refine ⟨?_, rfl, ⟨[], rfl⟩, ⟨?_, ?_, ?_, ?_, ?_⟩, ?_, by simp, ?_, ?_⟩
    · intro c bb h
      simp only at h
      split at h
      next hc => subst hc; cases h; exact ⟨h0, hres, hs, rfl⟩
      · cases h
    · intro b bb h
      cases b with
      | entry => cases h; rfl
      | exit => cases h; rfl
      | «at» c => simp only at h; split at h <;> cases h; rfl
    · intro b bb c h hc
      cases b with
      | entry =>
        cases h
        simp only [List.mem_singleton] at hc; subst hc
        exact ⟨{ maxPreds := some (fn.predsOf a), preds := [.entry] }, by simp, by simp⟩
      | exit => cases h; cases hc
      | «at» x => simp only at h; split at h <;> cases h; cases hc
    · intro c cb b h hb
      cases c with
      | entry => cases h; cases hb
      | exit => cases h; cases hb
      | «at» x =>
        simp only at h
        split at h
        next hx =>
          subst hx; cases h
          simp only [List.mem_singleton] at hb; subst hb
          exact ⟨_, rfl, by simp⟩
        · cases h
    · intro c cb h
      cases c with
      | entry => cases h; simp
      | exit => cases h; simp
      | «at» x => simp only at h; split at h <;> cases h; simp
    · intro b bb h
      cases b with
      | entry => cases h; simp
      | exit => cases h; simp
      | «at» x => simp only at h; split at h <;> cases h; simp
    · intro c bb h _
      simp only at h
      split at h <;> cases h
      exact ⟨rfl, rfl, rfl, rfl⟩
    · intro c bb p h hp
      simp only at h
      split at h <;> cases h
      cases hp
    · intro c bb h
      simp only at h
      split at h <;> cases h
      simp

theorem flat_append (bs : List (Run P)) (r : Run P) :
    flat (bs ++ [r]) = flat bs ++ (r.1 :: r.2) := by
  simp [flat]

theorem mem_flat {bs : List (Run P)} {b : Run P} (h : b ∈ bs) : b.1 ∈ flat bs := by
  simp only [flat, List.mem_flatMap]
  exact ⟨b, h, by simp⟩

/-- The lifting loop handles all blocks, one after the other; `I` is any further invariant. -/
theorem loop_inv {cls : Classifier P} {L : SLifter P} {fn : Fn P} (hw : WF cls fn) {e : Addr}
    (hnd : (fn.instrs.map (fun d => d.inst.start)).Nodup)
    (hres : ∀ a, fn.BlockStart a → reserved a = false)
    (I : List (Run P) → Graph P → Prop)
    (hI : ∀ bs r g g1 b g', Shape bs → GInv L fn e bs g →
      (∀ x ∈ bs, x.1.inst.start ≠ r.1.inst.start) → r.1 ∈ fn.instrs →
      enter fn g r.1.inst.start = some (g1, b) → liftRun L fn g1 b r.1 r.2 = some g' →
      I bs g → I (bs ++ [r]) g') (n : Nat) :
    ∀ (ds : List (DInstr P)) (first : Bool) (cur : Option Id) (g g' : Graph P) (bs : List (Run P)),
      ds.length ≤ n → endsHere ds = true → flat bs ++ ds = fn.instrs → Shape bs →
      (first = true → ∀ d ∈ ds.head?, L.ok d.inst = true) →
      GInv L fn e bs g → I bs g → liftLoop L fn first cur g ds = .ok g' →
      ∃ bs', flat bs' = fn.instrs ∧ Shape bs' ∧ GInv L fn e bs' g' ∧ I bs' g' := by
  induction n with
  | zero =>
    intro ds first cur g g' bs hlen hh hfl hsh hok H hi h
    have : ds = [] := List.length_eq_zero_iff.1 (Nat.le_zero.1 hlen)
    subst this
    rw [liftLoop] at h
    cases h
    exact ⟨bs, by simpa using hfl, hsh, H, hi⟩
  | succ n ih =>
    intro ds first cur g g' bs hlen hh hfl hsh hok H hi h
    cases ds with
    | nil =>
      rw [liftLoop] at h
      cases h
      exact ⟨bs, by simpa using hfl, hsh, H, hi⟩
    | cons d ds =>
      have hn : d.newBlock = true := hh
      rw [liftLoop_new hn] at h
      cases he : enter fn g d.inst.start with
      | none => rw [he] at h; cases h
      | some r =>
        obtain ⟨g1, b⟩ := r
        rw [he] at h
        simp only [Res.cont] at h
        rw [inner_eq ds first g1 d (fun hf => hok hf d (by simp))] at h
        cases hr : liftRun L fn g1 b d (restOf ds) with
        | none => rw [hr] at h; cases h
        | some g2 =>
          rw [hr] at h
          simp only [Res.cont] at h
          have hmem : d ∈ fn.instrs := by rw [← hfl]; simp
          have hnew : ∀ x ∈ bs, x.1.inst.start ≠ d.inst.start := by
            intro x hx heq
            rw [← hfl] at hnd
            simp only [List.map_append, List.map_cons] at hnd
            rw [List.nodup_append] at hnd
            refine hnd.2.2 x.1.inst.start ?_ d.inst.start (by simp) heq
            exact List.mem_map.2 ⟨x.1, mem_flat hx, rfl⟩
          have H' := ginv_block (r := (d, restOf ds)) hw H hnew hres he hr
          have hi' := hI bs (d, restOf ds) g g1 b g2 hsh H hnew hmem he hr hi
          refine ih (after ds) false (some b) g2 g' (bs ++ [(d, restOf ds)]) ?_ (endsHere_after ds)
            ?_ ?_ (by simp) H' hi' h
          · have := congrArg List.length (rest_after ds)
            simp only [List.length_append] at this
            simp only [List.length_cons] at hlen
            omega
          · rw [flat_append, ← hfl]
            conv => rhs; rw [← rest_after ds]
            simp
          · intro x hx
            simp only [List.mem_append, List.mem_singleton] at hx
            rcases hx with hx | rfl
            · exact hsh x hx
            · refine ⟨hn, ?_⟩
              intro y hy
              have := List.mem_takeWhile_imp hy
              simpa using this

end Verif.Lift
