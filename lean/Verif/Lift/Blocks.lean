import Verif.Lift.Lemmas

/-! The lifting loop, one block at a time. -/

namespace Verif.Lift

open Verif.Decode Verif.IR

set_option linter.unusedSimpArgs false

variable {P : Type}

/-- The instructions of a block that get code: up to the first one that cannot be lifted. -/
def lifted (L : SLifter P) : List (DInstr P) → List (DInstr P)
  | [] => []
  | d :: ds => if L.ok d.inst then d :: lifted L ds else [d]

/-- The rest of a block and what follows it. -/
def restOf (ds : List (DInstr P)) : List (DInstr P) := ds.takeWhile (fun d => !d.newBlock)
def after (ds : List (DInstr P)) : List (DInstr P) := ds.dropWhile (fun d => !d.newBlock)

theorem rest_after (ds : List (DInstr P)) : restOf ds ++ after ds = ds :=
  List.takeWhile_append_dropWhile

theorem endsHere_after (ds : List (DInstr P)) : endsHere (after ds) = true := by
  unfold after
  cases h : ds.dropWhile (fun d => !d.newBlock) with
  | nil => rfl
  | cons d l =>
    have := List.head?_dropWhile_not (p := fun d : DInstr P => !d.newBlock) ds
    rw [h] at this
    simpa [endsHere] using this

theorem after_eq_of_ends {ds : List (DInstr P)} (h : endsHere ds = true) :
    restOf ds = [] ∧ after ds = ds := by
  cases ds with
  | nil => exact ⟨rfl, rfl⟩
  | cons d l =>
    have : d.newBlock = true := h
    simp [restOf, after, this]

/-- Putting the code of several instructions into a block. -/
def emitAll (L : SLifter P) (b : Id) : Graph P → List (DInstr P) → Option (Graph P)
  | g, [] => some g
  | g, d :: ds => (emit L g b d.inst).bind (fun g => emitAll L b g ds)

/-- Everything done for one block after entering it. -/
def liftRun (L : SLifter P) (fn : Fn P) (g : Graph P) (b : Id) (d : DInstr P)
    (ds : List (DInstr P)) : Option (Graph P) :=
  (emitAll L b g (lifted L (d :: ds))).bind
    (fun g => finishBlock L fn g b ((lifted L (d :: ds)).getLast?.getD d))

/-- Continue or report undefined behaviour. -/
def Res.cont {α : Type} (o : Option α) (f : α → Res P) : Res P :=
  match o with
  | none => .ub
  | some a => f a

/-- The loop body after the choice of the block. -/
def inner (L : SLifter P) (fn : Fn P) (first : Bool) (b : Id) (g : Graph P) (d : DInstr P)
    (ds : List (DInstr P)) : Res P :=
  match emit L g b d.inst with
  | none => .ub
  | some g =>
    if !L.ok d.inst && first then .null
    else if endsHere (skip (L.ok d.inst) ds) then
      match finishBlock L fn g b d with
      | none => .ub
      | some g => liftLoop L fn false (some b) g (skip (L.ok d.inst) ds)
    else liftLoop L fn false (some b) g (skip (L.ok d.inst) ds)

theorem liftLoop_new {L : SLifter P} {fn : Fn P} {first : Bool} {cur : Option Id} {g : Graph P}
    {d : DInstr P} {ds : List (DInstr P)} (h : d.newBlock = true) :
    liftLoop L fn first cur g (d :: ds) =
      Res.cont (enter fn g d.inst.start) (fun r => inner L fn first r.2 r.1 d ds) := by
  rw [liftLoop]
  cases he : enter fn g d.inst.start with
  | none => simp [h, he, Res.cont]
  | some r =>
    simp only [h, he, Res.cont, inner, if_true, Option.map_some]
    cases emit L r.1 r.2 d.inst with
    | none => rfl
    | some g1 => simp only; cases finishBlock L fn g1 r.2 d <;> rfl

theorem liftLoop_old {L : SLifter P} {fn : Fn P} {first : Bool} {b : Id} {g : Graph P}
    {d : DInstr P} {ds : List (DInstr P)} (h : d.newBlock = false) :
    liftLoop L fn first (some b) g (d :: ds) = inner L fn first b g d ds := by
  rw [liftLoop]
  simp only [h, inner, Bool.false_eq_true, if_false]
  cases emit L g b d.inst with
  | none => rfl
  | some g1 => simp only; cases finishBlock L fn g1 b d <;> rfl

theorem inner_eq {L : SLifter P} {fn : Fn P} {b : Id} (ds : List (DInstr P)) :
    ∀ (first : Bool) (g : Graph P) (d : DInstr P), (first = true → L.ok d.inst = true) →
    inner L fn first b g d ds =
      Res.cont (liftRun L fn g b d (restOf ds))
        (fun g => liftLoop L fn false (some b) g (after ds)) := by
  induction ds with
  | nil =>
    intro first g d hf
    have hl : lifted L [d] = [d] := by simp [lifted]
    have hs : skip (L.ok d.inst) ([] : List (DInstr P)) = [] := by simp [skip]
    unfold inner liftRun
    have hr : restOf ([] : List (DInstr P)) = [] := rfl
    rw [hr, hl, hs]
    simp only [emitAll, Option.bind_some, List.getLast?_singleton, Option.getD_some, endsHere, if_true]
    cases he : emit L g b d.inst with
    | none => simp [Res.cont, he]
    | some g1 =>
      have : (!L.ok d.inst && first) = false := by
        cases first <;> simp_all
      simp only [this, Bool.false_eq_true, if_false, Option.bind_some]
      cases hfb : finishBlock L fn g1 b d <;> simp [Res.cont, he, hfb, after]
  | cons e es ih =>
    intro first g d hf
    have hfst : (!L.ok d.inst && first) = false := by cases first <;> simp_all
    by_cases hok : L.ok d.inst = true
    · -- lifted
      by_cases hn : e.newBlock = true
      · -- block ends
        have hr : restOf (e :: es) = [] := by simp [restOf, hn]
        have ha : after (e :: es) = e :: es := by simp [after, hn]
        have hl : lifted L [d] = [d] := by simp [lifted]
        unfold inner liftRun
        rw [hr, ha, hl]
        simp only [skip, hok, if_true, endsHere, hn, emitAll, Option.bind_some,
          List.getLast?_singleton, Option.getD_some, Bool.not_true, Bool.false_and,
          Bool.false_eq_true, if_false]
        cases he : emit L g b d.inst with
        | none => simp [Res.cont, he]
        | some g1 =>
          simp only [Option.bind_some]
          cases hfb : finishBlock L fn g1 b d <;> simp [Res.cont, he, hfb]
      · -- block goes on
        have hn : e.newBlock = false := by simpa using hn
        have hr : restOf (e :: es) = e :: restOf es := by simp [restOf, hn]
        have ha : after (e :: es) = after es := by simp [after, hn]
        have hl : lifted L (d :: e :: restOf es) = d :: lifted L (e :: restOf es) := by
          rw [lifted]; simp [hok]
        have hlast : ((d :: lifted L (e :: restOf es)).getLast?.getD d)
            = ((lifted L (e :: restOf es)).getLast?.getD e) := by
          have : lifted L (e :: restOf es) ≠ [] := by rw [lifted]; split <;> simp
          rw [List.getLast?_cons, Option.getD_some]
          obtain ⟨z, hz⟩ := Option.isSome_iff_exists.1
            (List.getLast?_isSome (l := lifted L (e :: restOf es)) |>.2 this)
          rw [hz]; rfl
        unfold inner liftRun
        rw [hr, ha, hl, hlast]
        simp only [skip, hok, if_true, endsHere, hn, emitAll, Bool.not_true, Bool.false_and,
          Bool.false_eq_true, if_false]
        cases he : emit L g b d.inst with
        | none => simp [Res.cont, he]
        | some g1 =>
          simp only [Option.bind_some]
          rw [liftLoop_old hn, ih false g1 e (by simp)]
          rfl
    · -- failure
      have hok : L.ok d.inst = false := by simpa using hok
      have hl : ∀ r, lifted L (d :: r) = [d] := by intro r; rw [lifted]; simp [hok]
      unfold inner liftRun
      rw [hl]
      have hs : skip (L.ok d.inst) (e :: es) = after (e :: es) := by simp [skip, hok, after]
      rw [hs, endsHere_after, hfst]
      simp only [emitAll, Option.bind_some, List.getLast?_singleton, Option.getD_some, if_true,
        Bool.false_eq_true, if_false]
      cases he : emit L g b d.inst with
      | none => simp [Res.cont, he]
      | some g1 =>
        simp only [Option.bind_some]
        cases hfb : finishBlock L fn g1 b d <;> simp [Res.cont, he, hfb]

/-- Effect of emitting several instructions. -/
theorem emitAll_eq {L : SLifter P} {b : Id} (ds : List (DInstr P)) :
    ∀ {g g' : Graph P} {bb : BB P}, g b = some bb → bb.rf = true → ds ≠ [] →
    emitAll L b g ds = some g' →
    (∀ d ∈ ds.dropLast, L.form d.inst ≠ .returned) ∧
    g' = g.set b { bb with
      body := bb.body ++ ds.map DInstr.inst
      rf := decide (∀ d ∈ ds.getLast?, L.form d.inst ≠ .returned) } := by
  induction ds with
  | nil => intro g g' bb _ _ h; exact absurd rfl h
  | cons d ds ih =>
    intro g g' bb hb hrf _ h
    simp only [emitAll, emit, hb, hrf, if_true, Option.bind_some] at h
    cases ds with
    | nil =>
      simp only [emitAll, Option.some.injEq] at h
      subst h
      refine ⟨by simp, ?_⟩
      simp [Option.mem_def]
    | cons e es =>
      by_cases hret : L.form d.inst = .returned
      · simp [emitAll, emit, Graph.set, hret] at h
      · have := ih (g := g.set b { bb with body := bb.body ++ [d.inst],
                                           rf := decide (L.form d.inst ≠ .returned) })
          (bb := { bb with body := bb.body ++ [d.inst], rf := decide (L.form d.inst ≠ .returned) })
          (by simp [Graph.set]) (by simp [hret]) (by simp) h
        refine ⟨?_, ?_⟩
        · intro x hx
          simp only [List.dropLast_cons_cons, List.mem_cons] at hx
          rcases hx with rfl | hx
          · exact hret
          · exact this.1 x hx
        · rw [this.2]
          funext y
          by_cases hy : y = b
          · subst hy; simp [Graph.set]
          · simp [Graph.set, hy]

/-- Emitting succeeds unless code follows a return. -/
theorem emitAll_some {L : SLifter P} {b : Id} (ds : List (DInstr P)) :
    ∀ {g : Graph P} {bb : BB P}, g b = some bb → bb.rf = true →
    (∀ d ∈ ds.dropLast, L.form d.inst ≠ .returned) → ∃ g', emitAll L b g ds = some g' := by
  induction ds with
  | nil => intro g bb _ _ _; exact ⟨g, rfl⟩
  | cons d ds ih =>
    intro g bb hb hrf h
    simp only [emitAll, emit, hb, hrf, if_true, Option.bind_some]
    cases ds with
    | nil => exact ⟨_, rfl⟩
    | cons e es =>
      have hd := h d (by simp)
      exact ih (bb := { bb with body := bb.body ++ [d.inst], rf := decide (L.form d.inst ≠ .returned) })
        (by simp [Graph.set]) (by simp [hd])
        (fun x hx => h x (by simp only [List.dropLast_cons_cons, List.mem_cons]; exact .inr hx))

/-- The terminator of a branch to one of two addresses. -/
noncomputable def pcTerm (fn : Fn P) (f : Option Bool) (a1 a2 : Addr) : Term :=
  match f with
  | some true => .br (target fn a1)
  | some false => .br (target fn a2)
  | none => if target fn a1 = target fn a2 then .br (target fn a1)
            else .cond (target fn a1) (target fn a2)

/-- The terminator a block ends with, given its last instruction; `none` after a return. -/
noncomputable def termOf (L : SLifter P) (fn : Fn P) (d : DInstr P) : Option Term :=
  match L.form d.inst with
  | .returned => none
  | .value => some (.br .exit)
  | .const a => some (if d.inhibit then .br .exit else .br (target fn a))
  | .cond a b => some (if d.inhibit then .br .exit else pcTerm fn (L.fold d.inst) a b)
  | .check a => some (if d.inhibit then .br .exit else pcTerm fn (L.fold d.inst) a 0)

/-- Adding several blocks. -/
def ensureAll (fn : Fn P) (g : Graph P) (xs : List Id) : Graph P := xs.foldl (ensure fn) g

theorem ensureAll_get {fn : Fn P} (xs : List Id) : ∀ {g : Graph P} {y : Id} {bb : BB P},
    ensureAll fn g xs y = some bb →
    g y = some bb ∨ (g y = none ∧ y ∈ xs ∧ ∃ a, y = .at a ∧
      bb = { maxPreds := some (fn.predsOf a) }) := by
  induction xs with
  | nil => intro g y bb h; exact .inl h
  | cons x xs ih =>
    intro g y bb h
    rcases ih (g := ensure fn g x) h with h | ⟨h1, h2, h3⟩
    · rcases ensure_cases h with h | ⟨h1, rfl, h3⟩
      · exact .inl h
      · exact .inr ⟨h1, by simp, h3⟩
    · have : g y = none := by
        cases hg : g y with
        | none => rfl
        | some z => rw [ensure_some hg] at h1; cases h1
      exact .inr ⟨this, List.mem_cons_of_mem _ h2, h3⟩

theorem ensureAll_some {fn : Fn P} (xs : List Id) : ∀ {g : Graph P} {y : Id} {bb : BB P},
    g y = some bb → ensureAll fn g xs y = some bb := by
  induction xs with
  | nil => intro g y bb h; exact h
  | cons x xs ih => intro g y bb h; exact ih (ensure_some h)

theorem ensureAll_mem {fn : Fn P} (xs : List Id) : ∀ {g : Graph P}, (g .exit).isSome → ∀ x ∈ xs,
    (∃ a, x = .at a) ∨ x = .exit → (ensureAll fn g xs x).isSome := by
  induction xs with
  | nil => intro g _ x hx; cases hx
  | cons y ys ih =>
    intro g hx x hm hk
    rcases List.mem_cons.1 hm with rfl | hm
    · have : (ensure fn g x x).isSome := by
        rcases hk with ⟨a, rfl⟩ | rfl
        · simp [ensure]
        · exact hx
      obtain ⟨bb, hbb⟩ := Option.isSome_iff_exists.1 this
      exact Option.isSome_iff_exists.2 ⟨bb, ensureAll_some ys hbb⟩
    · obtain ⟨bb, hbb⟩ := Option.isSome_iff_exists.1 hx
      exact ih (Option.isSome_iff_exists.2 ⟨bb, ensure_some hbb⟩) x hm hk

/-- The new graph after a branch on the program counter. -/
theorem branchPc_eq {cls : Classifier P} {fn : Fn P} (hw : WF cls fn) {g g' : Graph P}
    (hv : Valid fn g) {b : Id} {f : Option Bool} {a1 a2 : Addr}
    (h : branchPc fn g b f a1 a2 = some g') :
    g' = link (ensureAll fn g (succsOf (pcTerm fn f a1 a2))) b (pcTerm fn f a1 a2) := by
  cases f with
  | some f =>
    cases f with
    | true =>
      rw [branchPc] at h
      obtain ⟨⟨g1, x⟩, hr, rfl⟩ := Option.map_eq_some_iff.1 h
      obtain ⟨rfl, rfl⟩ := resolve_eq hw hv hr
      exact branchTo_eq _ _ _
    | false =>
      rw [branchPc] at h
      obtain ⟨⟨g1, x⟩, hr, rfl⟩ := Option.map_eq_some_iff.1 h
      obtain ⟨rfl, rfl⟩ := resolve_eq hw hv hr
      exact branchTo_eq _ _ _
  | none =>
    rw [branchPc] at h
    cases hr : resolve fn g a1 with
    | none => rw [hr] at h; cases h
    | some r =>
      obtain ⟨g1, x⟩ := r
      have hr1 := resolve_reserved hr
      obtain ⟨rfl, rfl⟩ := resolve_eq hw hv hr
      rw [hr] at h
      obtain ⟨⟨g2, y⟩, hr2, rfl⟩ := Option.map_eq_some_iff.1 h
      obtain ⟨rfl, rfl⟩ := resolve_eq hw (ensure_valid hv a1 hr1) hr2
      rw [branchCond_eq]
      simp only [pcTerm]
      split
      next he =>
        rw [← he]
        have : ensure fn (ensure fn g (target fn a1)) (target fn a1)
            = ensure fn g (target fn a1) := by
          funext y
          cases ht : target fn a1 with
          | entry => rfl
          | exit => rfl
          | «at» a =>
            simp only [ensure]
            by_cases hy : y = .at a
            · subst hy; simp
            · simp [hy]
        rw [this]
        rfl
      next he => rfl

theorem pcTerm_const (fn : Fn P) (a b : Addr) : pcTerm fn (some true) a b = .br (target fn a) := rfl

/-- Ending a block with an optional terminator. -/
def addTerm (fn : Fn P) (g : Graph P) (b : Id) : Option Term → Graph P
  | none => g
  | some tm => link (ensureAll fn g (succsOf tm)) b tm

/-- Finishing a block adds the edges of its terminator. -/
theorem finishBlock_eq {cls : Classifier P} {L : SLifter P} {fn : Fn P} (hw : WF cls fn)
    {g g' : Graph P} (hv : Valid fn g) {b : Id} {d : DInstr P} {bb : BB P} (hb : g b = some bb)
    (hrf : bb.rf = decide (L.form d.inst ≠ .returned)) (ht : bb.term = none)
    (h : finishBlock L fn g b d = some g') :
    g' = addTerm fn g b (termOf L fn d) := by
  unfold finishBlock at h
  rw [hb] at h
  simp only [ht, Option.isSome_none, Bool.or_false] at h
  by_cases hret : L.form d.inst = .returned
  · rw [hrf] at h
    simp only [hret, ne_eq, not_true_eq_false, decide_false, Bool.not_false, if_true,
      Option.some.injEq] at h
    simp [addTerm, termOf, hret, h]
  · rw [hrf] at h
    simp only [hret, ne_eq, not_false_eq_true, decide_true, Bool.not_true, Bool.false_eq_true,
      if_false] at h
    by_cases hin : d.inhibit = true
    · simp only [hin, if_true, Option.some.injEq] at h
      subst h
      cases hf : L.form d.inst <;>
        first
        | exact absurd hf hret
        | (simp only [addTerm, termOf, hf, hin, if_true]; exact branchTo_eq _ _ _)
    · simp only [hin, Bool.false_eq_true, if_false] at h
      cases hf : L.form d.inst with
      | returned => exact absurd hf hret
      | value =>
        rw [hf] at h
        have := branchPc_eq hw hv h
        rw [pcTerm_const, target_zero] at this
        simpa only [addTerm, termOf, hf] using this
      | const a =>
        rw [hf] at h
        have := branchPc_eq hw hv h
        rw [pcTerm_const] at this
        simpa only [addTerm, termOf, hf, hin, Bool.false_eq_true, if_false] using this
      | cond a1 a2 =>
        rw [hf] at h
        simpa only [addTerm, termOf, hf, hin, Bool.false_eq_true, if_false] using branchPc_eq hw hv h
      | check a =>
        rw [hf] at h
        simpa only [addTerm, termOf, hf, hin, Bool.false_eq_true, if_false] using branchPc_eq hw hv h

theorem lifted_ne_nil (L : SLifter P) (d : DInstr P) (ds : List (DInstr P)) :
    lifted L (d :: ds) ≠ [] := by
  rw [lifted]; split <;> simp

/-- The last instruction of a block that got code. -/
def lastOf (L : SLifter P) (d : DInstr P) (ds : List (DInstr P)) : DInstr P :=
  (lifted L (d :: ds)).getLast (lifted_ne_nil L d ds)

theorem enter_eq {cls : Classifier P} {fn : Fn P} (hw : WF cls fn) {g g1 : Graph P}
    (hv : Valid fn g) {a : Addr} {b : Id} (h : enter fn g a = some (g1, b)) :
    b = .at a ∧ a ≠ 0 ∧ reserved a = false ∧ fn.BlockStart a ∧
    ∃ bb, ensure fn g (.at a) (.at a) = some bb ∧ bb.rf = false ∧
      g1 = (ensure fn g (.at a)).set (.at a) (bb.initPhis false) := by
  unfold enter at h
  split at h
  · cases h
  · cases h
  · cases h
  next g2 x hr =>
    have hres := resolve_reserved hr
    obtain ⟨h1, h2⟩ := resolve_eq hw hv hr
    have hx : a ≠ 0 ∧ fn.BlockStart a ∧ x = a := by
      unfold target at h1
      split at h1
      next ha => cases h1; exact ⟨ha.1, ha.2, rfl⟩
      · cases h1
    obtain ⟨ha0, has, rfl⟩ := hx
    subst h2
    split at h
    · cases h
    next bb hbb =>
      split at h
      · cases h
      next hrf =>
        simp only [Option.some.injEq, Prod.mk.injEq] at h
        obtain ⟨rfl, rfl⟩ := h
        exact ⟨rfl, ha0, hres, has, bb, hbb, by simpa using hrf, rfl⟩

theorem set_valid {fn : Fn P} {g : Graph P} (hv : Valid fn g) {b : Id} {bb bb' : BB P}
    (hb : g b = some bb) (hm : bb'.maxPreds = bb.maxPreds) : Valid fn (g.set b bb') := by
  intro a x hx
  simp only [Graph.set] at hx
  split at hx
  next ha => subst ha; cases hx; rw [hm]; exact hv a bb hb
  · exact hv a x hx

/-- The graph after one block. -/
theorem block_eq {cls : Classifier P} {L : SLifter P} {fn : Fn P} (hw : WF cls fn)
    {g g1 g' : Graph P} (hv : Valid fn g) {a : Addr} {b : Id} {d : DInstr P} {ds : List (DInstr P)}
    (h1 : enter fn g a = some (g1, b)) (h2 : liftRun L fn g1 b d ds = some g')
    (hterm : ∀ bb, g (.at a) = some bb → bb.term = none) :
    a ≠ 0 ∧ reserved a = false ∧ fn.BlockStart a ∧
    (∀ x ∈ (lifted L (d :: ds)).dropLast, L.form x.inst ≠ .returned) ∧
    ∃ bb, ensure fn g (.at a) (.at a) = some bb ∧ bb.rf = false ∧
      g' = addTerm fn ((ensure fn g (.at a)).set (.at a)
          { bb.initPhis false with
            body := bb.body ++ (lifted L (d :: ds)).map DInstr.inst
            rf := decide (L.form (lastOf L d ds).inst ≠ .returned) }) (.at a)
        (termOf L fn (lastOf L d ds)) := by
  obtain ⟨rfl, ha0, hres, has, bb, hbb, hrf, rfl⟩ := enter_eq hw hv h1
  have hve : Valid fn (ensure fn g (.at a)) := by
    have := ensure_valid hv a hres
    rwa [target_at ha0 has] at this
  have hbt : bb.term = none := by
    rcases ensure_cases hbb with h | ⟨-, -, x, -, rfl⟩
    · exact hterm bb h
    · rfl
  unfold liftRun at h2
  obtain ⟨g2, he, hf⟩ := Option.bind_eq_some_iff.1 h2
  have hlast : (lifted L (d :: ds)).getLast? = some (lastOf L d ds) :=
    List.getLast?_eq_some_getLast (lifted_ne_nil L d ds)
  obtain ⟨hr, hg2⟩ := emitAll_eq (lifted L (d :: ds)) (bb := bb.initPhis false)
    (by simp [Graph.set]) rfl (lifted_ne_nil L d ds) he
  refine ⟨ha0, hres, has, hr, bb, hbb, hrf, ?_⟩
  rw [hlast] at hf hg2
  simp only [Option.getD_some, Option.mem_def, Option.some.injEq, forall_eq'] at hf hg2
  have hg2' : g2 = (ensure fn g (.at a)).set (.at a)
          { bb.initPhis false with
            body := bb.body ++ (lifted L (d :: ds)).map DInstr.inst
            rf := decide (L.form (lastOf L d ds).inst ≠ .returned) } := by
    rw [hg2]
    funext y
    simp only [Graph.set]
    split <;> rfl
  have hv2 : Valid fn g2 := by rw [hg2']; exact set_valid hve hbb rfl
  have := finishBlock_eq hw hv2
    (bb := { bb.initPhis false with
            body := bb.body ++ (lifted L (d :: ds)).map DInstr.inst
            rf := decide (L.form (lastOf L d ds).inst ≠ .returned) })
    (by rw [hg2']; simp [Graph.set]) rfl hbt hf
  rw [hg2'] at this
  exact this

end Verif.Lift
