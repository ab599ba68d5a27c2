import Verif.Lift.Props

/-!
C55: a function object can be lifted again and again, also after decoding more code.

`ll_func_lift` changes the function object it is given: the recorded number of predecessors of the
entry grows by one with every call (`Fn.lifted`, /repo/src/function.cc:100-101).  Histories (`Hist`)
contain such calls, so the theorems about histories hold for objects lifted before.  Here: what the
call leaves unchanged, and that lifting the same object again gives the same code, up to PHI nodes
where the first function had none.
-/

namespace Verif.Lift

open Verif.Decode Verif.IR

set_option linter.unusedSectionVars false

variable {P R V M : Type}

/-- A block without the number of predecessors it reserves space for and the way its register file
starts. -/
def BB.strip (bb : BB P) : BB P :=
  { bb with maxPreds := none, init := bb.init.map (fun _ => .clean) }

/-- All blocks without those. -/
def stripG (g : Graph P) : Graph P := fun b => (g b).map BB.strip

/-- Function objects that agree in everything but the number of predecessors. -/
structure SameCode (fn fn' : Fn P) : Prop where
  instrs : fn'.instrs = fn.instrs
  imap : ∀ a, (fn'.imap a).map (fun e => (e.decoded, e.idx)) =
    (fn.imap a).map (fun e => (e.decoded, e.idx))

theorem stripG_set (g : Graph P) (b : Id) (bb : BB P) :
    stripG (g.set b bb) = (stripG g).set b bb.strip := by
  funext x
  simp only [stripG, Graph.set]
  split <;> rfl

theorem stripG_modify (g : Graph P) (b : Id) (f : BB P → BB P)
    (hf : ∀ bb, (f bb).strip = f bb.strip) :
    stripG (g.modify b f) = (stripG g).modify b f := by
  funext x
  simp only [stripG, Graph.modify]
  split
  · rw [Option.map_map, Option.map_map]
    congr 1
    funext bb
    exact hf bb
  · rfl

theorem stripG_branchTo (g : Graph P) (b t : Id) :
    stripG (branchTo g b t) = branchTo (stripG g) b t := by
  unfold branchTo
  rw [stripG_modify, stripG_modify] <;> exact fun _ => rfl

theorem stripG_branchCond (g : Graph P) (b t e : Id) :
    stripG (branchCond g b t e) = branchCond (stripG g) b t e := by
  unfold branchCond
  split
  · exact stripG_branchTo g b t
  · rw [stripG_modify, stripG_modify, stripG_modify] <;> exact fun _ => rfl

theorem stripG_some {g g' : Graph P} (hg : stripG g = stripG g') (b : Id) :
    (g b).map BB.strip = (g' b).map BB.strip := congrFun hg b

/-- The same outcome, with graphs that agree but for what `strip` removes. -/
def SameRes : Option (Graph P × Id) → Option (Graph P × Id) → Prop
  | some r, some r' => stripG r.1 = stripG r'.1 ∧ r.2 = r'.2
  | none, none => True
  | _, _ => False

theorem resolve_same {fn fn' : Fn P} (hf : SameCode fn fn') {g g' : Graph P}
    (hg : stripG g = stripG g') (a : Addr) : SameRes (resolve fn g a) (resolve fn' g' a) := by
  unfold resolve
  split
  · exact ⟨hg, rfl⟩
  · split
    · trivial
    · have h1 := stripG_some hg (.at a)
      have h2 : (g (.at a)).isSome = (g' (.at a)).isSome := by
        rw [← Option.isSome_map (f := BB.strip), h1, Option.isSome_map]
      rw [← h2]
      split
      · exact ⟨hg, rfl⟩
      · have h3 := hf.imap a
        cases he : fn.imap a with
        | none =>
          rw [he] at h3
          simp only [Option.map_none, Option.map_eq_none_iff] at h3
          rw [h3]
          exact ⟨hg, rfl⟩
        | some e =>
          rw [he] at h3
          obtain ⟨e', he', h4⟩ := Option.map_eq_some_iff.1 h3
          simp only [Prod.mk.injEq] at h4
          rw [he']
          simp only [h4.1, h4.2, hf.instrs]
          split
          · split
            · trivial
            · split
              · refine ⟨?_, rfl⟩
                rw [stripG_set, stripG_set, hg]
                rfl
              · exact ⟨hg, rfl⟩
          · exact ⟨hg, rfl⟩

theorem SameRes.elim {r r' : Option (Graph P × Id)} (h : SameRes r r') :
    (r = none ∧ r' = none) ∨ ∃ g g' b, r = some (g, b) ∧ r' = some (g', b) ∧ stripG g = stripG g' := by
  cases r with
  | none => cases r' with
    | none => exact .inl ⟨rfl, rfl⟩
    | some r' => exact absurd h id
  | some r => cases r' with
    | none => exact absurd h id
    | some r' => exact .inr ⟨r.1, r'.1, r.2, rfl, by rw [h.2], h.1⟩

theorem strip_initPhis {bb bb' : BB P} (h : bb.strip = bb'.strip) (c : Bool) :
    (bb.initPhis c).strip = (bb'.initPhis c).strip := by
  simp only [BB.strip, BB.initPhis, BB.mk.injEq, Option.map_some] at h ⊢
  simp_all

theorem same_block {g g' : Graph P} (hg : stripG g = stripG g') (b : Id) :
    (g b = none ∧ g' b = none) ∨
      ∃ bb bb', g b = some bb ∧ g' b = some bb' ∧ bb.strip = bb'.strip := by
  have h := stripG_some hg b
  cases h1 : g b with
  | none =>
    rw [h1] at h
    exact .inl ⟨rfl, Option.map_eq_none_iff.1 h.symm⟩
  | some bb =>
    rw [h1] at h
    obtain ⟨bb', h2, h3⟩ := Option.map_eq_some_iff.1 h.symm
    exact .inr ⟨bb, bb', rfl, h2, h3.symm⟩

theorem strip_fields {bb bb' : BB P} (h : bb.strip = bb'.strip) :
    bb.rf = bb'.rf ∧ bb.term = bb'.term ∧ bb.body = bb'.body ∧ bb.preds = bb'.preds ∧
      bb.succs = bb'.succs := by
  simp only [BB.strip, BB.mk.injEq] at h
  obtain ⟨-, h1, h2, -, h3, h4, h5⟩ := h
  exact ⟨h5, h4, h3, h1, h2⟩

theorem enter_same {fn fn' : Fn P} (hf : SameCode fn fn') {g g' : Graph P}
    (hg : stripG g = stripG g') (a : Addr) : SameRes (enter fn g a) (enter fn' g' a) := by
  unfold enter
  rcases (resolve_same hf hg a).elim with ⟨h1, h2⟩ | ⟨g1, g1', b, h1, h2, h3⟩
  · rw [h1, h2]; trivial
  · rw [h1, h2]
    cases b with
    | entry => trivial
    | exit => trivial
    | «at» x =>
      simp only
      rcases same_block h3 (.at x) with ⟨h4, h5⟩ | ⟨bb, bb', h4, h5, h6⟩
      · rw [h4, h5]; trivial
      · rw [h4, h5]
        simp only [(strip_fields h6).1]
        split
        · trivial
        · refine ⟨?_, rfl⟩
          rw [stripG_set, stripG_set, h3, strip_initPhis h6]

/-- The same for outcomes without a block. -/
def SameOpt : Option (Graph P) → Option (Graph P) → Prop
  | some g, some g' => stripG g = stripG g'
  | none, none => True
  | _, _ => False

theorem emit_same (L : SLifter P) {g g' : Graph P} (hg : stripG g = stripG g') (b : Id) (i : Inst P) :
    SameOpt (emit L g b i) (emit L g' b i) := by
  unfold emit
  rcases same_block hg b with ⟨h4, h5⟩ | ⟨bb, bb', h4, h5, h6⟩
  · rw [h4, h5]; trivial
  · rw [h4, h5]
    obtain ⟨h1, h2, h3, h7, h8⟩ := strip_fields h6
    simp only [h1]
    split
    · unfold SameOpt
      simp only
      rw [stripG_set, stripG_set, hg]
      congr 1
      simp only [BB.strip, BB.mk.injEq] at h6 ⊢
      simp_all
    · trivial

theorem branch_map {r r' : Option (Graph P × Id)} (h : SameRes r r') (b : Id) :
    SameOpt (r.map (fun r => branchTo r.1 b r.2)) (r'.map (fun r => branchTo r.1 b r.2)) := by
  rcases h.elim with ⟨rfl, rfl⟩ | ⟨g1, g1', c, rfl, rfl, h3⟩
  · trivial
  · simp only [Option.map_some, SameOpt]
    rw [stripG_branchTo, stripG_branchTo, h3]

theorem branchPc_same {fn fn' : Fn P} (hf : SameCode fn fn') {g g' : Graph P}
    (hg : stripG g = stripG g') (b : Id) (fold : Option Bool) (a1 a2 : Addr) :
    SameOpt (branchPc fn g b fold a1 a2) (branchPc fn' g' b fold a1 a2) := by
  unfold branchPc
  cases fold with
  | some c => cases c <;> exact branch_map (resolve_same hf hg _) b
  | none =>
    simp only
    rcases (resolve_same hf hg a1).elim with ⟨h1, h2⟩ | ⟨g1, g1', t, h1, h2, h3⟩
    · rw [h1, h2]; trivial
    · rw [h1, h2]
      simp only
      rcases (resolve_same hf h3 a2).elim with ⟨h4, h5⟩ | ⟨g2, g2', e, h4, h5, h6⟩
      · rw [h4, h5]; trivial
      · rw [h4, h5]
        simp only [Option.map_some, SameOpt]
        rw [stripG_branchCond, stripG_branchCond, h6]

theorem finishBlock_same {fn fn' : Fn P} (hf : SameCode fn fn') (L : SLifter P) {g g' : Graph P}
    (hg : stripG g = stripG g') (b : Id) (d : DInstr P) :
    SameOpt (finishBlock L fn g b d) (finishBlock L fn' g' b d) := by
  unfold finishBlock
  rcases same_block hg b with ⟨h4, h5⟩ | ⟨bb, bb', h4, h5, h6⟩
  · rw [h4, h5]; trivial
  · rw [h4, h5]
    obtain ⟨h1, h2, -⟩ := strip_fields h6
    simp only [h1, h2]
    split
    · exact hg
    · split
      · simp only [SameOpt]
        rw [stripG_branchTo, stripG_branchTo, hg]
      · cases L.form d.inst with
        | value => exact branchPc_same hf hg ..
        | const a => exact branchPc_same hf hg ..
        | cond a b => exact branchPc_same hf hg ..
        | check a => exact branchPc_same hf hg ..
        | returned => trivial

/-- The same for the outcome of lifting. -/
def SameLift : Res P → Res P → Prop
  | .ok g, .ok g' => stripG g = stripG g'
  | .null, .null => True
  | .ub, .ub => True
  | _, _ => False

theorem SameOpt.elim {r r' : Option (Graph P)} (h : SameOpt r r') :
    (r = none ∧ r' = none) ∨ ∃ g g', r = some g ∧ r' = some g' ∧ stripG g = stripG g' := by
  cases r with
  | none => cases r' with
    | none => exact .inl ⟨rfl, rfl⟩
    | some r' => exact absurd h id
  | some r => cases r' with
    | none => exact absurd h id
    | some r' => exact .inr ⟨r, r', rfl, rfl, h⟩

theorem loop_same {fn fn' : Fn P} (hf : SameCode fn fn') (L : SLifter P) (n : Nat) :
    ∀ (ds : List (DInstr P)) (first : Bool) (cur : Option Id) (g g' : Graph P), ds.length ≤ n →
      stripG g = stripG g' → SameLift (liftLoop L fn first cur g ds) (liftLoop L fn' first cur g' ds) := by
  induction n with
  | zero =>
    intro ds first cur g g' hn hg
    cases ds with
    | nil => rw [liftLoop, liftLoop]; exact hg
    | cons d ds => simp at hn
  | succ n ih =>
    intro ds first cur g g' hn hg
    cases ds with
    | nil => rw [liftLoop, liftLoop]; exact hg
    | cons d ds =>
      have hlen : (skip (L.ok d.inst) ds).length ≤ n := by
        have := skip_length (L.ok d.inst) ds
        simp only [List.length_cons] at hn
        omega
      have key : ∀ (g1 g1' : Graph P) (b : Id), stripG g1 = stripG g1' →
          SameLift
            (match emit L g1 b d.inst with
             | none => .ub
             | some g =>
               if !L.ok d.inst && first then .null
               else if endsHere (skip (L.ok d.inst) ds) then
                 match finishBlock L fn g b d with
                 | none => .ub
                 | some g => liftLoop L fn false (some b) g (skip (L.ok d.inst) ds)
               else liftLoop L fn false (some b) g (skip (L.ok d.inst) ds))
            (match emit L g1' b d.inst with
             | none => .ub
             | some g =>
               if !L.ok d.inst && first then .null
               else if endsHere (skip (L.ok d.inst) ds) then
                 match finishBlock L fn' g b d with
                 | none => .ub
                 | some g => liftLoop L fn' false (some b) g (skip (L.ok d.inst) ds)
               else liftLoop L fn' false (some b) g (skip (L.ok d.inst) ds)) := by
        intro g1 g1' b h1
        rcases (emit_same L h1 b d.inst).elim with ⟨h2, h3⟩ | ⟨g2, g2', h2, h3, h4⟩
        · rw [h2, h3]; trivial
        · rw [h2, h3]
          simp only
          split
          · trivial
          · split
            · rcases (finishBlock_same hf L h4 b d).elim with ⟨h5, h6⟩ | ⟨g3, g3', h5, h6, h7⟩
              · rw [h5, h6]; trivial
              · rw [h5, h6]
                exact ih _ _ _ _ _ hlen h7
            · exact ih _ _ _ _ _ hlen h4
      rw [liftLoop, liftLoop]
      cases hnb : d.newBlock with
      | true =>
        simp only [if_true]
        rcases (enter_same hf hg d.inst.start).elim with ⟨h1, h2⟩ | ⟨g1, g1', b, h1, h2, h3⟩
        · rw [h1, h2]; trivial
        · rw [h1, h2]
          exact key g1 g1' b h3
      | false =>
        simp only [Bool.false_eq_true, if_false]
        cases cur with
        | none => trivial
        | some b => exact key g g' b hg

theorem lift_same {fn fn' : Fn P} (hf : SameCode fn fn') (known : Bool) (L : SLifter P) :
    SameLift (lift known L fn) (lift known L fn') := by
  unfold lift
  rw [hf.instrs]
  cases hi : fn.instrs with
  | nil => trivial
  | cons d ds =>
    simp only
    split
    · trivial
    · have hc : SameCode (countEntry fn d.inst.start) (countEntry fn' d.inst.start) := by
        refine ⟨hf.instrs, fun a => ?_⟩
        have := hf.imap a
        simp only [countEntry, addPred]
        by_cases ha : a = d.inst.start
        · simp only [ha, if_true]
          rw [ha] at this
          cases h1 : fn.imap d.inst.start with
          | none =>
            rw [h1] at this
            rw [Option.map_eq_none_iff.1 this]
          | some e =>
            rw [h1] at this
            obtain ⟨e', h2, h3⟩ := Option.map_eq_some_iff.1 this
            rw [h2]
            simpa using h3
        · simpa [ha] using this
      have hs : SameOpt (startGraph (countEntry fn d.inst.start) d.inst.start)
          (startGraph (countEntry fn' d.inst.start) d.inst.start) := by
        unfold startGraph
        rcases (resolve_same hc (g := fun x => if x = Id.entry then
            some { maxPreds := some 0, init := some .clean, rf := true } else none) rfl
            d.inst.start).elim with ⟨h1, h2⟩ | ⟨g1, g1', b, h1, h2, h3⟩
        · rw [h1, h2]; trivial
        · rw [h1, h2]
          cases b with
          | entry => trivial
          | exit => trivial
          | «at» x =>
            simp only [SameOpt]
            rw [stripG_set, stripG_set, stripG_branchTo, stripG_branchTo, h3]
      rcases hs.elim with ⟨h1, h2⟩ | ⟨g1, g1', h1, h2, h3⟩
      · rw [h1, h2]; trivial
      · rw [h1, h2]
        simp only
        have h4 := loop_same hc L _ (countEntry fn d.inst.start).instrs true none g1 g1'
          (Nat.le_refl _) h3
        rw [hc.instrs]
        revert h4
        cases liftLoop L (countEntry fn d.inst.start) true none g1
            (countEntry fn d.inst.start).instrs <;>
          cases liftLoop L (countEntry fn' d.inst.start) true none g1'
            (countEntry fn d.inst.start).instrs <;> intro h4 <;> try exact h4
        simp only [SameLift] at h4 ⊢
        unfold sealExit
        funext x
        have h5 := stripG_some h4 x
        simp only [stripG, Graph.modify]
        split
        · next hx =>
          subst hx
          rcases same_block h4 .exit with ⟨h6, h7⟩ | ⟨bb, bb', h6, h7, h8⟩
          · rw [h6, h7]
          · rw [h6, h7]
            simp only [Option.map_some, Option.some.injEq]
            have := strip_initPhis h8 true
            simp only [BB.strip, BB.initPhis, BB.mk.injEq] at this ⊢
            simp_all
        · exact h5

theorem step_same (L : Lifter P R V M) (slide : BitVec 64) {g g' : Graph P}
    (hg : stripG g = stripG g') (c : Cfg R V M) : stepBlock L slide g c = stepBlock L slide g' c := by
  cases c with
  | done v c => rfl
  | «at» b s =>
    unfold stepBlock
    rcases same_block hg b with ⟨h4, h5⟩ | ⟨bb, bb', h4, h5, h6⟩
    · cases b <;> simp [h4, h5]
    · obtain ⟨h1, h2, h3, -⟩ := strip_fields h6
      cases b <;> simp [h4, h5, h1, h2, h3]

theorem run_same (L : Lifter P R V M) (slide : BitVec 64) {g g' : Graph P}
    (hg : stripG g = stripG g') (n : Nat) :
    ∀ c : Cfg R V M, runBlocks L slide g n c = runBlocks L slide g' n c := by
  induction n with
  | zero => intro c; rfl
  | succ n ih =>
    intro c
    rw [runBlocks, runBlocks, step_same L slide hg]
    congr 1
    funext c
    exact ih c

/-- An object lifted any number of times. -/
def liftedN (n : Nat) (fn : Fn P) : Fn P := Nat.repeat Fn.lifted n fn

theorem hist_liftedN {cls : Classifier P} {h : List (Call P)} {fn : Fn P} (H : Hist cls h fn) :
    ∀ n, Hist cls h (liftedN n fn)
  | 0 => H
  | n + 1 => (hist_liftedN H n).lift

theorem sameCode_lifted {cls : Classifier P} {fn : Fn P} (hw : WF cls fn) : SameCode fn fn.lifted := by
  refine ⟨lifted_instrs fn, fun a => ?_⟩
  unfold Fn.lifted
  split
  · rfl
  · next d l hd =>
    simp only [countEntry, addPred]
    by_cases ha : a = d.inst.start
    · subst ha
      simp only [if_true]
      cases hm : fn.imap d.inst.start with
      | none =>
        have := hw.complete 0 d (by rw [hd]; rfl)
        simp [Fn.decIdx, hm] at this
      | some e => rfl
    · simp [ha]

theorem SameCode.trans {f g h : Fn P} (h1 : SameCode f g) (h2 : SameCode g h) : SameCode f h :=
  ⟨h2.instrs.trans h1.instrs, fun a => (h2.imap a).trans (h1.imap a)⟩

theorem sameCode_liftedN {cls : Classifier P} {h : List (Call P)} {fn : Fn P} (H : Hist cls h fn) :
    ∀ n, SameCode fn (liftedN n fn)
  | 0 => ⟨rfl, fun _ => rfl⟩
  | n + 1 => (sameCode_liftedN H n).trans (sameCode_lifted (wf_hist (hist_liftedN H n)))

theorem counted_liftedN {cls : Classifier P} {h : List (Call P)} {fn : Fn P} {callFn : Bool}
    (hc : Counted cls callFn h fn) : ∀ n, Counted cls callFn h (liftedN n fn)
  | 0 => hc
  | n + 1 => (counted_liftedN hc n).lifted

/-- C55: `ll_func_lift` does not change what was decoded: instructions, block starts and code ranges
are as before, and the count of predecessors changes for the entry only. -/
theorem C55_unchanged (fn : Fn P) :
    fn.lifted.insts = fn.insts ∧ (∀ a, fn.lifted.BlockStart a ↔ fn.BlockStart a) ∧
    fn.lifted.codeRanges = fn.codeRanges ∧
    ∀ a, fn.entry? ≠ some a → fn.lifted.predsOf a = fn.predsOf a := by
  refine ⟨lifted_insts fn, lifted_blockStart fn, lifted_ranges fn, fun a ha => ?_⟩
  rw [predsOf_lifted, if_neg ha, Nat.add_zero]

/-- C55: lifting an object that was lifted before succeeds or fails as the first time, and the code
of both functions does the same, where registers travel along the executed path and every register
is stored at every call and return. -/
theorem C55_lift_again {cls : Classifier P} {h : List (Call P)} {fn : Fn P} (H : Hist cls h fn)
    (n : Nat) (known : Bool) (L : Lifter P R V M) :
    match lift known L.toSLifter fn, lift known L.toSLifter (liftedN n fn) with
    | .null, .null => True
    | .ub, .ub => True
    | .ok g, .ok g' => ∀ slide k (c : Cfg R V M), runBlocks L slide g k c = runBlocks L slide g' k c
    | _, _ => False := by
  have := lift_same (sameCode_liftedN H n) known L.toSLifter
  revert this
  cases lift known L.toSLifter fn <;> cases lift known L.toSLifter (liftedN n fn) <;>
    simp only [SameLift] <;> intro h1 <;> try trivial
  intro slide k c
  exact run_same L slide h1 k c

/-- C55: the same with the registers in SSA form and the stores placed for each function on its own:
when the function returns, the CPU struct and memory are the same for the function lifted first and
for the one lifted after any number of further `ll_func_lift` calls.  Missing for the full claim: as
for `C14_ssa_partial`, which is used for both. -/
theorem C55_lift_again_ssa_partial [DecidableEq R] {cls : Classifier P} {h : List (Call P)} {fn : Fn P}
    {callFn : Bool} (H : Hist cls h fn) (hall : Counted cls callFn h fn) (n : Nat)
    {known : Bool} {L : Lifter P R V M} {g g' : Graph P}
    (hl : lift known L.toSLifter fn = .ok g) (hl' : lift known L.toSLifter (liftedN n fn) = .ok g')
    (hknown : ∀ i ∈ fn.insts, TargetsKnown cls callFn L.toSLifter i)
    (hok : ∀ i, ∀ it ∈ L.items i, ItemOK (Refine.eq V M) it)
    {regs : List R} (hregs : ∀ r, r ∈ regs) {fuel : Nat} {plan plan' : Plan R}
    (hplan : optimizePacks L g (packIds fn) regs fuel = some plan)
    (hplan' : optimizePacks L g' (packIds (liftedN n fn)) regs fuel = some plan')
    (slide : BitVec 64) (out0 : Id → R → V) (c : CPU R V M) (k : Nat) (v : Bool) (r : CPU R V M)
    (hrun : runBlocks L slide g k (.at .entry c.unpack) = some (.done v r)) :
    runSsa L plan (fun _ _ => false) slide g k (ssaStart out0 c) = some (.done v r) ∧
    runSsa L plan' (fun _ _ => false) slide g' k (ssaStart out0 c) = some (.done v r) := by
  have done : ∀ {g : Graph P} {x : SCfg R V M}, SameState (Refine.eq V M) g (.done v r) x → x = .done v r := by
    intro g x hx
    cases x with
    | «at» q b e => exact absurd hx id
    | done v' c' =>
      obtain ⟨rfl, h2⟩ := hx
      have : r = c' := by
        obtain ⟨h3, h4, h5⟩ := h2
        cases r; cases c'
        simp_all [Refine.eq]
        exact funext h3
      rw [this]
  constructor
  · obtain ⟨x, h1, h2⟩ := C14_ssa_partial H hall hl hknown hok (drop := fun _ _ => false)
      (by simp) hregs hplan slide out0 c k _ hrun
    rw [h1, done h2]
  · have hs := lift_same (sameCode_liftedN H n) known L.toSLifter
    rw [hl, hl'] at hs
    rw [run_same L slide hs] at hrun
    have hi : (liftedN n fn).insts = fn.insts := by
      simp only [Fn.insts, (sameCode_liftedN H n).instrs]
    obtain ⟨x, h1, h2⟩ := C14_ssa_partial (hist_liftedN H n) (counted_liftedN hall n) hl'
      (by rw [hi]; exact hknown) hok (drop := fun _ _ => false)
      (by simp) hregs hplan' slide out0 c k _ hrun
    rw [h1, done h2]

end Verif.Lift
