import Verif.Decode.Spec

/-!
Helper lemmas about the decoder model: an abstract description of one step (`StepSpec`) and the
basic invariants.  The property theorems are in `Verif.Decode.Props`.
-/

namespace Verif.Decode

variable {P : Type}

/-- Index of the instruction decoded at `a`, if any. -/
def Fn.decIdx (fn : Fn P) (a : Addr) : Option Nat :=
  match fn.imap a with
  | some e => if e.decoded then some e.idx else none
  | none => none

/-- `fn'` differs from `fn` at most in block-start marks, inhibit flags, predecessor counts
and empty map entries. -/
structure Same (fn fn' : Fn P) : Prop where
  insts : ∀ j : Nat, (fn'.instrs[j]?).map DInstr.inst = (fn.instrs[j]?).map DInstr.inst
  nb : ∀ (j : Nat) (d d' : DInstr P), fn.instrs[j]? = some d → fn'.instrs[j]? = some d' →
      d.newBlock = true → d'.newBlock = true
  dec : ∀ a, fn'.decIdx a = fn.decIdx a
  ranges : fn'.ranges = fn.ranges

theorem Same.refl (fn : Fn P) : Same fn fn :=
  ⟨fun _ => rfl, fun j d d' h h' hn => by rw [h] at h'; cases h'; exact hn, fun _ => rfl, rfl⟩

theorem Same.fwd {fn fn' : Fn P} (h : Same fn fn') {j : Nat} {d : DInstr P}
    (hd : fn.instrs[j]? = some d) :
    ∃ d', fn'.instrs[j]? = some d' ∧ d'.inst = d.inst ∧
      (d.newBlock = true → d'.newBlock = true) := by
  have h1 := h.insts j
  rw [hd] at h1
  cases hd' : fn'.instrs[j]? with
  | none => rw [hd'] at h1; simp at h1
  | some d' =>
    rw [hd'] at h1
    simp at h1
    exact ⟨d', rfl, h1, h.nb j d d' hd hd'⟩

theorem Same.bwd {fn fn' : Fn P} (h : Same fn fn') {j : Nat} {d' : DInstr P}
    (hd' : fn'.instrs[j]? = some d') :
    ∃ d, fn.instrs[j]? = some d ∧ d'.inst = d.inst ∧
      (d.newBlock = true → d'.newBlock = true) := by
  have h1 := h.insts j
  rw [hd'] at h1
  cases hd : fn.instrs[j]? with
  | none => rw [hd] at h1; simp at h1
  | some d =>
    rw [hd] at h1
    simp at h1
    exact ⟨d, rfl, h1, h.nb j d d' hd hd'⟩

theorem Same.trans {a b c : Fn P} (h1 : Same a b) (h2 : Same b c) : Same a c := by
  refine ⟨fun j => (h2.insts j).trans (h1.insts j), ?_, fun x => (h2.dec x).trans (h1.dec x),
    h2.ranges.trans h1.ranges⟩
  intro j d d'' hd hd'' hn
  obtain ⟨d', hd', -, hnb⟩ := h1.fwd hd
  exact h2.nb j d' d'' hd' hd'' (hnb hn)

theorem Same.length {fn fn' : Fn P} (h : Same fn fn') : fn'.instrs.length = fn.instrs.length := by
  have key : ∀ n : Nat, fn'.instrs.length ≤ n ↔ fn.instrs.length ≤ n := by
    intro n
    have := h.insts n
    rw [← List.getElem?_eq_none_iff, ← List.getElem?_eq_none_iff]
    constructor
    · intro h0; rw [h0] at this; simpa using this.symm
    · intro h0; rw [h0] at this; simpa using this
  have h1 := (key fn.instrs.length).2 (Nat.le_refl _)
  have h2 := (key fn'.instrs.length).1 (Nat.le_refl _)
  omega

theorem mark_get (l : List (DInstr P)) (i j : Nat) :
    (mark l i)[j]? = (l[j]?).map
      (fun d => if i = j then { d with newBlock := true } else d) := by
  simp only [mark, List.getElem?_modify]
  cases l[j]? <;> simp

theorem inhibitLast_get (l : List (DInstr P)) (j : Nat) :
    (inhibitLast l)[j]? = (l[j]?).map
      (fun d => if l.length - 1 = j then { d with inhibit := true } else d) := by
  simp only [inhibitLast, List.getElem?_modify]
  cases l[j]? <;> simp

theorem same_mark (fn : Fn P) (i : Nat) : Same fn { fn with instrs := mark fn.instrs i } := by
  refine ⟨?_, ?_, fun _ => rfl, rfl⟩
  · intro j
    simp only [mark_get]
    cases fn.instrs[j]? with
    | none => rfl
    | some d => by_cases h : i = j <;> simp [h]
  · intro j d d' hd hd' hn
    simp only [mark_get, hd, Option.map_some, Option.some.injEq] at hd'
    subst hd'
    by_cases h : i = j <;> simp [h, hn]

theorem same_inhibit (fn : Fn P) : Same fn { fn with instrs := inhibitLast fn.instrs } := by
  refine ⟨?_, ?_, fun _ => rfl, rfl⟩
  · intro j
    simp only [inhibitLast_get]
    cases fn.instrs[j]? with
    | none => rfl
    | some d => by_cases h : fn.instrs.length - 1 = j <;> simp [h]
  · intro j d d' hd hd' hn
    simp only [inhibitLast_get, hd, Option.map_some, Option.some.injEq] at hd'
    subst hd'
    by_cases h : fn.instrs.length - 1 = j <;> simp [h, hn]

theorem same_addPred (fn : Fn P) (a : Addr) : Same fn { fn with imap := addPred fn.imap a } := by
  refine ⟨fun _ => rfl, ?_, ?_, rfl⟩
  · intro j d d' h h' hn
    simp only at h'
    rw [h] at h'; cases h'; exact hn
  · intro x
    simp only [Fn.decIdx, addPred]
    by_cases h : x = a
    · subst h
      simp only [if_true]
      cases hx : fn.imap x with
      | none => simp
      | some e => simp
    · simp [h]

theorem same_touch (fn : Fn P) (a : Addr) : Same fn { fn with imap := touch fn.imap a } := by
  refine ⟨fun _ => rfl, ?_, ?_, rfl⟩
  · intro j d d' h h' hn
    simp only at h'
    rw [h] at h'; cases h'; exact hn
  · intro x
    simp only [Fn.decIdx, touch]
    by_cases h : x = a
    · subst h
      simp only [if_true]
      cases hx : fn.imap x with
      | none => simp
      | some e => simp
    · simp [h]

theorem predsOf_addPred (fn : Fn P) (a x : Addr) :
    Fn.predsOf { fn with imap := addPred fn.imap a } x
      = fn.predsOf x + (if x = a then 1 else 0) := by
  simp only [Fn.predsOf, addPred]
  by_cases h : x = a
  · subst h
    simp only [if_true]
    cases fn.imap x <;> simp
  · simp [h]

theorem predsOf_touch (fn : Fn P) (a x : Addr) :
    Fn.predsOf { fn with imap := touch fn.imap a } x = fn.predsOf x := by
  simp only [Fn.predsOf, touch]
  by_cases h : x = a
  · subst h
    simp only [if_true]
    cases fn.imap x <;> simp
  · simp [h]

/-- The state after pushing a freshly decoded instruction. -/
def Fn.push (fn : Fn P) (i : Inst P) (nb : Bool) : Fn P :=
  { fn with
    instrs := fn.instrs ++ [{ inst := i, newBlock := nb, inhibit := false }]
    imap := setDecoded fn.imap i.start fn.instrs.length }

theorem push_decIdx (fn : Fn P) (i : Inst P) (nb : Bool) (x : Addr) :
    (fn.push i nb).decIdx x = if x = i.start then some fn.instrs.length else fn.decIdx x := by
  simp only [Fn.decIdx, Fn.push, setDecoded]
  by_cases h : x = i.start
  · simp [h]
  · simp [h]

theorem push_predsOf (fn : Fn P) (i : Inst P) (nb : Bool) (x : Addr) :
    (fn.push i nb).predsOf x = fn.predsOf x := by
  simp only [Fn.predsOf, Fn.push, setDecoded]
  by_cases h : x = i.start
  · subst h
    simp only [if_true]
    cases fn.imap i.start <;> simp
  · simp [h]

theorem push_get (fn : Fn P) (i : Inst P) (nb : Bool) (j : Nat) :
    (fn.push i nb).instrs[j]? =
      if j < fn.instrs.length then fn.instrs[j]?
      else if j = fn.instrs.length then some { inst := i, newBlock := nb, inhibit := false }
      else none := by
  simp only [Fn.push]
  rcases Nat.lt_trichotomy j fn.instrs.length with h | h | h
  · simp [h, List.getElem?_append_left]
  · subst h; simp
  · have : ¬ j < fn.instrs.length := by omega
    have h2 : j ≠ fn.instrs.length := by omega
    simp only [this, if_false, h2]
    rw [List.getElem?_eq_none_iff]
    simp; omega

/-- What happens to a statically known jump target. -/
structure TargetSpec (t : Addr) (s : List Addr) (fn : Fn P) (s' : List Addr) (fn' : Fn P) :
    Prop where
  same : Same fn fn'
  preds : ∀ x, fn'.predsOf x = fn.predsOf x + (if t ≠ 0 ∧ x = t then 1 else 0)
  zero : t = 0 → s' = s
  hit : t ≠ 0 → ∀ j, fn.decIdx t = some j →
      s' = s ∧ ∀ d', fn'.instrs[j]? = some d' → d'.newBlock = true
  miss : t ≠ 0 → fn.decIdx t = none → s' = t :: s
  res : t ≠ 0 → reserved t = false

theorem handleTarget_spec {t : Addr} {s s' : List Addr} {fn fn' : Fn P}
    (h : handleTarget s fn t = some (s', fn')) : TargetSpec t s fn s' fn' := by
  unfold handleTarget at h
  by_cases ht : t = 0
  · simp only [ht, if_true, Option.some.injEq, Prod.mk.injEq] at h
    obtain ⟨rfl, rfl⟩ := h
    exact ⟨Same.refl _, by simp [ht], by simp, fun h => absurd ht h, fun h => absurd ht h,
      fun h => absurd ht h⟩
  · have ht' : ¬ t = 0#64 := ht
    simp only [ht, if_false] at h
    by_cases hr : reserved t = true
    · simp [hr] at h
    · simp only [hr] at h
      have hr' : reserved t = false := by simpa using hr
      cases he : fn.imap t with
      | none =>
        simp only [he, Bool.false_eq_true, if_false, Option.some.injEq, Prod.mk.injEq] at h
        obtain ⟨rfl, rfl⟩ := h
        refine ⟨same_addPred _ _, ?_, fun h0 => absurd h0 ht, ?_, fun _ _ => rfl, fun _ => hr'⟩
        · intro x; rw [predsOf_addPred]; simp [ht']
        · intro _ j hj; simp [Fn.decIdx, he] at hj
      | some e =>
        simp only [he, Bool.false_eq_true, if_false] at h
        by_cases hd : e.decoded = true
        · simp only [hd, if_true, Option.some.injEq, Prod.mk.injEq] at h
          obtain ⟨rfl, rfl⟩ := h
          refine ⟨(same_mark fn e.idx).trans (same_addPred { fn with instrs := mark fn.instrs e.idx } t),
            ?_, fun h0 => absurd h0 ht, ?_, ?_, fun _ => hr'⟩
          · intro x
            exact (predsOf_addPred { fn with instrs := mark fn.instrs e.idx } t x).trans
              (by simp [ht', Fn.predsOf])
          · intro _ j hj
            simp only [Fn.decIdx, he, hd, if_true, Option.some.injEq] at hj
            subst hj
            refine ⟨rfl, ?_⟩
            intro d' hd'
            simp only [mark_get] at hd'
            cases hx : fn.instrs[e.idx]? with
            | none => rw [hx] at hd'; simp at hd'
            | some d => rw [hx] at hd'; simp at hd'; rw [← hd']
          · intro _ hn; simp [Fn.decIdx, he, hd] at hn
        · simp only [hd, Bool.false_eq_true, if_false, Option.some.injEq, Prod.mk.injEq] at h
          obtain ⟨rfl, rfl⟩ := h
          refine ⟨same_addPred _ _, ?_, fun h0 => absurd h0 ht, ?_, fun _ _ => rfl, fun _ => hr'⟩
          · intro x; rw [predsOf_addPred]; simp [ht']
          · intro _ j hj; simp [Fn.decIdx, he, hd] at hj

/-- Abstract description of one loop iteration. -/
inductive StepSpec (cls : Classifier P) (c : Call P) : Ctl × Fn P → Ctl × Fn P → Prop
  | stay (fn : Fn P) : StepSpec cls c (.done, fn) (.done, fn)
  | exit (fn : Fn P) : StepSpec cls c (.outer [], fn) (.done, fn)
  | pop {a : Addr} {s : List Addr} {fn fn' : Fn P} (hr : reserved a = false)
      (same : Same fn fn') (preds : ∀ x, fn'.predsOf x = fn.predsOf x)
      (ex : fn'.imap a ≠ none) :
      StepSpec cls c (.outer (a :: s), fn) (.inner s a a true, fn')
  | hit {s : List Addr} {start cur : Addr} {nb : Bool} {fn fn' : Fn P} {j : Nat}
      (hj : fn.decIdx cur = some j) (same : Same fn fn')
      (preds : ∀ x, fn'.predsOf x = fn.predsOf x)
      (marked : ∀ d', fn'.instrs[j]? = some d' → d'.newBlock = true) :
      StepSpec cls c (.inner s start cur nb, fn) (finish c.stop s start cur fn')
  | fail {s : List Addr} {start cur : Addr} {nb : Bool} {fn : Fn P}
      (hj : fn.decIdx cur = none) (hd : c.dec cur = none) :
      StepSpec cls c (.inner s start cur nb, fn) (finish c.stop s start cur fn)
  | decInstr {s : List Addr} {start cur : Addr} {nb : Bool} {fn : Fn P} {len : Nat} {p : P}
      (hj : fn.decIdx cur = none) (hd : c.dec cur = some (len, p)) (hs : c.stop = .instr)
      (i : Inst P) (hi : i = ⟨cur, len, p⟩) :
      StepSpec cls c (.inner s start cur nb, fn) (finish c.stop s start i.stop (fn.push i nb))
  | decEnd {s s' : List Addr} {start cur : Addr} {nb : Bool} {fn fn2 fn3 : Fn P} {len : Nat} {p : P}
      (hj : fn.decIdx cur = none) (hd : c.dec cur = some (len, p)) (hs : c.stop ≠ .instr)
      (i : Inst P) (hi : i = ⟨cur, len, p⟩)
      (ht : TargetSpec (cls i).2 s (fn.push i nb) s' fn2)
      (same : Same fn2 fn3) (preds : ∀ x, fn3.predsOf x = fn2.predsOf x)
      (he : endsStream c.callFn (cls i).1 = true ∨ (endsBlock (cls i).1 = true ∧ c.stop = .block)) :
      StepSpec cls c (.inner s start cur nb, fn) (finish c.stop s' start i.stop fn3)
  | decCont {s s' : List Addr} {start cur : Addr} {nb : Bool} {fn fn2 fn3 : Fn P} {len : Nat} {p : P}
      (hj : fn.decIdx cur = none) (hd : c.dec cur = some (len, p)) (hs : c.stop ≠ .instr)
      (i : Inst P) (hi : i = ⟨cur, len, p⟩)
      (ht : TargetSpec (cls i).2 s (fn.push i nb) s' fn2)
      (same : Same fn2 fn3)
      (preds : ∀ x, fn3.predsOf x = fn2.predsOf x + (if x = i.stop then 1 else 0))
      (ex : fn3.imap i.stop ≠ none)
      (he : endsStream c.callFn (cls i).1 = false)
      (hb : ¬ (endsBlock (cls i).1 = true ∧ c.stop = .block))
      (hr : reserved i.stop = false) :
      StepSpec cls c (.inner s start cur nb, fn)
        (.inner s' start i.stop (endsBlock (cls i).1), fn3)

theorem step_spec {cls : Classifier P} {c : Call P} {σ σ' : Ctl × Fn P}
    (h : step cls c σ = some σ') : StepSpec cls c σ σ' := by
  obtain ⟨ctl, fn⟩ := σ
  cases ctl with
  | done => simp only [step, Option.some.injEq] at h; subst h; exact .stay fn
  | outer s =>
    cases s with
    | nil => simp only [step, Option.some.injEq] at h; subst h; exact .exit fn
    | cons a s =>
      simp only [step] at h
      by_cases hr : reserved a = true
      · simp [hr] at h
      · simp only [hr, Bool.false_eq_true, if_false, Option.some.injEq] at h
        subst h
        refine .pop (by simpa using hr) (same_touch fn a) (predsOf_touch fn a) ?_
        simp [touch]
  | inner s start cur nb =>
    simp only [step] at h
    cases he : fn.imap cur with
    | none => simp [he] at h
    | some e =>
      simp only [he] at h
      by_cases hdec : e.decoded = true
      · simp only [hdec, if_true, Option.some.injEq] at h
        subst h
        refine .hit (j := e.idx) (by simp [Fn.decIdx, he, hdec]) (same_mark fn e.idx)
          (fun _ => rfl) ?_
        intro d' hd'
        simp only [mark_get] at hd'
        cases hx : fn.instrs[e.idx]? with
        | none => rw [hx] at hd'; simp at hd'
        | some d => rw [hx] at hd'; simp at hd'; rw [← hd']
      · simp only [hdec, Bool.false_eq_true, if_false] at h
        have hj : fn.decIdx cur = none := by simp [Fn.decIdx, he, hdec]
        cases hd : c.dec cur with
        | none =>
          simp only [hd, Option.some.injEq] at h
          subst h
          exact .fail hj hd
        | some lp =>
          obtain ⟨len, p⟩ := lp
          simp only [hd, afterDecode] at h
          by_cases hs : c.stop = .instr
          · simp only [hs, if_true, Option.some.injEq] at h
            subst h
            have := StepSpec.decInstr (cls := cls) (s := s) (start := start) (nb := nb)
              hj hd hs ⟨cur, len, p⟩ rfl
            rw [hs] at this
            exact this
          · simp only [hs, if_false] at h
            change (match handleTarget s (fn.push ⟨cur, len, p⟩ nb) (cls ⟨cur, len, p⟩).2 with
              | none => none
              | some (stack, fn) => _) = _ at h
            cases ht : handleTarget s (fn.push ⟨cur, len, p⟩ nb) (cls ⟨cur, len, p⟩).2 with
            | none => simp [ht] at h
            | some r =>
              obtain ⟨s', fn2⟩ := r
              simp only [ht] at h
              have hts := handleTarget_spec ht
              generalize hfn3 : (if (cls ⟨cur, len, p⟩).1 = Kind.call ∧ c.callFn = false then
                { fn2 with instrs := inhibitLast fn2.instrs } else fn2 : Fn P) = fn3 at h
              have hsame : Same fn2 fn3 := by
                rw [← hfn3]; split
                · exact same_inhibit fn2
                · exact Same.refl _
              have hpreds : ∀ x, fn3.predsOf x = fn2.predsOf x := by
                intro x; rw [← hfn3]; split <;> rfl
              by_cases he1 : endsStream c.callFn (cls ⟨cur, len, p⟩).1 = true
              · simp only [he1, if_true, Option.some.injEq] at h
                subst h
                exact .decEnd hj hd hs ⟨cur, len, p⟩ rfl hts hsame hpreds (.inl he1)
              · simp only [he1, Bool.false_eq_true, if_false] at h
                by_cases he2 : endsBlock (cls ⟨cur, len, p⟩).1 = true ∧ c.stop = .block
                · simp only [he2, and_self, if_true, Option.some.injEq] at h
                  subst h
                  have := StepSpec.decEnd (start := start) hj hd hs ⟨cur, len, p⟩ rfl hts hsame hpreds (.inr he2)
                  rw [he2.2] at this
                  exact this
                · simp only [he2, if_false] at h
                  by_cases hr : reserved (Inst.stop ⟨cur, len, p⟩) = true
                  · simp [hr] at h
                  · simp only [hr, Bool.false_eq_true, if_false, Option.some.injEq] at h
                    subst h
                    refine .decCont hj hd hs ⟨cur, len, p⟩ rfl hts
                      (hsame.trans (same_addPred fn3 _)) ?_ ?_ (by simpa using he1) he2
                      (by simpa using hr)
                    · intro x
                      rw [predsOf_addPred, hpreds]
                    · simp [addPred]

end Verif.Decode
