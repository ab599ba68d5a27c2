import Verif.Lift.Model
import Verif.Decode.Closure

/-! Structure of the control-flow graph built by the lifting loop. -/

namespace Verif.Lift

open Verif.Decode Verif.IR

set_option linter.unusedSimpArgs false

variable {P : Type}

/-- The block an address branches to: its own block if a decoded instruction there starts a block,
otherwise the exit block. -/
noncomputable def target (fn : Fn P) (a : Addr) : Id :=
  open Classical in if a ≠ 0 ∧ fn.BlockStart a then .at a else .exit

/-- Successors given by a terminator. -/
def succsOf : Term → List Id
  | .br t => [t]
  | .cond t e => [t, e]

/-- Adding the block `x` if it is missing. -/
def ensure (fn : Fn P) (g : Graph P) : Id → Graph P
  | .at a => fun y =>
    if y = .at a then some ((g y).getD { maxPreds := some (fn.predsOf a) }) else g y
  | _ => g

/-- Adding the edges of a terminator. -/
def link (g : Graph P) (b : Id) (tm : Term) : Graph P := fun x =>
  (g x).map (fun bb =>
    { bb with
      term := if x = b then some tm else bb.term
      succs := if x = b then bb.succs ++ succsOf tm else bb.succs
      preds := if x ∈ succsOf tm then bb.preds ++ [b] else bb.preds })

theorem branchTo_eq (g : Graph P) (b t : Id) : branchTo g b t = link g b (.br t) := by
  funext x
  simp only [branchTo, Graph.modify, link, succsOf, List.mem_singleton]
  by_cases h1 : x = t <;> by_cases h2 : x = b
  · subst h1; subst h2
    cases hg : g x <;> simp [hg]
  · subst h1
    have h3 : ¬ x = b := h2
    cases hg : g x <;> simp [hg, h3]
  · subst h2
    cases hg : g x <;> simp [hg, h1]
  · cases hg : g x <;> simp [hg, h1, h2]

theorem branchCond_eq (g : Graph P) (b t e : Id) :
    branchCond g b t e = link g b (if t = e then .br t else .cond t e) := by
  unfold branchCond
  split
  · exact branchTo_eq g b t
  next hne =>
    funext x
    simp only [Graph.modify, link, succsOf, List.mem_cons, List.not_mem_nil, or_false]
    by_cases h1 : x = t
    · subst h1
      by_cases h2 : x = b
      · subst h2; cases hg : g x <;> simp [hg, hne]
      · cases hg : g x <;> simp [hg, hne, h2]
    · by_cases h3 : x = e
      · subst h3
        by_cases h2 : x = b
        · subst h2; cases hg : g x <;> simp [hg, h1]
        · cases hg : g x <;> simp [hg, h1, h2]
      · by_cases h2 : x = b
        · subst h2; cases hg : g x <;> simp [hg, h1, h3]
        · cases hg : g x <;> simp [hg, h1, h2, h3]

/-! ### Address resolution -/

/-- Only blocks of block starts exist, apart from entry and exit. -/
def Valid (fn : Fn P) (g : Graph P) : Prop :=
  ∀ a bb, g (.at a) = some bb →
    a ≠ 0 ∧ reserved a = false ∧ fn.BlockStart a ∧ bb.maxPreds = some (fn.predsOf a)

theorem blockStart_iff {cls : Classifier P} {fn : Fn P} (hw : WF cls fn) (a : Addr) :
    fn.BlockStart a ↔ ∃ j d, fn.decIdx a = some j ∧ fn.instrs[j]? = some d ∧ d.newBlock = true := by
  constructor
  · rintro ⟨d, hd, rfl, hn⟩
    obtain ⟨j, hj⟩ := List.mem_iff_getElem?.1 hd
    exact ⟨j, d, hw.complete j d hj, hj, hn⟩
  · rintro ⟨j, d, hj, hd, hn⟩
    obtain ⟨d', hd', hs⟩ := hw.sound a j hj
    rw [hd] at hd'
    cases hd'
    exact ⟨d, List.mem_of_getElem? hd, hs, hn⟩

theorem target_exit_or (fn : Fn P) (a : Addr) : target fn a = .exit ∨ target fn a = .at a := by
  unfold target; split
  · exact .inr rfl
  · exact .inl rfl

theorem target_at {fn : Fn P} {a : Addr} (h0 : a ≠ 0) (h : fn.BlockStart a) :
    target fn a = .at a := by
  unfold target; rw [if_pos ⟨h0, h⟩]

theorem target_zero (fn : Fn P) : target fn 0 = .exit := by simp [target]

theorem resolve_eq {cls : Classifier P} {fn : Fn P} (hw : WF cls fn) {g : Graph P} (hv : Valid fn g)
    {a : Addr} {g' : Graph P} {x : Id} (h : resolve fn g a = some (g', x)) :
    x = target fn a ∧ g' = ensure fn g x := by
  unfold resolve at h
  split at h
  next h0 =>
    simp only [Option.some.injEq, Prod.mk.injEq] at h
    obtain ⟨rfl, rfl⟩ := h
    exact ⟨by rw [h0, target_zero], rfl⟩
  next h0 =>
    split at h
    · cases h
    next hr =>
      split at h
      next hs =>
        simp only [Option.some.injEq, Prod.mk.injEq] at h
        obtain ⟨rfl, rfl⟩ := h
        obtain ⟨bb, hbb⟩ := Option.isSome_iff_exists.1 hs
        have := (hv a bb hbb).2.2.1
        refine ⟨(target_at h0 this).symm, ?_⟩
        funext y
        simp only [ensure]
        split
        next hy => subst hy; rw [hbb]; rfl
        · rfl
      next hs =>
        have hnone : g (.at a) = none := by
          cases hg : g (.at a) with
          | none => rfl
          | some _ => simp [hg] at hs
        split at h
        next hm =>
          simp only [Option.some.injEq, Prod.mk.injEq] at h
          obtain ⟨rfl, rfl⟩ := h
          refine ⟨?_, rfl⟩
          have : ¬ fn.BlockStart a := by
            rw [blockStart_iff hw]
            rintro ⟨j, d, hj, -⟩
            simp [Fn.decIdx, hm] at hj
          simp [target, this]
        next e hm =>
          split at h
          next hd =>
            split at h
            · cases h
            next d hdi =>
              split at h
              next hn =>
                simp only [Option.some.injEq, Prod.mk.injEq] at h
                obtain ⟨rfl, rfl⟩ := h
                have : fn.BlockStart a := by
                  rw [blockStart_iff hw]
                  exact ⟨e.idx, d, by simp [Fn.decIdx, hm, hd], hdi, hn⟩
                refine ⟨(target_at h0 this).symm, ?_⟩
                funext y
                simp only [ensure, Graph.set]
                by_cases hy : y = .at a
                · subst hy; simp [hnone, Fn.predsOf, hm]
                · simp [hy]
              next hn =>
                simp only [Option.some.injEq, Prod.mk.injEq] at h
                obtain ⟨rfl, rfl⟩ := h
                refine ⟨?_, rfl⟩
                have : ¬ fn.BlockStart a := by
                  rw [blockStart_iff hw]
                  rintro ⟨j, d', hj, hd', hn'⟩
                  simp only [Fn.decIdx, hm, hd, if_true, Option.some.injEq] at hj
                  subst hj
                  rw [hdi] at hd'
                  cases hd'
                  exact hn hn'
                simp [target, this]
          next hd =>
            simp only [Option.some.injEq, Prod.mk.injEq] at h
            obtain ⟨rfl, rfl⟩ := h
            refine ⟨?_, rfl⟩
            have : ¬ fn.BlockStart a := by
              rw [blockStart_iff hw]
              rintro ⟨j, d, hj, -⟩
              simp [Fn.decIdx, hm, hd] at hj
            simp [target, this]

theorem resolve_reserved {fn : Fn P} {g : Graph P} {a : Addr} {r : Graph P × Id}
    (h : resolve fn g a = some r) : reserved a = false := by
  unfold resolve at h
  split at h
  next h0 => subst h0; decide
  next h0 =>
    split at h
    · cases h
    next hr => simpa using hr

/-- Resolution never fails for addresses that are not reserved. -/
theorem resolve_some {cls : Classifier P} {fn : Fn P} (hw : WF cls fn) {g : Graph P}
    (hv : Valid fn g) {a : Addr} (hr : reserved a = false) :
    resolve fn g a = some (ensure fn g (target fn a), target fn a) := by
  have : ∃ r, resolve fn g a = some r := by
    unfold resolve
    split
    · exact ⟨_, rfl⟩
    · rw [hr]
      simp only [Bool.false_eq_true, if_false]
      split
      · exact ⟨_, rfl⟩
      · split
        · exact ⟨_, rfl⟩
        next e hm =>
          split
          next hd =>
            obtain ⟨d, hdi, -⟩ := hw.sound a e.idx (by simp [Fn.decIdx, hm, hd])
            rw [hdi]
            simp only
            split <;> exact ⟨_, rfl⟩
          · exact ⟨_, rfl⟩
  obtain ⟨⟨g', x⟩, h⟩ := this
  obtain ⟨h1, h2⟩ := resolve_eq hw hv h
  rw [h, h2, h1]

theorem ensure_some {fn : Fn P} {g : Graph P} {y x : Id} {bb : BB P} (h : g y = some bb) :
    ensure fn g x y = some bb := by
  cases x with
  | entry => exact h
  | exit => exact h
  | «at» a => simp only [ensure, h, Option.getD_some, ite_self]

theorem ensure_none_ne {fn : Fn P} {g : Graph P} {y x : Id} (h : y ≠ x) :
    ensure fn g x y = g y := by
  cases x <;> simp [ensure, h]

theorem ensure_cases {fn : Fn P} {g : Graph P} {y x : Id} {bb : BB P}
    (h : ensure fn g x y = some bb) :
    g y = some bb ∨ (g y = none ∧ y = x ∧ ∃ a, x = .at a ∧
      bb = { maxPreds := some (fn.predsOf a) }) := by
  cases x with
  | entry => exact .inl h
  | exit => exact .inl h
  | «at» a =>
    simp only [ensure] at h
    split at h
    next hy =>
      cases hg : g y with
      | none =>
        rw [hg] at h
        simp only [Option.getD_none, Option.some.injEq] at h
        exact .inr ⟨rfl, hy, a, rfl, h.symm⟩
      | some z => rw [hg] at h; exact .inl h
    · exact .inl h

theorem ensure_valid {fn : Fn P} {g : Graph P} (hv : Valid fn g) (a : Addr)
    (hr : reserved a = false) :
    Valid fn (ensure fn g (target fn a)) := by
  intro y bb h
  rcases ensure_cases h with h | ⟨-, h1, b, h2, rfl⟩
  · exact hv y bb h
  · by_cases ha : a ≠ 0 ∧ fn.BlockStart a
    · rw [target_at ha.1 ha.2] at h1 h2
      cases h2; cases h1
      exact ⟨ha.1, hr, ha.2, rfl⟩
    · unfold target at h2
      rw [if_neg ha] at h2
      cases h2

theorem ensure_isSome {fn : Fn P} {g : Graph P} (x : Id) (he : (g .entry).isSome)
    (hx : (g .exit).isSome) : (ensure fn g x x).isSome := by
  cases x with
  | entry => exact he
  | exit => exact hx
  | «at» a => simp [ensure]

end Verif.Lift
