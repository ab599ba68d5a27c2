import Verif.Decode.Lemmas

/-!
Invariants of the decoder model.  Property statements are in `Verif.Decode.Props`.
-/

namespace Verif.Decode

variable {P : Type}

theorem finish_fst (stop : Stop) (s : List Addr) (start cur : Addr) (fn : Fn P) :
    (finish stop s start cur fn).1 = if stop = .block then .done else .outer s := rfl

theorem finish_instrs (stop : Stop) (s : List Addr) (start cur : Addr) (fn : Fn P) :
    (finish stop s start cur fn).2.instrs = fn.instrs := by
  simp only [finish]; split <;> rfl

theorem finish_imap (stop : Stop) (s : List Addr) (start cur : Addr) (fn : Fn P) :
    (finish stop s start cur fn).2.imap = fn.imap := by
  simp only [finish]; split <;> rfl

theorem finish_decIdx (stop : Stop) (s : List Addr) (start cur : Addr) (fn : Fn P) (a : Addr) :
    (finish stop s start cur fn).2.decIdx a = fn.decIdx a := by
  simp only [Fn.decIdx, finish_imap]

theorem finish_predsOf (stop : Stop) (s : List Addr) (start cur : Addr) (fn : Fn P) (a : Addr) :
    (finish stop s start cur fn).2.predsOf a = fn.predsOf a := by
  simp only [Fn.predsOf, finish_imap]

/-- Map and instruction list agree, and block-start marks are complete. -/
structure WF (cls : Classifier P) (fn : Fn P) : Prop where
  sound : ∀ (a : Addr) (i : Nat), fn.decIdx a = some i →
    ∃ d, fn.instrs[i]? = some d ∧ d.inst.start = a
  complete : ∀ (i : Nat) (d : DInstr P), fn.instrs[i]? = some d → fn.decIdx d.inst.start = some i
  chain : ∀ (i : Nat) (d : DInstr P), fn.instrs[i]? = some d → d.newBlock = false →
    ∃ (j : Nat) (p : DInstr P), i = j + 1 ∧ fn.instrs[j]? = some p ∧
      p.inst.stop = d.inst.start ∧ (cls p.inst).1 = .other

theorem WF.init (cls : Classifier P) : WF cls (Fn.init P) := by
  refine ⟨?_, ?_, ?_⟩
  · intro a i h; simp [Fn.init, Fn.decIdx] at h
  · intro i d h; simp [Fn.init] at h
  · intro i d h; simp [Fn.init] at h

theorem WF.same {cls : Classifier P} {fn fn' : Fn P} (h : WF cls fn) (s : Same fn fn') :
    WF cls fn' := by
  refine ⟨?_, ?_, ?_⟩
  · intro a i hi
    rw [s.dec] at hi
    obtain ⟨d, hd, hs⟩ := h.sound a i hi
    obtain ⟨d', hd', he, -⟩ := s.fwd hd
    exact ⟨d', hd', by rw [he]; exact hs⟩
  · intro i d' hd'
    obtain ⟨d, hd, he, -⟩ := s.bwd hd'
    rw [s.dec, he]
    exact h.complete i d hd
  · intro i d' hd' hnb
    obtain ⟨d, hd, he, hm⟩ := s.bwd hd'
    have : d.newBlock = false := by
      cases hx : d.newBlock with
      | false => rfl
      | true => rw [hm hx] at hnb; cases hnb
    obtain ⟨j, p, hj, hp, hst, hk⟩ := h.chain i d hd this
    obtain ⟨p', hp', hpe, -⟩ := s.fwd hp
    exact ⟨j, p', hj, hp', by rw [hpe, he]; exact hst, by rw [hpe]; exact hk⟩

theorem WF.congr {cls : Classifier P} {fn fn' : Fn P} (h : WF cls fn)
    (h1 : fn'.instrs = fn.instrs) (h2 : ∀ a, fn'.decIdx a = fn.decIdx a) : WF cls fn' := by
  refine ⟨?_, ?_, ?_⟩
  · intro a i hi; rw [h2] at hi; rw [h1]; exact h.sound a i hi
  · intro i d hd; rw [h1] at hd; rw [h2]; exact h.complete i d hd
  · intro i d hd; rw [h1] at hd ⊢; exact h.chain i d hd

theorem WF.finish {cls : Classifier P} {fn : Fn P} (h : WF cls fn) (stop : Stop) (s : List Addr)
    (start cur : Addr) : WF cls (finish stop s start cur fn).2 :=
  h.congr (finish_instrs _ _ _ _ _) (finish_decIdx _ _ _ _ _)

/-- The last decoded instruction falls through to `cur`. -/
def LastFalls (cls : Classifier P) (fn : Fn P) (cur : Addr) : Prop :=
  ∃ (j : Nat) (p : DInstr P), fn.instrs.length = j + 1 ∧ fn.instrs[j]? = some p ∧
    p.inst.stop = cur ∧ (cls p.inst).1 = .other

theorem LastFalls.same {cls : Classifier P} {fn fn' : Fn P} {cur : Addr}
    (h : LastFalls cls fn cur) (s : Same fn fn') : LastFalls cls fn' cur := by
  obtain ⟨j, p, hj, hp, hst, hk⟩ := h
  obtain ⟨p', hp', hpe, -⟩ := s.fwd hp
  exact ⟨j, p', by rw [s.length]; exact hj, hp', by rw [hpe]; exact hst, by rw [hpe]; exact hk⟩

theorem WF.push {cls : Classifier P} {fn : Fn P} (h : WF cls fn) {i : Inst P} {nb : Bool}
    (hn : fn.decIdx i.start = none) (hl : nb = false → LastFalls cls fn i.start) :
    WF cls (fn.push i nb) := by
  have hlt : ∀ {k : Nat} {d : DInstr P}, fn.instrs[k]? = some d → k < fn.instrs.length := by
    intro k d hk
    exact (List.getElem?_eq_some_iff.1 hk).1
  refine ⟨?_, ?_, ?_⟩
  · intro a k hk
    rw [push_decIdx] at hk
    by_cases ha : a = i.start
    · simp only [ha, if_true, Option.some.injEq] at hk
      subst hk
      refine ⟨⟨i, nb, false⟩, ?_, ha.symm⟩
      rw [push_get]; simp
    · simp only [ha, if_false] at hk
      obtain ⟨d, hd, hs⟩ := h.sound a k hk
      exact ⟨d, by rw [push_get, if_pos (hlt hd)]; exact hd, hs⟩
  · intro k d hd
    rw [push_get] at hd
    rw [push_decIdx]
    by_cases hk : k < fn.instrs.length
    · simp only [hk, if_true] at hd
      have := h.complete k d hd
      have hne : d.inst.start ≠ i.start := by
        intro he; rw [he, hn] at this; cases this
      simp [hne, this]
    · simp only [hk, if_false] at hd
      by_cases hk2 : k = fn.instrs.length
      · simp only [hk2, if_true, Option.some.injEq] at hd
        subst hd; simp [hk2]
      · simp [hk2] at hd
  · intro k d hd hnb
    rw [push_get] at hd
    by_cases hk : k < fn.instrs.length
    · simp only [hk, if_true] at hd
      obtain ⟨j, p, hj, hp, hst, hkind⟩ := h.chain k d hd hnb
      exact ⟨j, p, hj, by rw [push_get, if_pos (hlt hp)]; exact hp, hst, hkind⟩
    · simp only [hk, if_false] at hd
      by_cases hk2 : k = fn.instrs.length
      · simp only [hk2, if_true, Option.some.injEq] at hd
        subst hd
        obtain ⟨j, p, hj, hp, hst, hkind⟩ := hl hnb
        exact ⟨j, p, by omega, by rw [push_get, if_pos (hlt hp)]; exact hp, hst, hkind⟩
      · simp [hk2] at hd

/-- Invariant on the control state. -/
def CtlInv (cls : Classifier P) : Ctl × Fn P → Prop
  | (.inner _ _ cur nb, fn) => fn.imap cur ≠ none ∧ (nb = false → LastFalls cls fn cur)
  | _ => True

theorem kind_other_of {callFn : Bool} {k : Kind} (h1 : endsStream callFn k = false)
    (h2 : endsBlock k = false) : k = .other := by
  cases k <;> simp [endsStream, endsBlock] at *

theorem ctlInv_finish (cls : Classifier P) (stop : Stop) (s : List Addr) (start cur : Addr)
    (fn : Fn P) : CtlInv cls (finish stop s start cur fn) := by
  have h := finish_fst stop s start cur fn
  rcases hf : finish stop s start cur fn with ⟨ctl, fn'⟩
  rw [hf] at h
  simp only at h
  subst h
  by_cases hb : stop = .block <;> simp [CtlInv, hb]

theorem lastFalls_push {cls : Classifier P} {fn : Fn P} {i : Inst P} {nb : Bool}
    (hk : (cls i).1 = .other) : LastFalls cls (fn.push i nb) i.stop := by
  refine ⟨fn.instrs.length, ⟨i, nb, false⟩, ?_, ?_, rfl, hk⟩
  · simp [Fn.push]
  · rw [push_get]; simp

theorem wf_step {cls : Classifier P} {c : Call P} {σ σ' : Ctl × Fn P}
    (h : StepSpec cls c σ σ') (hw : WF cls σ.2) (hc : CtlInv cls σ) :
    WF cls σ'.2 ∧ CtlInv cls σ' := by
  cases h with
  | stay fn => exact ⟨hw, trivial⟩
  | exit fn => exact ⟨hw, trivial⟩
  | pop hr same preds ex => exact ⟨hw.same same, ex, by simp⟩
  | hit hj same preds marked => exact ⟨(hw.same same).finish _ _ _ _, ctlInv_finish _ _ _ _ _ _⟩
  | fail hj hd => exact ⟨hw.finish _ _ _ _, ctlInv_finish _ _ _ _ _ _⟩
  | decInstr hj hd hs i hi =>
    subst hi
    exact ⟨(hw.push hj hc.2).finish _ _ _ _, ctlInv_finish _ _ _ _ _ _⟩
  | decEnd hj hd hs i hi ht same preds he =>
    subst hi
    exact ⟨(((hw.push hj hc.2).same ht.same).same same).finish _ _ _ _, ctlInv_finish _ _ _ _ _ _⟩
  | decCont hj hd hs i hi ht same preds ex he hb hr =>
    subst hi
    refine ⟨((hw.push hj hc.2).same ht.same).same same, ex, ?_⟩
    intro hnb
    exact ((lastFalls_push (kind_other_of he hnb)).same ht.same).same same

theorem wf_steps {cls : Classifier P} {c : Call P} : ∀ (n : Nat) {σ σ' : Ctl × Fn P},
    steps cls c n σ = some σ' → WF cls σ.2 → CtlInv cls σ → WF cls σ'.2 ∧ CtlInv cls σ'
  | 0, σ, σ', h, hw, hc => by
    simp only [steps, Option.some.injEq] at h; subst h; exact ⟨hw, hc⟩
  | n + 1, σ, σ', h, hw, hc => by
    simp only [steps] at h
    cases hs : step cls c σ with
    | none => rw [hs] at h; simp at h
    | some τ =>
      rw [hs] at h
      have := wf_step (step_spec hs) hw hc
      exact wf_steps n h this.1 this.2

/-- General induction principle over the iterations of one call. -/
theorem steps_induct {cls : Classifier P} {c : Call P} (I : Ctl × Fn P → Prop)
    (hstep : ∀ σ σ', StepSpec cls c σ σ' → WF cls σ.2 → CtlInv cls σ → I σ → I σ') :
    ∀ (n : Nat) {σ σ' : Ctl × Fn P},
    steps cls c n σ = some σ' → WF cls σ.2 → CtlInv cls σ → I σ → I σ'
  | 0, σ, σ', h, _, _, hi => by
    simp only [steps, Option.some.injEq] at h; subst h; exact hi
  | n + 1, σ, σ', h, hw, hc, hi => by
    simp only [steps] at h
    cases hs : step cls c σ with
    | none => rw [hs] at h; simp at h
    | some τ =>
      rw [hs] at h
      have hsp := step_spec hs
      have := wf_step hsp hw hc
      exact steps_induct I hstep n h this.1 this.2 (hstep σ τ hsp hw hc hi)

theorem wf_returns {cls : Classifier P} {c : Call P} {fn fn' : Fn P}
    (h : Returns cls c fn fn') (hw : WF cls fn) : WF cls fn' := by
  obtain ⟨n, hn⟩ := h
  exact (wf_steps n hn hw trivial).1

theorem countEntry_wf {cls : Classifier P} {fn : Fn P} (hw : WF cls fn) {d : DInstr P}
    (hd : d ∈ fn.instrs) : WF cls (countEntry fn d.inst.start) := by
  have hdec : ∀ a, (countEntry fn d.inst.start).decIdx a = fn.decIdx a := by
    intro a
    obtain ⟨j, hj⟩ := List.mem_iff_getElem?.1 hd
    have := hw.complete j d hj
    simp only [Fn.decIdx, countEntry, addPred]
    by_cases ha : a = d.inst.start
    · subst ha
      simp only [if_true]
      cases hm : fn.imap d.inst.start with
      | none => simp [Fn.decIdx, hm] at this
      | some e => simp
    · simp [ha]
  exact ⟨fun a i h => hw.sound a i (by rw [← hdec]; exact h),
    fun i d' h => by rw [hdec]; exact hw.complete i d' h, hw.chain⟩

theorem predsOf_countEntry (fn : Fn P) (e a : Addr) :
    (countEntry fn e).predsOf a = fn.predsOf a + if a = e then 1 else 0 := by
  simp only [Fn.predsOf, countEntry, addPred]
  by_cases h : a = e
  · subst h
    simp only [if_true]
    cases fn.imap a <;> simp
  · simp [h]

@[simp] theorem lifted_instrs (fn : Fn P) : fn.lifted.instrs = fn.instrs := by
  unfold Fn.lifted; split <;> simp_all [countEntry]

@[simp] theorem lifted_insts (fn : Fn P) : fn.lifted.insts = fn.insts := by
  simp [Fn.insts]

@[simp] theorem lifted_ranges (fn : Fn P) : fn.lifted.ranges = fn.ranges := by
  unfold Fn.lifted; split <;> simp [countEntry]

theorem lifted_blockStart (fn : Fn P) (a : Addr) : fn.lifted.BlockStart a ↔ fn.BlockStart a := by
  simp [Fn.BlockStart]

@[simp] theorem lifted_entry (fn : Fn P) : fn.lifted.entry? = fn.entry? := by
  simp [Fn.entry?]

theorem predsOf_lifted (fn : Fn P) (a : Addr) :
    fn.lifted.predsOf a = fn.predsOf a + if fn.entry? = some a then 1 else 0 := by
  unfold Fn.lifted
  split
  · next h => simp [h, Fn.entry?, Fn.insts]
  · next d l h => simp [h, predsOf_countEntry, eq_comm, Fn.entry?, Fn.insts]

theorem wf_lifted {cls : Classifier P} {fn : Fn P} (hw : WF cls fn) : WF cls fn.lifted := by
  unfold Fn.lifted
  split
  · exact hw
  · next d l h => exact countEntry_wf hw (by simp [h])

theorem wf_hist {cls : Classifier P} {h : List (Call P)} {fn : Fn P} (H : Hist cls h fn) :
    WF cls fn := by
  induction H using Hist.rec' with
  | init => exact WF.init cls
  | call c _ hr ih => exact wf_returns hr ih
  | lift _ ih => exact wf_lifted ih

/-- Induction over the iterations of a returning call. -/
theorem returns_induct {cls : Classifier P} {c : Call P} {fn fn' : Fn P} (I : Ctl × Fn P → Prop)
    (hr : Returns cls c fn fn') (hw : WF cls fn)
    (h0 : I (.outer [c.addr], fn))
    (hstep : ∀ σ σ', StepSpec cls c σ σ' → WF cls σ.2 → CtlInv cls σ → I σ → I σ') :
    I (.done, fn') := by
  obtain ⟨n, hn⟩ := hr
  exact steps_induct I hstep n hn hw trivial h0

end Verif.Decode
