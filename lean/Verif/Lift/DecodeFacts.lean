import Verif.Decode.Props

/-! Further facts about decoding used by the lifting stage. -/

namespace Verif.Decode

variable {P : Type}

/-- No instruction is decoded at an address that the map type reserves. -/
def NotRes (σ : Ctl × Fn P) : Prop :=
  (∀ i ∈ σ.2.insts, reserved i.start = false) ∧
  ∀ s st cur nb, σ.1 = .inner s st cur nb → reserved cur = false

theorem notRes_step {cls : Classifier P} {c : Call P} {σ σ' : Ctl × Fn P}
    (h : StepSpec cls c σ σ') (hi : NotRes σ) : NotRes σ' := by
  have hfin : ∀ (s : List Addr) (st cur : Addr) (fn : Fn P),
      (∀ i ∈ fn.insts, reserved i.start = false) → NotRes (finish c.stop s st cur fn) := by
    intro s st cur fn hf
    refine ⟨?_, ?_⟩
    · rw [finish_insts]; exact hf
    · intro s' st' cur' nb' he
      simp only [finish] at he
      split at he <;> cases he
  have hpush : ∀ (fn : Fn P) (i : Inst P) (nb : Bool), (∀ i ∈ fn.insts, reserved i.start = false) →
      reserved i.start = false → ∀ j ∈ (fn.push i nb).insts, reserved j.start = false := by
    intro fn i nb hf hi j hj
    rw [push_insts] at hj
    simp only [List.mem_append, List.mem_singleton] at hj
    rcases hj with hj | rfl
    · exact hf j hj
    · exact hi
  cases h with
  | stay fn => exact hi
  | exit fn => exact ⟨hi.1, by intro _ _ _ _ h; cases h⟩
  | pop hr same preds ex =>
    refine ⟨?_, ?_⟩
    · simp only; rw [same.insts_eq]; exact hi.1
    · intro s st cur nb he; cases he; exact hr
  | hit hj same preds marked => exact hfin _ _ _ _ (by rw [same.insts_eq]; exact hi.1)
  | fail hj hd => exact hfin _ _ _ _ hi.1
  | decInstr hj hd hs i hie =>
    refine hfin _ _ _ _ (hpush _ _ _ hi.1 ?_)
    rw [hie]; exact hi.2 _ _ _ _ rfl
  | decEnd hj hd hs i hie ht same preds he =>
    refine hfin _ _ _ _ ?_
    rw [same.insts_eq, ht.same.insts_eq]
    refine hpush _ _ _ hi.1 ?_
    rw [hie]; exact hi.2 _ _ _ _ rfl
  | decCont hj hd hs i hie ht same preds ex he hb hr =>
    refine ⟨?_, ?_⟩
    · simp only
      rw [same.insts_eq, ht.same.insts_eq]
      refine hpush _ _ _ hi.1 ?_
      rw [hie]; exact hi.2 _ _ _ _ rfl
    · intro s st cur nb he'; cases he'; exact hr

theorem notRes_hist {cls : Classifier P} {h : List (Call P)} {fn : Fn P} (H : Hist cls h fn) :
    ∀ i ∈ fn.insts, reserved i.start = false := by
  induction H using Hist.rec' with
  | init => intro i hi; cases hi
  | lift _ ih => simpa using ih
  | call c H hr ih =>
    have := returns_induct NotRes hr (wf_hist H) ⟨ih, by intro _ _ _ _ h; cases h⟩
      (fun _ _ hs _ _ hi => notRes_step hs hi)
    exact this.1

/-- Branches out of calls are inhibited exactly when calls are not lifted as calls. -/
def Inh (cls : Classifier P) (callFn : Bool) (l : List (DInstr P)) : Prop :=
  ∀ d ∈ l, d.inhibit = true ↔ ((cls d.inst).1 = .call ∧ callFn = false)

theorem inh_mark {cls : Classifier P} {cf : Bool} {l : List (DInstr P)} (h : Inh cls cf l) (j : Nat) :
    Inh cls cf (mark l j) := by
  intro d hd
  obtain ⟨k, hk⟩ := List.mem_iff_getElem?.1 hd
  simp only [mark, List.getElem?_modify] at hk
  cases hx : l[k]? with
  | none => simp [hx] at hk
  | some d' =>
    rw [hx] at hk
    simp only [Option.map_eq_map, Option.map_some, Option.some.injEq] at hk
    have := h d' (List.mem_of_getElem? hx)
    split at hk <;> (rw [← hk]; exact this)

theorem inh_push {cls : Classifier P} {cf : Bool} {l : List (DInstr P)} (h : Inh cls cf l)
    (d : DInstr P) (hd : d.inhibit = true ↔ ((cls d.inst).1 = .call ∧ cf = false)) :
    Inh cls cf (l ++ [d]) := by
  intro x hx
  simp only [List.mem_append, List.mem_singleton] at hx
  rcases hx with hx | rfl
  · exact h x hx
  · exact hd

theorem inhibitLast_push (l : List (DInstr P)) (d : DInstr P) :
    inhibitLast (l ++ [d]) = l ++ [{ d with inhibit := true }] := by
  apply List.ext_getElem?
  intro k
  simp only [inhibitLast, List.getElem?_modify, List.length_append, List.length_singleton,
    Nat.add_sub_cancel]
  by_cases hk : k < l.length
  · rw [List.getElem?_append_left hk, List.getElem?_append_left hk]
    have : ¬ l.length = k := by omega
    cases l[k]? <;> simp [this]
  · rw [List.getElem?_append_right (by omega), List.getElem?_append_right (by omega)]
    by_cases hk2 : k = l.length
    · subst hk2; simp
    · have : ¬ l.length = k := by omega
      rw [List.getElem?_eq_none (by simp; omega), List.getElem?_eq_none (by simp; omega)]
      rfl

theorem mark_push (l : List (DInstr P)) (d : DInstr P) (j : Nat) :
    ∃ nb, mark (l ++ [d]) j = mark l j ++ [{ d with newBlock := nb }] := by
  by_cases hj : j = l.length
  · refine ⟨true, ?_⟩
    apply List.ext_getElem?
    intro k
    have hml : (mark l j).length = l.length := by simp [mark]
    by_cases hk : k < l.length
    · rw [List.getElem?_append_left (by rw [hml]; exact hk)]
      simp only [mark, List.getElem?_modify]
      rw [List.getElem?_append_left hk]
    · rw [List.getElem?_append_right (by rw [hml]; omega), hml]
      simp only [mark, List.getElem?_modify]
      rw [List.getElem?_append_right (by omega)]
      by_cases hk2 : k = l.length
      · subst hk2; simp [hj]
      · rw [List.getElem?_eq_none (by simp; omega), List.getElem?_eq_none (by simp; omega)]
        rfl
  · refine ⟨d.newBlock, ?_⟩
    apply List.ext_getElem?
    intro k
    have hml : (mark l j).length = l.length := by simp [mark]
    by_cases hk : k < l.length
    · rw [List.getElem?_append_left (by rw [hml]; exact hk)]
      simp only [mark, List.getElem?_modify]
      rw [List.getElem?_append_left hk]
    · rw [List.getElem?_append_right (by rw [hml]; omega), hml]
      simp only [mark, List.getElem?_modify]
      rw [List.getElem?_append_right (by omega)]
      by_cases hk2 : k = l.length
      · subst hk2; simp [hj]
      · rw [List.getElem?_eq_none (by simp; omega)]
        rfl

theorem handleTarget_push {t : Addr} {s s' : List Addr} {fn fn' : Fn P} {l : List (DInstr P)}
    {d : DInstr P} (hl : fn.instrs = l ++ [d]) (h : handleTarget s fn t = some (s', fn')) :
    ∃ nb l', fn'.instrs = l' ++ [{ d with newBlock := nb }] ∧ (l' = l ∨ ∃ j, l' = mark l j) := by
  unfold handleTarget at h
  split at h
  · simp only [Option.some.injEq, Prod.mk.injEq] at h
    obtain ⟨-, rfl⟩ := h
    exact ⟨d.newBlock, l, hl, .inl rfl⟩
  · split at h
    · cases h
    · simp only at h
      split at h
      · split at h
        · simp only [Option.some.injEq, Prod.mk.injEq] at h
          obtain ⟨-, rfl⟩ := h
          simp only [hl]
          rename_i e _ _
          obtain ⟨nb, hm⟩ := mark_push l d e.idx
          exact ⟨nb, _, hm, .inr ⟨_, rfl⟩⟩
        · simp only [Option.some.injEq, Prod.mk.injEq] at h
          obtain ⟨-, rfl⟩ := h
          exact ⟨d.newBlock, l, hl, .inl rfl⟩
      · simp only [Option.some.injEq, Prod.mk.injEq] at h
        obtain ⟨-, rfl⟩ := h
        exact ⟨d.newBlock, l, hl, .inl rfl⟩

theorem inh_step {cls : Classifier P} {c : Call P} {σ σ' : Ctl × Fn P}
    (h : step cls c σ = some σ') (hs : c.stop ≠ .instr) (hi : Inh cls c.callFn σ.2.instrs) :
    Inh cls c.callFn σ'.2.instrs := by
  have hfin : ∀ (s : List Addr) (st cur : Addr) (fn : Fn P),
      (finish c.stop s st cur fn).2.instrs = fn.instrs := by
    intro s st cur fn; simp only [finish]; split <;> rfl
  obtain ⟨ctl, fn⟩ := σ
  cases ctl with
  | done => simp only [step, Option.some.injEq] at h; subst h; exact hi
  | outer s =>
    cases s with
    | nil => simp only [step, Option.some.injEq] at h; subst h; exact hi
    | cons a s =>
      simp only [step] at h
      split at h
      · cases h
      · simp only [Option.some.injEq] at h; subst h; exact hi
  | inner s start cur nb =>
    simp only [step] at h
    split at h
    · cases h
    next e he =>
      split at h
      · simp only [Option.some.injEq] at h
        subst h
        rw [hfin]
        exact inh_mark hi e.idx
      · split at h
        · simp only [Option.some.injEq] at h
          subst h
          rw [hfin]; exact hi
        next len p hd =>
          unfold afterDecode at h
          rw [if_neg hs] at h
          split at h
          · cases h
          next s2 fn2 ht =>
            obtain ⟨nb2, l', hl', hm⟩ := handleTarget_push rfl ht
            have hil : Inh cls c.callFn l' := by
              rcases hm with rfl | ⟨j, rfl⟩
              · exact hi
              · exact inh_mark hi j
            generalize hii : (⟨cur, len, p⟩ : Inst P) = i at *
            have hfin2 : Inh cls c.callFn (if (cls i).1 = .call ∧ c.callFn = false then
                { fn2 with instrs := inhibitLast fn2.instrs } else fn2).instrs := by
              split
              next hc =>
                simp only [hl', inhibitLast_push]
                exact inh_push hil _ (by simp [hc])
              next hc =>
                rw [hl']
                exact inh_push hil _ (by simpa using hc)
            simp only at h
            generalize (if (cls i).1 = .call ∧ c.callFn = false then
                { fn2 with instrs := inhibitLast fn2.instrs } else fn2) = fn3 at h hfin2
            split at h
            · simp only [Option.some.injEq] at h
              subst h
              rw [hfin]; exact hfin2
            · split at h
              · simp only [Option.some.injEq] at h
                subst h
                rw [hfin]; exact hfin2
              · split at h
                · cases h
                · simp only [Option.some.injEq] at h
                  subst h
                  exact hfin2

theorem inh_steps {cls : Classifier P} {c : Call P} (hs : c.stop ≠ .instr) (n : Nat) :
    ∀ {σ σ' : Ctl × Fn P}, steps cls c n σ = some σ' → Inh cls c.callFn σ.2.instrs →
      Inh cls c.callFn σ'.2.instrs := by
  induction n with
  | zero => intro σ σ' h hi; simp only [steps, Option.some.injEq] at h; subst h; exact hi
  | succ n ih =>
    intro σ σ' h hi
    rw [steps] at h
    obtain ⟨σ1, h1, h2⟩ := Option.bind_eq_some_iff.1 h
    exact ih h2 (inh_step h1 hs hi)

theorem inh_hist {cls : Classifier P} {h : List (Call P)} {fn : Fn P} (callFn : Bool)
    (H : Hist cls h fn) (hall : ∀ c ∈ h, c.stop ≠ .instr ∧ c.callFn = callFn) :
    Inh cls callFn fn.instrs := by
  induction H using Hist.rec' with
  | init => intro d hd; cases hd
  | lift _ ih => simpa using ih hall
  | call c H hr ih =>
    obtain ⟨h1, h2⟩ := hall c List.mem_cons_self
    have := ih (fun c' hc' => hall c' (List.mem_cons_of_mem _ hc'))
    obtain ⟨n, hn⟩ := hr
    rw [← h2] at this ⊢
    exact inh_steps h1 n hn this

/-- Branches out of calls that are not lifted as calls are inhibited. -/
def Inhibited (cls : Classifier P) (callFn : Bool) (l : List (DInstr P)) : Prop :=
  ∀ d ∈ l, ((cls d.inst).1 = .call ∧ callFn = false) → d.inhibit = true

theorem Counted.inhibited {cls : Classifier P} {h : List (Call P)} {fn : Fn P} {callFn : Bool}
    (H : Hist cls h fn) (hc : Counted cls callFn h fn) : Inhibited cls callFn fn.instrs := by
  intro d hd hk
  by_cases hall : ∀ c ∈ h, c.stop ≠ .instr
  · exact (inh_hist callFn H (fun c hc' => ⟨hall c hc', hc.same c hc'⟩) d hd).2 hk
  · simp only [not_forall, Classical.not_not] at hall
    obtain ⟨c, hc1, hc2⟩ := hall
    rcases hc.calls c hc1 hc2 with h1 | h1
    · rw [hk.2] at h1; cases h1
    · exact absurd hk.1 (h1 d.inst (List.mem_map.2 ⟨d, hd, rfl⟩))

end Verif.Decode
