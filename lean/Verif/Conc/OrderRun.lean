import Verif.Conc.Order

/-! The accesses of an execution of `System.run`, and what they find in memory. -/

namespace Verif.Conc

open Verif.IR

variable {σ ι : Type}

/-- The access or fence that thread `t` performs in its next step. -/
def System.event (t : ι) (y : System ι σ) : List (Ev ι) :=
  match y.threads t with
  | .acc e _ =>
    let old := y.mem.read e.addr e.n
    [{ thread := t, isFence := false, ord := e.ord, addr := e.addr, n := e.n, old, new := e.upd.map (· old), reads := e.reads }]
  | .fence o _ => [{ thread := t, isFence := true, ord := o, addr := 0#64, n := 0, old := none, new := none, reads := false }]
  | _ => []

variable [DecidableEq ι]

/-- `System.run` with the list of accesses. -/
def System.trace (prog : ι → σ → Code σ) : List ι → System ι σ → Option (Trace ι × System ι σ)
  | [], y => some ([], y)
  | t :: ts, y => (y.step prog t).bind fun y' => (System.trace prog ts y').map fun p => (y.event t ++ p.1, p.2)

theorem trace_run (prog : ι → σ → Code σ) (ts : List ι) (y : System ι σ) :
    (System.trace prog ts y).map (·.2) = System.run prog ts y := by
  induction ts generalizing y with
  | nil => rfl
  | cons t ts ih =>
    simp only [System.trace, System.run]
    cases h : y.step prog t with
    | none => rfl
    | some y' =>
      simp only [Option.bind_some, Option.map_map]
      exact ih y'

/-- Memory after the accesses of a trace. -/
def memAfter (mem : VMem) : Trace ι → VMem
  | [] => mem
  | e :: tr => memAfter (match e.new with | some v => mem.write e.addr e.n v | none => mem) tr

omit [DecidableEq ι] in
theorem memAfter_append (mem : VMem) (tr tr' : Trace ι) : memAfter mem (tr ++ tr') = memAfter (memAfter mem tr) tr' := by
  induction tr generalizing mem with
  | nil => rfl
  | cons e tr ih => exact ih _

theorem step_mem (prog : ι → σ → Code σ) (t : ι) (y y' : System ι σ) (h : y.step prog t = some y') :
    y'.mem = memAfter y.mem (y.event t) := by
  unfold System.step at h
  unfold System.event
  cases hc : y.threads t with
  | done s => simp only [hc, Option.some.injEq] at h; subst h; rfl
  | ub => simp only [hc, reduceCtorEq] at h
  | fence o k => simp only [hc, Option.some.injEq] at h; subst h; rfl
  | acc e k =>
    simp only [hc, Option.map_eq_some_iff] at h
    obtain ⟨⟨v, mem⟩, hp, rfl⟩ := h
    unfold Acc.perform at hp
    split at hp
    · cases hp
      simp only [memAfter]
      cases e.upd <;> rfl
    · cases hp

/-- What an access finds is what the accesses before it have left. -/
theorem trace_old (prog : ι → σ → Code σ) (ts : List ι) (y y' : System ι σ) (tr : Trace ι)
    (h : System.trace prog ts y = some (tr, y')) (r : Nat) (e : Ev ι) (hr : tr[r]? = some e) (hf : e.isFence = false) :
    e.old = (memAfter y.mem (tr.take r)).read e.addr e.n := by
  induction ts generalizing y tr r with
  | nil => cases h; simp at hr
  | cons t ts ih =>
    simp only [System.trace, Option.bind_eq_some_iff, Option.map_eq_some_iff] at h
    obtain ⟨y1, hs, ⟨tr1, y2⟩, ht, he⟩ := h
    cases he
    have hm := step_mem prog t y y1 hs
    by_cases hlt : r < (y.event t).length
    · rw [List.getElem?_append_left hlt] at hr
      rw [List.take_append_of_le_length (Nat.le_of_lt hlt)]
      unfold System.event at hr hlt ⊢
      cases hc : y.threads t with
      | done s => simp [hc] at hr
      | ub => simp [hc] at hr
      | fence o k =>
        simp only [hc, List.length_singleton, Nat.lt_one_iff] at hr hlt
        subst hlt
        cases hr
        cases hf
      | acc e k =>
        simp only [hc, List.length_singleton, Nat.lt_one_iff] at hr hlt
        subst hlt
        cases hr
        rfl
    · have hle : (y.event t).length ≤ r := Nat.le_of_not_lt hlt
      rw [List.getElem?_append_right hle] at hr
      have := ih y1 tr1 ht (r - (y.event t).length) hr
      rw [this, hm, ← memAfter_append, List.take_append, List.take_of_length_le hle]

/-- The byte of a write, or of the memory at the beginning. -/
def byteOf (mem : VMem) (tr : Trace ι) (b : Addr) : Option Nat → Val 8
  | none => mem b
  | some k => match tr[k]? with
    | some e => e.byte b
    | none => none

omit [DecidableEq ι] in
theorem memAfter_byte (mem : VMem) (e : Ev ι) (b : Addr) :
    memAfter mem [e] b = mem b ∧ ¬ e.wrote b ∨ memAfter mem [e] b = e.byte b ∧ e.wrote b := by
  simp only [memAfter, Ev.wrote, Ev.byte, Ev.hits]
  cases hn : e.new with
  | none => simp
  | some v =>
    simp only [VMem.write, Option.isSome_some, and_true]
    by_cases h : (b - e.addr).toNat < e.n
    · right; rw [if_pos h, if_pos h]; exact ⟨rfl, h⟩
    · left; rw [if_neg h]; exact ⟨rfl, h⟩

omit [DecidableEq ι] in
theorem memAfter_last (mem : VMem) (tr : Trace ι) (b : Addr) (r : Nat) (hr : r ≤ tr.length) {w : Option Nat}
    (hw : tr.isLast b r w) : memAfter mem (tr.take r) b = byteOf mem tr b w := by
  induction r generalizing w with
  | zero =>
    cases w with
    | none => rfl
    | some w => exact absurd hw.1 (Nat.not_lt_zero _)
  | succ r ih =>
    obtain ⟨e, he⟩ : ∃ e, tr[r]? = some e := ⟨tr[r], List.getElem?_eq_getElem (by omega)⟩
    have ht : tr.take (r + 1) = tr.take r ++ [e] := by rw [List.take_add_one, he]; rfl
    rw [ht, memAfter_append]
    rcases memAfter_byte (memAfter mem (tr.take r)) e b with ⟨h1, h2⟩ | ⟨h1, h2⟩
    · rw [h1]
      apply ih (by omega)
      have hnr : ¬ tr.has r (·.wrote b) := by
        rintro ⟨e', he', hw'⟩
        rw [he] at he'
        cases he'
        exact h2 hw'
      cases w with
      | none => exact fun k hk => hw k (by omega)
      | some w =>
        have : w ≠ r := fun h => hnr (h ▸ hw.2.1)
        exact ⟨by have := hw.1; omega, hw.2.1, fun k h1 h2 => hw.2.2 k h1 (by omega)⟩
    · rw [h1]
      have hhas : tr.has r (·.wrote b) := ⟨e, he, h2⟩
      cases w with
      | none => exact absurd hhas (hw r (by omega))
      | some w =>
        have : w = r := by
          have := hw.1
          by_cases h : w = r
          · exact h
          · exact absurd hhas (hw.2.2 r (by omega) (by omega))
        subst this
        simp only [byteOf, he]

/-- C63: if an execution has no data race, every access finds in memory, byte by byte, what the only write that LLVM lets it see has
written: in the interleavings of C62 loads return what they return in LLVM. -/
theorem C63_run (prog : ι → σ → Code σ) (schedule : List ι) (y y' : System ι σ) (tr : Trace ι)
    (h : System.trace prog schedule y = some (tr, y')) (hrace : ∀ b, tr.ordered b) (r : Nat) (e : Ev ι) (hr : tr[r]? = some e)
    (hf : e.isFence = false) :
    ∃ mem : VMem, e.old = mem.read e.addr e.n ∧ ∀ b, e.hits b → ∃ w, tr.sees b r w ∧ mem b = byteOf y.mem tr b w := by
  refine ⟨memAfter y.mem (tr.take r), trace_old prog schedule y y' tr h r e hr hf, fun b hb => ?_⟩
  obtain ⟨w, hw⟩ := tr.exists_last b r
  have hlen : r ≤ tr.length := by
    have := List.getElem?_eq_some_iff.1 hr
    exact Nat.le_of_lt this.1
  exact ⟨w, C63_race_free (hrace b) ⟨e, hr, hb⟩ hw, memAfter_last _ _ _ _ hlen hw⟩

end Verif.Conc
