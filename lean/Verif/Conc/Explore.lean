import Verif.Conc.Model

/-! All executions of a machine that stops after a bounded number of steps. -/

namespace Verif.Conc

variable {L Γ : Type}

/-- `ok` holds in every state that can be reached, and there are no more than `n` steps. -/
def explore (labels : List L) (gstep : L → Γ → Option Γ) (ok : Γ → Bool) : Nat → Γ → Bool
  | 0, g => ok g && labels.all fun t => (gstep t g).isNone
  | n + 1, g => ok g && labels.all fun t => match gstep t g with
    | none => true
    | some g' => explore labels gstep ok n g'

theorem explore_sound {labels : List L} (hl : ∀ t, t ∈ labels) {gstep : L → Γ → Option Γ} {ok : Γ → Bool} (n : Nat) (g : Γ)
    (h : explore labels gstep ok n g = true) (order : List L) (g' : Γ) (hr : runG gstep order g = some g') : ok g' = true := by
  induction order generalizing n g with
  | nil =>
    cases hr
    cases n <;> (simp only [explore, Bool.and_eq_true] at h; exact h.1)
  | cons t order ih =>
    simp only [runG, Option.bind_eq_some_iff] at hr
    obtain ⟨g1, h1, h2⟩ := hr
    cases n with
    | zero =>
      simp only [explore, Bool.and_eq_true, List.all_eq_true] at h
      have := h.2 t (hl t)
      rw [h1] at this
      cases this
    | succ n =>
      simp only [explore, Bool.and_eq_true, List.all_eq_true] at h
      have := h.2 t (hl t)
      rw [h1] at this
      exact ih n g1 this h2

end Verif.Conc
