import Verif.Conc.Model

/-! If the code of every instruction has one access at most, threads of lifted code behave like threads that execute whole instructions. -/

namespace Verif.Conc

open Verif.IR

variable {σ ι Γ : Type} [DecidableEq ι]

/-- No further access. -/
def Code.ended : Code σ → Prop
  | .done _ | .ub => True
  | _ => False

/-- At most one access or fence. -/
def Code.single : Code σ → Prop
  | .done _ | .ub => True
  | .acc _ k => ∀ v, (k v).ended
  | .fence _ k => k.ended

/-- Relation between a thread of lifted code and the machine `gstep` that makes whole instructions. -/
structure Matches (prog : ι → σ → Code σ) (gstep : ι → Γ → Option Γ) (gmem : Γ → Mem) (R : ι → σ → Γ → Prop) : Prop where
  /-- other threads do not disturb the relation -/
  stable : ∀ t u m g g', R t m g → u ≠ t → gstep u g = some g' → R t m g'
  /-- the code of an instruction has the right effect when it runs without interruption -/
  right : ∀ t m g g', R t m g → gstep t g = some g' →
    ∃ m', (prog t m).run (gmem g).toV = some (m', (gmem g').toV) ∧ R t m' g'
  /-- it has one access at most -/
  single : ∀ t m g g', R t m g → gstep t g = some g' → (prog t m).single

/-- The threads are between instructions or before the access of the current one. -/
def InSync (prog : ι → σ → Code σ) (gmem : Γ → Mem) (R : ι → σ → Γ → Prop) (y : System ι σ) (g : Γ) : Prop :=
  y.mem = (gmem g).toV ∧ ∀ t, ∃ m, R t m g ∧ (y.threads t = .done m ∨ y.threads t = prog t m ∧ ∀ m', prog t m ≠ .done m')

theorem step_sync {prog : ι → σ → Code σ} {gstep : ι → Γ → Option Γ} {gmem : Γ → Mem} {R : ι → σ → Γ → Prop}
    (h : Matches prog gstep gmem R) {y : System ι σ} {g : Γ} (hy : InSync prog gmem R y g) (t : ι) {g1 : Γ}
    (hg : gstep t g = some g1) :
    ∃ y' g', y.step prog t = some y' ∧ (g' = g ∨ g' = g1) ∧ InSync prog gmem R y' g' := by
  obtain ⟨hm, ht⟩ := hy
  obtain ⟨m, hR, hc⟩ := ht t
  obtain ⟨m', hrun, hR'⟩ := h.right t m g g1 hR hg
  have hs := h.single t m g g1 hR hg
  have hother : ∀ c mem, mem = (gmem g1).toV → (c = .done m') →
      InSync prog gmem R { threads := fun u => if u = t then c else y.threads u, mem } g1 := by
    intro c mem hmem hcm
    refine ⟨hmem, fun u => ?_⟩
    by_cases hu : u = t
    · subst hu
      exact ⟨m', hR', .inl (by simp [hcm])⟩
    · obtain ⟨mu, hRu, hcu⟩ := ht u
      exact ⟨mu, h.stable u t mu g g1 hRu (Ne.symm hu) hg, by simpa [hu] using hcu⟩
  rcases hc with hc | ⟨hc, hnd⟩
  · -- the next instruction starts
    cases hp : prog t m with
    | done m2 =>
      rw [hp] at hrun
      simp only [Code.run, Option.some.injEq, Prod.mk.injEq] at hrun
      refine ⟨⟨fun u => if u = t then prog t m else y.threads u, y.mem⟩, g1, by simp only [System.step, hc], .inr rfl, ?_⟩
      exact hother _ _ (hm.trans hrun.2) (by rw [hp, hrun.1])
    | _ =>
      refine ⟨⟨fun u => if u = t then prog t m else y.threads u, y.mem⟩, g, by simp only [System.step, hc], .inl rfl, hm,
        fun u => ?_⟩
      by_cases hu : u = t
      · subst hu
        exact ⟨m, hR, .inr ⟨by simp, by simp [hp]⟩⟩
      · obtain ⟨mu, hRu, hcu⟩ := ht u
        exact ⟨mu, hRu, by simpa [hu] using hcu⟩
  · -- the access of the current instruction
    cases hp : prog t m with
    | done m2 => exact absurd hp (hnd m2)
    | ub => rw [hp] at hrun; cases hrun
    | fence o k =>
      rw [hp] at hrun hs
      simp only [Code.run] at hrun
      cases k with
      | done m2 =>
        simp only [Code.run, Option.some.injEq, Prod.mk.injEq] at hrun
        exact ⟨⟨fun u => if u = t then .done m2 else y.threads u, y.mem⟩, g1, by simp only [System.step, hc, hp], .inr rfl,
          hother _ _ (hm.trans hrun.2) (by rw [hrun.1])⟩
      | ub => cases hrun
      | _ => cases hs
    | acc e k =>
      rw [hp] at hrun hs
      simp only [Code.run, Option.bind_eq_some_iff] at hrun
      obtain ⟨⟨v, mem⟩, hpf, hk⟩ := hrun
      have hsv := hs v
      simp only at hk
      cases hkv : k v with
      | done m2 =>
        rw [hkv] at hk
        simp only [Code.run, Option.some.injEq, Prod.mk.injEq] at hk
        refine ⟨⟨fun u => if u = t then k v else y.threads u, mem⟩, g1, ?_, .inr rfl, hother (k v) mem hk.2 (by rw [hkv, hk.1])⟩
        simp only [System.step, hc, hp, hm, hpf, Option.map_some]
      | ub => rw [hkv] at hk; cases hk
      | _ => rw [hkv] at hsv; cases hsv

omit [DecidableEq ι] in
theorem runG_append (gstep : ι → Γ → Option Γ) (a b : List ι) (g : Γ) :
    runG gstep (a ++ b) g = (runG gstep a g).bind (runG gstep b) := by
  induction a generalizing g with
  | nil => rfl
  | cons t a ih =>
    simp only [List.cons_append, runG]
    cases gstep t g with
    | none => rfl
    | some g1 => exact ih g1

/-- Every interleaving of the accesses amounts to an interleaving of whole instructions, and is defined, if every thread of the machine
can always go on. -/
theorem run_sync {prog : ι → σ → Code σ} {gstep : ι → Γ → Option Γ} {gmem : Γ → Mem} {R : ι → σ → Γ → Prop}
    (h : Matches prog gstep gmem R) (sched : List ι) (y : System ι σ) (g : Γ) (hy : InSync prog gmem R y g)
    (hsafe : ∀ gs g', runG gstep gs g = some g' → ∀ t, (gstep t g').isSome) :
    ∃ y' gs g', y.run prog sched = some y' ∧ runG gstep gs g = some g' ∧ InSync prog gmem R y' g' := by
  induction sched generalizing y g with
  | nil => exact ⟨y, [], g, rfl, rfl, hy⟩
  | cons t ts ih =>
    obtain ⟨g1, hg⟩ := Option.isSome_iff_exists.1 (hsafe [] g rfl t)
    obtain ⟨y1, g2, hy1, hg2, hs1⟩ := step_sync h hy t hg
    have hre : ∃ pre, runG gstep pre g = some g2 := by
      rcases hg2 with rfl | rfl
      · exact ⟨[], rfl⟩
      · exact ⟨[t], by simp [runG, hg]⟩
    obtain ⟨pre, hpre⟩ := hre
    obtain ⟨y', gs, g', h1, h2, h3⟩ := ih y1 g2 hs1 (fun gs g' hgs t => by
      refine hsafe (pre ++ gs) g' ?_ t
      rw [runG_append, hpre]
      exact hgs)
    refine ⟨y', pre ++ gs, g', ?_, ?_, h3⟩
    · simp only [System.run, hy1, Option.bind_some, h1]
    · rw [runG_append, hpre]
      exact h2

end Verif.Conc
