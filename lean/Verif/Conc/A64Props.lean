import Verif.Conc.A64Run
import Verif.Conc.A64Cpus

/-! C62 for AArch64: threads that execute lifted code on shared memory, for every schedule. -/

namespace Verif.Conc.A64

open Verif.IR Verif.A64 Verif.A64.Spec

variable {ι : Type}

/-- The registers of thread `t` represent those of processor `t`. -/
def ThreadRel (slide : BitVec 64) (t : ι) (m : St) (g : Cpus ι) : Prop := Rel slide (setMem g.mem.toV m) (g.at t)

variable [DecidableEq ι]

open Classical in
/-- The machine that stops at instructions that are not `Good`. -/
noncomputable def goodStep (cfg : Cfg) (fetch : BitVec 64 → Option (Instr × Nat × Bool)) (t : ι) (g : Cpus ι) : Option (Cpus ι) :=
  if g.Good cfg fetch t then g.step cfg fetch t else none

variable {cfg : Cfg} {slide : BitVec 64} {fetch : BitVec 64 → Option (Instr × Nat × Bool)}

theorem goodStep_eq {t : ι} {g g' : Cpus ι} (h : goodStep cfg fetch t g = some g') :
    g.Good cfg fetch t ∧ g.step cfg fetch t = some g' := by
  unfold goodStep at h
  split at h
  · rename_i hg
    exact ⟨hg, h⟩
  · cases h

theorem good_isSome {t : ι} {g : Cpus ι} (h : g.Good cfg fetch t) : (goodStep cfg fetch t g).isSome := by
  unfold goodStep
  rw [if_pos h]
  obtain ⟨i, len, ex, hf, -, he, ho, -, hm⟩ := h
  unfold Cpus.step Cpus.exec
  rw [hf]
  simp only [ho, Bool.false_eq_true, if_false, if_pos hm, Option.isSome_map]
  exact he

theorem goodRun (gs : List ι) (g g' : Cpus ι) (h : runG (goodStep cfg fetch) gs g = some g') :
    runG (Cpus.step cfg fetch) gs g = some g' := by
  induction gs generalizing g with
  | nil => exact h
  | cons t gs ih =>
    simp only [runG, Option.bind_eq_some_iff] at h ⊢
    obtain ⟨g1, h1, h2⟩ := h
    exact ⟨g1, (goodStep_eq h1).2, ih g1 h2⟩

theorem rel_stable (t u : ι) (m : St) (g g' : Cpus ι)
    (h : ThreadRel slide t m g) (hu : u ≠ t) (hs : g.step cfg fetch u = some g') : ThreadRel slide t m g' := by
  have hh : g'.cpu t = g.cpu t := by
    unfold Cpus.step at hs
    split at hs
    · cases hs
    · unfold Cpus.exec at hs
      split at hs
      · cases hs
      · split at hs
        · simp only [Option.map_eq_some_iff] at hs
          obtain ⟨s, -, rfl⟩ := hs
          simp [Ne.symm hu]
        · simp only [Option.map_eq_some_iff] at hs
          obtain ⟨s, -, rfl⟩ := hs
          simp [Ne.symm hu]
  obtain ⟨h1, h2, h3, h4, -, h5, h6⟩ := h
  refine ⟨?_, ?_, ?_, ?_, rfl, ?_, ?_⟩ <;> simp only [Cpus.at, hh] at * <;> assumption

omit [DecidableEq ι] in
theorem good_code {t : ι} {m : St} {g : Cpus ι} (hr : ThreadRel slide t m g) {i : Instr} {len : Nat} {ex : Bool}
    (hf : fetch (g.cpu t).pc = some (i, len, ex)) : aProg slide cfg fetch m = aCode slide cfg i ((g.cpu t).pc - slide) len m := by
  have hpc : m.pc.val slide = some (g.cpu t).pc := hr.pc
  unfold aProg
  rw [hpc]
  simp only [hf]

theorem after_mem (s : S) (i : Instr) : (after cfg s i).mem = s.mem := by
  cases i <;> first | rfl | (simp only [after, callFl]; split <;> rfl)

theorem matches_a64 (hcall : cfg.callFunction = none) :
    Matches (fun _ : ι => aProg slide cfg fetch) (goodStep cfg fetch) Cpus.mem (ThreadRel slide) where
  stable t u m g g' h hu hs := rel_stable t u m g g' h hu (goodStep_eq hs).2
  right t m g g' h hs := by
    obtain ⟨hg, hs⟩ := goodStep_eq hs
    obtain ⟨i, len, ex, hf, hsup, he, ho, -, hmk⟩ := hg
    obtain ⟨s', he⟩ := Option.isSome_iff_exists.1 he
    obtain ⟨m', hl, hr'⟩ := A64_instruction_partial (slide := slide) i hsup he ((g.cpu t).pc - slide) (setMem g.mem.toV m) h
      (BitVec.sub_add_cancel _ _).symm
    have hrun := aCode_run (slide := slide) cfg i ho hcall ((g.cpu t).pc - slide) len m g.mem.toV
    rw [hl] at hrun
    obtain ⟨⟨mr, memr⟩, hcr, hmr⟩ := Option.map_eq_some_iff.1 hrun
    simp only at hmr
    subst hmr
    unfold Cpus.step Cpus.exec at hs
    rw [hf] at hs
    simp only [ho, Bool.false_eq_true, if_false, if_pos hmk, he, Option.map_some, Option.some.injEq] at hs
    subst hs
    simp only [good_code h hf]
    refine ⟨mr, ?_, ?_⟩
    · rw [hcr, show memr = _ from hr'.mem, after_mem]
    · obtain ⟨h1, h2, h3, h4, h5, h6, h7⟩ := hr'
      refine ⟨?_, ?_, ?_, ?_, rfl, ?_, ?_⟩ <;> simp only [Cpus.at, setMem, if_true] at * <;> assumption
  single t m g g' h hs := by
    obtain ⟨i, len, ex, hf, -, -, -, ha, -⟩ := (goodStep_eq hs).1
    simp only [good_code h hf]
    exact aCode_single _ _ ha _ _ _

/-- C62, AArch64: threads execute lifted code on shared memory, in any interleaving of their memory accesses.  If the processors
never come to an instruction that is not `Good`, the lifted code is never undefined and does what the processors do in some order
of whole instructions: memory is the same, and every thread is between two instructions, or has only begun the next, with the registers
of its processor.  Missing: instructions that are not `Good`, among them load and store pairs and the SIMD loads and stores (which the
architecture does not make atomic as a whole), and the flags that `after` leaves out. -/
theorem C62_a64_partial (hcall : cfg.callFunction = none) (regs : ι → St) (g : Cpus ι)
    (hrel : ∀ t, Rel slide { regs t with mem := g.mem.toV } (g.at t))
    (hgood : ∀ order g', runG (Cpus.step cfg fetch) order g = some g' → ∀ t, g'.Good cfg fetch t) (schedule : List ι) :
    ∃ y order g', System.run (fun _ => aProg slide cfg fetch) schedule { threads := fun t => .done (regs t), mem := g.mem.toV } =
        some y ∧
      runG (Cpus.step cfg fetch) order g = some g' ∧ y.mem = g'.mem.toV ∧
      ∀ t, ∃ m, Rel slide { m with mem := g'.mem.toV } (g'.at t) ∧
        (y.threads t = .done m ∨ y.threads t = aProg slide cfg fetch m ∧ ∀ m', aProg slide cfg fetch m ≠ .done m') := by
  obtain ⟨y, order, g', h1, h2, h3, h4⟩ := run_sync (matches_a64 (ι := ι) (slide := slide) (fetch := fetch) hcall) schedule
    { threads := fun t => .done (regs t), mem := g.mem.toV } g ⟨rfl, fun t => ⟨regs t, hrel t, .inl rfl⟩⟩
    (fun gs g' h t => good_isSome (hgood gs g' (goodRun _ _ _ h) t))
  exact ⟨y, order, g', h1, goodRun _ _ _ h2, h3, h4⟩

end Verif.Conc.A64
