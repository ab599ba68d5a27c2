import Verif.Conc.X86Run
import Verif.Conc.Lemmas
import Verif.X86.All

/-! C62 for x86-64: threads that execute lifted code on shared memory, for every schedule. -/

namespace Verif.Conc.X86

open Verif.IR Verif.X86 Verif.X86.Spec

/-- x86-64 processors that share memory (the `mem` component of `cpu` is not used): every instruction is one step, which is what the
architecture says of instructions with one access and of those with the LOCK prefix, see `Cpus.Good`. -/
structure Cpus (ι : Type) where
  cpu : ι → S
  mem : Mem

variable {ι : Type}

/-- The machine as processor `t` sees it. -/
def Cpus.at (g : Cpus ι) (t : ι) : S := { g.cpu t with mem := g.mem }

variable [DecidableEq ι]

/-- Processor `t` makes a step.  As in the theorems about single instructions, nothing is claimed about the flags that `after`
leaves out. -/
def Cpus.step (cfg : Cfg) (fetch : BitVec 64 → Option (Instr × Nat)) (t : ι) (g : Cpus ι) : Option (Cpus ι) :=
  match fetch (g.cpu t).ip with
  | none => none
  | some (i, len) => (Spec.step i len (g.at t)).map fun s =>
    let s := after cfg len (g.at t) s i
    { cpu := fun u => if u = t then s else g.cpu u, mem := s.mem }

/-- What `C62_x86_partial` asks of the next instruction of processor `t`: it exists, is specified, is not one of the cases in which
the lifted code is wrong even for a single processor, and has one memory access at most.  An instruction that reads and writes
memory has one access if it has the LOCK prefix, or is XCHG, and two otherwise. -/
def Cpus.Good (slide : BitVec 64) (cfg : Cfg) (fetch : BitVec 64 → Option (Instr × Nat)) (g : Cpus ι) (t : ι) : Prop :=
  ∃ i len, fetch (g.cpu t).ip = some (i, len) ∧ Supported cfg len (g.at t) i ∧ (Spec.step i len (g.at t)).isSome ∧
    (noAccess i = true ∨ ∀ m, (xBody slide cfg i m .done).isSome) ∧ accesses i ≤ 1

/-- The registers of thread `t` represent those of processor `t`. -/
def ThreadRel (slide : BitVec 64) (t : ι) (m : St) (g : Cpus ι) : Prop := Rel slide (setMem g.mem.toV m) (g.at t)

open Classical in
/-- The machine that stops at instructions that are not `Good`. -/
noncomputable def goodStep (slide : BitVec 64) (cfg : Cfg) (fetch : BitVec 64 → Option (Instr × Nat)) (t : ι) (g : Cpus ι) :
    Option (Cpus ι) :=
  if g.Good slide cfg fetch t then g.step cfg fetch t else none

variable {cfg : Cfg} {slide : BitVec 64} {fetch : BitVec 64 → Option (Instr × Nat)}

theorem goodStep_eq {t : ι} {g g' : Cpus ι} (h : goodStep slide cfg fetch t g = some g') :
    g.Good slide cfg fetch t ∧ g.step cfg fetch t = some g' := by
  unfold goodStep at h
  split at h
  · rename_i hg
    exact ⟨hg, h⟩
  · cases h

theorem good_isSome {t : ι} {g : Cpus ι} (h : g.Good slide cfg fetch t) : (goodStep slide cfg fetch t g).isSome := by
  unfold goodStep
  rw [if_pos h]
  obtain ⟨i, len, hf, -, he, -⟩ := h
  unfold Cpus.step
  rw [hf]
  simp only [Option.isSome_map]
  exact he

theorem goodRun (gs : List ι) (g g' : Cpus ι) (h : runG (goodStep slide cfg fetch) gs g = some g') :
    runG (Cpus.step cfg fetch) gs g = some g' := by
  induction gs generalizing g with
  | nil => exact h
  | cons t gs ih =>
    simp only [runG, Option.bind_eq_some_iff] at h ⊢
    obtain ⟨g1, h1, h2⟩ := h
    exact ⟨g1, (goodStep_eq h1).2, ih g1 h2⟩

theorem rel_stable (t u : ι) (m : St) (g g' : Cpus ι)
    (h : ThreadRel slide t m g) (hu : u ≠ t) (hs : g.step cfg fetch u = some g') : ThreadRel slide t m g' := by
  have hh : g'.cpu t = g.cpu t := by
    unfold Cpus.step at hs
    split at hs
    · cases hs
    · simp only [Option.map_eq_some_iff] at hs
      obtain ⟨s, -, rfl⟩ := hs
      simp [Ne.symm hu]
  obtain ⟨h1, h2, h3, h4, -, h5, h6⟩ := h
  refine ⟨?_, ?_, ?_, ?_, rfl, ?_, ?_⟩ <;> simp only [Cpus.at, hh] at * <;> assumption

omit [DecidableEq ι] in
theorem good_code {t : ι} {m : St} {g : Cpus ι} (hr : ThreadRel slide t m g) (h : g.Good slide cfg fetch t) :
    ∃ i len c, fetch (g.cpu t).ip = some (i, len) ∧ Supported cfg len (g.at t) i ∧ (Spec.step i len (g.at t)).isSome ∧
      xCode slide cfg i ((g.cpu t).ip - slide) len m = some c ∧ xProg slide cfg fetch m = c ∧ accesses i ≤ 1 := by
  obtain ⟨i, len, hf, hsup, hs, hb, ha⟩ := h
  have hc : ∃ c, xCode slide cfg i ((g.cpu t).ip - slide) len m = some c := by
    unfold xCode
    split
    · exact ⟨_, rfl⟩
    · rcases hb with hb | hb
      · contradiction
      · exact Option.isSome_iff_exists.1 (hb _)
  obtain ⟨c, hc⟩ := hc
  refine ⟨i, len, c, hf, hsup, hs, hc, ?_, ha⟩
  have hpc : m.pc.val slide = some (g.cpu t).ip := hr.pc
  unfold xProg
  rw [hpc]
  simp only [hf, hc, Option.getD_some]

theorem matches_x86 (hcall : cfg.callFunction = none) :
    Matches (fun _ : ι => xProg slide cfg fetch) (goodStep slide cfg fetch) Cpus.mem (ThreadRel slide) where
  stable t u m g g' h hu hs := rel_stable t u m g g' h hu (goodStep_eq hs).2
  right t m g g' h hs := by
    obtain ⟨hg, hs⟩ := goodStep_eq hs
    obtain ⟨i, len, c, hf, hsup, he, hc, hp, -⟩ := good_code h hg
    obtain ⟨s', he⟩ := Option.isSome_iff_exists.1 he
    obtain ⟨m', hl, hr'⟩ := X86_instruction_partial (slide := slide) i hsup he ((g.cpu t).ip - slide) (setMem g.mem.toV m) h
      (BitVec.sub_add_cancel _ _).symm
    have hrun := xCode_run cfg i hcall ((g.cpu t).ip - slide) len m c hc g.mem.toV
    rw [hl] at hrun
    obtain ⟨⟨mr, memr⟩, hcr, hmr⟩ := Option.map_eq_some_iff.1 hrun
    simp only at hmr
    subst hmr
    unfold Cpus.step at hs
    rw [hf] at hs
    simp only [he, Option.map_some, Option.some.injEq] at hs
    subst hs
    rw [hp]
    refine ⟨mr, ?_, ?_⟩
    · rw [hcr, show memr = _ from hr'.mem]
    · obtain ⟨h1, h2, h3, h4, h5, h6, h7⟩ := hr'
      refine ⟨?_, ?_, ?_, ?_, rfl, ?_, ?_⟩ <;> simp only [Cpus.at, setMem, if_true] at * <;> assumption
  single t m g g' h hs := by
    obtain ⟨i, len, c, hf, -, -, hc, hp, ha⟩ := good_code h (goodStep_eq hs).1
    rw [hp]
    exact atMost_single _ (atMost_mono _ ha (xCode_atMost _ _ _ _ _ _ hc))

/-- C62, x86-64: threads execute lifted code on shared memory, in any interleaving of their memory accesses.  If the processors
never come to an instruction that is not `Good`, the lifted code is never undefined and does what the processors do in some order
of whole instructions: memory is the same, and every thread is between two instructions, or has only begun the next, with the registers
of its processor.  Missing: instructions that are not `Good`, among them those that read and write memory without the LOCK prefix (for
which an order of whole instructions need not exist on the processor either), and the flags that `after` leaves out. -/
theorem C62_x86_partial (hcall : cfg.callFunction = none) (regs : ι → St) (g : Cpus ι)
    (hrel : ∀ t, Rel slide { regs t with mem := g.mem.toV } (g.at t))
    (hgood : ∀ order g', runG (Cpus.step cfg fetch) order g = some g' → ∀ t, g'.Good slide cfg fetch t) (schedule : List ι) :
    ∃ y order g', System.run (fun _ => xProg slide cfg fetch) schedule { threads := fun t => .done (regs t), mem := g.mem.toV } =
        some y ∧
      runG (Cpus.step cfg fetch) order g = some g' ∧ y.mem = g'.mem.toV ∧
      ∀ t, ∃ m, Rel slide { m with mem := g'.mem.toV } (g'.at t) ∧
        (y.threads t = .done m ∨ y.threads t = xProg slide cfg fetch m ∧ ∀ m', xProg slide cfg fetch m ≠ .done m') := by
  obtain ⟨y, order, g', h1, h2, h3, h4⟩ := run_sync (matches_x86 (ι := ι) (slide := slide) (fetch := fetch) hcall) schedule
    { threads := fun t => .done (regs t), mem := g.mem.toV } g ⟨rfl, fun t => ⟨regs t, hrel t, .inl rfl⟩⟩
    (fun gs g' h t => good_isSome (hgood gs g' (goodRun _ _ _ h) t))
  exact ⟨y, order, g', h1, goodRun _ _ _ h2, h3, h4⟩

end Verif.Conc.X86
