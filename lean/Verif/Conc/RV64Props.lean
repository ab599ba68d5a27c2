import Verif.Conc.RV64Link
import Verif.Conc.Harts

/-! C62 for RV64: threads that execute lifted code on shared memory, for every schedule. -/

namespace Verif.Conc.RV64

open Verif.IR Verif.RV64

variable {ι : Type} [DecidableEq ι]

theorem load_single (a : Val 64) (n : Nat) (o : Ord) (k : Val (8 * n) → Code St) (h : ∀ v, (k v).ended) :
    (loadCode a n o k).single := by
  unfold loadCode
  cases a with
  | none => trivial
  | some a => exact h

theorem store_single (a : Val 64) (n : Nat) (o : Ord) (v : Val (8 * n)) (c : Code St) (h : c.ended) :
    (storeCode a n o v c).single := by
  unfold storeCode
  cases a with
  | none => trivial
  | some a => exact fun _ => h

theorem amo_single (s : St) (i : Frv) (n : Nat) (op : RmwOp) (stop : BitVec 64) : (amoCode s i n op (fin stop)).single := by
  unfold amoCode
  split
  · trivial
  · unfold rmwCode
    split
    · trivial
    · exact fun _ => trivial

/-- One access per instruction. -/
theorem code_single (slide : BitVec 64) (i : Frv) (start : BitVec 64) (len : Nat) (m : St) :
    (code slide i start len m).single := by
  unfold code
  change (match memCode i { m with pc := .const start } (fin (start + BitVec.ofNat 64 len)) with
    | some c => c
    | none => _ : Code St).single
  cases h : memCode i { m with pc := .const start } (fin (start + BitVec.ofNat 64 len)) with
  | none =>
    simp only
    split <;> trivial
  | some c =>
    simp only
    cases hm : i.mnem <;> simp only [memCode, hm, reduceCtorEq, Option.some.injEq] at h <;> subst h <;>
    first
    | exact amo_single _ _ _ _ _
    | exact load_single _ _ _ _ fun _ => trivial
    | exact store_single _ _ _ _ _ trivial

/-- The registers of thread `t` represent those of hart `t`. -/
def ThreadRel (slide : BitVec 64) (t : ι) (m : St) (g : Harts ι) : Prop := Rel slide (setMem g.mem.toV m) (g.at t)

open Classical in
/-- The machine that stops at instructions that are not `Good`. -/
noncomputable def goodStep (fetch : BitVec 64 → Option (Frv × Nat)) (t : ι) (g : Harts ι) : Option (Harts ι) :=
  if g.Good fetch t then g.step fetch t else none

theorem goodStep_eq {fetch : BitVec 64 → Option (Frv × Nat)} {t : ι} {g g' : Harts ι} (h : goodStep fetch t g = some g') :
    g.Good fetch t ∧ g.step fetch t = some g' := by
  unfold goodStep at h
  split at h
  · rename_i hg
    exact ⟨hg, h⟩
  · cases h

theorem good_isSome {fetch : BitVec 64 → Option (Frv × Nat)} {t : ι} {g : Harts ι} (h : g.Good fetch t) :
    (goodStep fetch t g).isSome := by
  unfold goodStep
  rw [if_pos h]
  obtain ⟨i, len, hf, -, -, he, hr⟩ := h
  unfold Harts.step Harts.exec
  rw [hf]
  simp only [if_pos hr, Option.isSome_map]
  exact he

theorem goodRun {fetch : BitVec 64 → Option (Frv × Nat)} (gs : List ι) (g g' : Harts ι)
    (h : runG (goodStep fetch) gs g = some g') : runG (Harts.step fetch) gs g = some g' := by
  induction gs generalizing g with
  | nil => exact h
  | cons t gs ih =>
    simp only [runG, Option.bind_eq_some_iff] at h ⊢
    obtain ⟨g1, h1, h2⟩ := h
    exact ⟨g1, (goodStep_eq h1).2, ih g1 h2⟩

/-- A step of another hart changes neither the registers nor the relation. -/
theorem rel_stable (slide : BitVec 64) {fetch : BitVec 64 → Option (Frv × Nat)} (t u : ι) (m : St) (g g' : Harts ι)
    (h : ThreadRel slide t m g) (hu : u ≠ t) (hs : g.step fetch u = some g') : ThreadRel slide t m g' := by
  have hh : g'.hart t = g.hart t := by
    unfold Harts.step at hs
    split at hs
    · cases hs
    · unfold Harts.exec at hs
      split at hs
      · simp only [Option.map_eq_some_iff] at hs
        obtain ⟨s, -, rfl⟩ := hs
        simp [Ne.symm hu]
      · cases hs
        simp [Ne.symm hu]
  obtain ⟨⟨h1, h2, -⟩, h3⟩ := h
  refine ⟨⟨?_, ?_, rfl⟩, ?_⟩ <;> simp only [Harts.at, hh, setMem] at *
  · exact h1
  · exact h2
  · exact h3

theorem matches_rv64 (fetch : BitVec 64 → Option (Frv × Nat)) (slide : BitVec 64) :
    Matches (fun _ : ι => prog fetch slide) (goodStep fetch) Harts.mem (ThreadRel slide) where
  stable t u m g g' h hu hs := rel_stable slide t u m g g' h hu (goodStep_eq hs).2
  right t m g g' h hs := by
    obtain ⟨⟨i, len, hf, hd, hn, he, hr⟩, hs⟩ := goodStep_eq hs
    obtain ⟨s', he⟩ := Option.isSome_iff_exists.1 he
    have hpc : m.pc.val slide = some (g.hart t).pc := h.2
    obtain ⟨m', hl, hr'⟩ := lift_exec slide i ((g.hart t).pc - slide) len (setMem g.mem.toV m) (g.at t) s' h
      (BitVec.sub_add_cancel _ _).symm hd hn he
    unfold Harts.step Harts.exec at hs
    rw [hf] at hs
    simp only [if_pos hr, he, Option.map_some, Option.some.injEq] at hs
    subst hs
    refine ⟨setMem m.mem m', ?_, ?_⟩
    · unfold prog
      rw [hpc]
      simp only [hf]
      rw [code_run, hl]
      simp only [Option.map_some, Option.some.injEq, Prod.mk.injEq, true_and]
      exact hr'.1.2.2
    · obtain ⟨⟨h1, h2, h3⟩, h4⟩ := hr'
      refine ⟨⟨?_, ?_, rfl⟩, ?_⟩ <;> simp only [Harts.at, setMem, if_true]
      · exact h1
      · exact h2
      · exact h4
  single t m g g' h hs := by
    obtain ⟨⟨i, len, hf, -⟩, -⟩ := goodStep_eq hs
    have hpc : m.pc.val slide = some (g.hart t).pc := h.2
    unfold prog
    rw [hpc]
    simp only [hf]
    exact code_single _ _ _ _ _

/-- C62, RV64: threads execute lifted code on shared memory, in any interleaving of their memory accesses.  If the harts never come
to an instruction that is not `Good`, the lifted code is never undefined and does what the harts do in some order of whole
instructions: memory is the same, and every thread is between two instructions, or has only begun the next, with the registers of its hart.
Missing: instructions that are not `Good`, among them an `SC` that fails. -/
theorem C62_rv64_partial (fetch : BitVec 64 → Option (Frv × Nat)) (slide : BitVec 64) (regs : ι → St) (g : Harts ι)
    (hrel : ∀ t, Rel slide { regs t with mem := g.mem.toV } (g.at t))
    (hgood : ∀ order g', runG (Harts.step fetch) order g = some g' → ∀ t, g'.Good fetch t) (schedule : List ι) :
    ∃ y order g', System.run (fun _ => prog fetch slide) schedule { threads := fun t => .done (regs t), mem := g.mem.toV } = some y ∧
      runG (Harts.step fetch) order g = some g' ∧ y.mem = g'.mem.toV ∧
      ∀ t, ∃ m, Rel slide { m with mem := g'.mem.toV } (g'.at t) ∧
        (y.threads t = .done m ∨ y.threads t = prog fetch slide m ∧ ∀ m', prog fetch slide m ≠ .done m') := by
  obtain ⟨y, order, g', h1, h2, h3, h4⟩ := run_sync (matches_rv64 (ι := ι) fetch slide) schedule
    { threads := fun t => .done (regs t), mem := g.mem.toV } g ⟨rfl, fun t => ⟨regs t, hrel t, .inl rfl⟩⟩
    (fun gs g' h t => good_isSome (hgood gs g' (goodRun _ _ _ h) t))
  exact ⟨y, order, g', h1, goodRun _ _ _ h2, h3, h4⟩

end Verif.Conc.RV64
