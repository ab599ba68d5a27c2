import Verif.Conc.RV64Props
import Mathlib.Data.BitVec
import Mathlib.Algebra.BigOperators.Fin

/-! A counter that any number of threads increment with `AMOADD`, and what happens to `LR`/`SC`. -/

namespace Verif.Conc.RV64

open Verif.IR Verif.RV64

/-- `amoadd.d x0, x1, (x2)` at 0x1000 and a jump to itself at 0x1004. -/
def counterCode (o : BitVec 32) (pc : BitVec 64) : Option (Frv × Nat) :=
  if pc = 0x1000#64 then some (⟨.amoaddd, 0, 2, 1, o, 0, 0⟩, 4)
  else if pc = 0x1004#64 then some (⟨.jal, 0, regInv, 0, 0#32, 0, 0⟩, 4)
  else none

/-- `N` harts at the start of `counterCode`: `x1` is what the hart adds, `x2` the address of the counter. -/
def counterHarts (N : Nat) (a : BitVec 64) (d : Fin N → BitVec 64) (mem : Mem) : Harts (Fin N) where
  hart t := { gp := fun r => if r = 1 then d t else if r = 2 then a else 0#64, fp := fun _ => 0#64, mem := fun _ => 0#8, pc := 0x1000#64 }
  mem := mem
  res _ := none

/-- The counter is the sum of what the harts that are past the `amoadd` have added. -/
structure CounterInv (N : Nat) (a : BitVec 64) (d : Fin N → BitVec 64) (c : BitVec 64) (g : Harts (Fin N)) : Prop where
  x1 : ∀ t, (g.hart t).gp 1 = d t
  x2 : ∀ t, (g.hart t).gp 2 = a
  pc : ∀ t, (g.hart t).pc = 0x1000#64 ∨ (g.hart t).pc = 0x1004#64
  sum : g.mem.read a 8 = c + ∑ t, if (g.hart t).pc = 0x1004#64 then d t else 0#64

theorem counter_good {o : BitVec 32} (ho : o.toNat < 4) {N : Nat} {a : BitVec 64} {d : Fin N → BitVec 64} {c : BitVec 64} {g : Harts (Fin N)} (ha : a.toNat % 8 = 0)
    (h : CounterInv N a d c g) (t : Fin N) : g.Good (counterCode o) t := by
  rcases h.pc t with hp | hp
  · refine ⟨_, _, by rw [hp]; rfl, ⟨(show 0 < 32 by decide), (fun h => by cases h), (fun h => by cases h), (fun h => by cases h), fun _ => ho⟩, ?_, ?_, ?_⟩
    · unfold NoDefect
      simp only [reduceCtorEq, false_implies, true_and, or_self, and_true]
      simp only [Spec.aligned, Spec.access, Spec.loadKind, Spec.storeKind, Spec.amoKind, Harts.at, Spec.State.x, h.x2 t]
      simpa using ha
    · rfl
    · intro n hn; cases hn
  · refine ⟨_, _, by rw [hp]; rfl, by decide, ?_, ?_, ?_⟩
    · unfold NoDefect
      simp only [reduceCtorEq, false_implies, true_and, or_self, and_true]
      rfl
    · rfl
    · intro n hn; cases hn

theorem counter_step {o : BitVec 32} {N : Nat} {a : BitVec 64} {d : Fin N → BitVec 64} {c : BitVec 64} {g g' : Harts (Fin N)}
    (h : CounterInv N a d c g) (t : Fin N) (hs : g.step (counterCode o) t = some g') : CounterInv N a d c g' := by
  rcases h.pc t with hp | hp
  · unfold Harts.step at hs
    rw [hp] at hs
    simp only [counterCode, if_true, Harts.exec] at hs
    rw [if_pos (by intro n hn; cases hn)] at hs
    simp only [Spec.exec, Spec.aluVal, Spec.divVal, Spec.bitVal, Spec.taken, Spec.loadKind, Spec.storeKind, Spec.amoKind,
      Option.map_some, Option.some.injEq] at hs
    subst hs
    have hx2 : (g.at t).x 2 = a := h.x2 t
    have hx1 : (g.at t).x 1 = d t := h.x1 t
    have hpc : (g.at t).pc = 0x1000#64 := hp
    refine ⟨fun u => ?_, fun u => ?_, fun u => ?_, ?_⟩
    · by_cases hu : u = t
      · subst hu; simpa [Spec.State.wr, Spec.State.setX, Harts.at] using h.x1 u
      · simpa [hu] using h.x1 u
    · by_cases hu : u = t
      · subst hu; simpa [Spec.State.wr, Spec.State.setX, Harts.at] using h.x2 u
      · simpa [hu] using h.x2 u
    · by_cases hu : u = t
      · subst hu; right; simp [Spec.State.wr, hpc]
      · simpa [hu] using h.pc u
    · simp only [Spec.State.wr, Spec.State.setX, if_true, hx2, hx1, hpc]
      rw [Mem.read_write _ _ _ _ (by decide)]
      have he : ∀ u : Fin N, (if (if u = t then { g.at t with
            mem := g.mem.write a 8 (g.mem.read a 8 + BitVec.setWidth (8 * 8) (d t)), pc := 0x1000#64 + BitVec.ofNat 64 4 }
            else g.hart u).pc = 0x1004#64 then d u else 0#64) =
          (if (g.hart u).pc = 0x1004#64 then d u else 0#64) + if u = t then d t else 0#64 := by
        intro u
        by_cases hu : u = t
        · subst hu; simp [hp]
        · simp [hu]
      refine Eq.trans ?_ (congrArg (c + ·) (Finset.sum_congr rfl fun u _ => (he u).symm))
      have hs : (∑ u, if u = t then d t else 0#64) = d t :=
        (Finset.sum_ite_eq' Finset.univ t fun _ => d t).trans (if_pos (Finset.mem_univ _))
      rw [Finset.sum_add_distrib, hs, ← BitVec.add_assoc, ← h.sum]
      simp [Harts.at]
  · unfold Harts.step at hs
    rw [hp] at hs
    rw [show counterCode o 0x1004#64 = some (⟨.jal, 0, regInv, 0, 0#32, 0, 0⟩, 4) from rfl] at hs
    simp only [Harts.exec] at hs
    rw [if_pos (by intro n hn; cases hn)] at hs
    simp only [Spec.exec, Spec.aluVal, Spec.divVal, Spec.bitVal, Spec.taken, Spec.loadKind, Spec.storeKind, Spec.amoKind,
      Spec.execOther, Option.map_some, Option.some.injEq] at hs
    subst hs
    have hj : ∀ u, ((if u = t then Spec.jump ⟨.jal, 0, regInv, 0, 0#32, 0, 0⟩ 4 (g.at t) else g.hart u : Spec.State).gp =
          (g.hart u).gp) ∧
        (if u = t then Spec.jump ⟨.jal, 0, regInv, 0, 0#32, 0, 0⟩ 4 (g.at t) else g.hart u : Spec.State).pc = (g.hart u).pc := by
      intro u
      by_cases hu : u = t
      · subst hu; simp [Spec.jump, Spec.jal, Spec.State.setX, Harts.at]
      · simp [hu]
    refine ⟨fun u => ?_, fun u => ?_, fun u => ?_, ?_⟩
    · simp only [(hj u).1]; exact h.x1 u
    · simp only [(hj u).1]; exact h.x2 u
    · simp only [(hj u).2]; exact h.pc u
    · simp only [(hj _).2]; exact h.sum

theorem counter_run {o : BitVec 32} {N : Nat} {a : BitVec 64} {d : Fin N → BitVec 64} {c : BitVec 64} (order : List (Fin N)) (g g' : Harts (Fin N))
    (h : CounterInv N a d c g) (hs : runG (Harts.step (counterCode o)) order g = some g') : CounterInv N a d c g' := by
  induction order generalizing g with
  | nil => cases hs; exact h
  | cons t order ih =>
    simp only [runG, Option.bind_eq_some_iff] at hs
    obtain ⟨g1, h1, h2⟩ := hs
    exact ih g1 (counter_step h t h1) h2

/-- C62, no update is lost: `N` threads execute the lifted code of `amoadd.d x0, x1, (x2)`, with any of the bits aq and rl,
once each on the same counter.  For every number of threads, every schedule, all values that are added and every other content of memory, the threads never get into undefined behaviour, and when all of them are past the
instruction, the counter has grown by the sum of the values. -/
theorem C62_rv64_counter (o : BitVec 32) (ho : o.toNat < 4) (N : Nat) (slide a : BitVec 64) (d : Fin N → BitVec 64) (mem : Mem) (ha : a.toNat % 8 = 0) (regs : Fin N → St)
    (hrel : ∀ t, Rel slide { regs t with mem := mem.toV } ((counterHarts N a d mem).at t)) (schedule : List (Fin N)) :
    ∃ y, System.run (fun _ => prog (counterCode o) slide) schedule { threads := fun t => .done (regs t), mem := mem.toV } = some y ∧
      ((∀ t, ∃ m, y.threads t = .done m ∧ m.pc.val slide = some 0x1004#64) →
        y.mem.read a 8 = some (mem.read a 8 + ∑ t, d t)) := by
  have hinv : CounterInv N a d (mem.read a 8) (counterHarts N a d mem) := by
    refine ⟨fun _ => rfl, fun _ => rfl, fun _ => .inl rfl, ?_⟩
    simp [counterHarts]
  obtain ⟨y, order, g', h1, h2, h3, h4⟩ := C62_rv64_partial (counterCode o) slide regs (counterHarts N a d mem) hrel
    (fun order g' h t => counter_good ho ha (counter_run order _ _ hinv h) t) schedule
  refine ⟨y, h1, fun hall => ?_⟩
  have hi := counter_run order _ _ hinv h2
  have hpc : ∀ t, (g'.hart t).pc = 0x1004#64 := by
    intro t
    obtain ⟨m, hm, hp⟩ := hall t
    obtain ⟨m2, hr, hc⟩ := h4 t
    rcases hc with hc | ⟨hc, hn⟩
    · rw [hm] at hc
      cases hc
      have := hr.2
      simp only [hp, Option.some.injEq] at this
      exact this.symm
    · exact absurd (hc.symm.trans hm) (hn m)
  rw [h3, VMem.read_toV, hi.sum]
  simp only [hpc, if_true]

/-- Two threads that add 3 and 5 to a counter that holds 7. -/
def twoMem : Mem := fun a => if a = 64#64 then 7#8 else 0#8
def twoHarts : Harts (Fin 2) := counterHarts 2 64#64 (fun t => if t = 0 then 3#64 else 5#64) twoMem
def twoRegs (t : Fin 2) : St :=
  { gp := fun r => some ((twoHarts.hart t).gp r), fp := fun _ => some 0#64, mem := fun _ => none, pc := .const 0x1000#64 }

/-- The hypotheses of `C62_rv64_counter` are met, with a schedule in which both threads are done. -/
example : (∀ t, Rel 0 { twoRegs t with mem := twoMem.toV } (twoHarts.at t)) ∧
    ((System.run (fun _ => prog (counterCode 0#32) 0) [0, 1, 1, 0] { threads := fun t => .done (twoRegs t), mem := twoMem.toV }).map
      fun y => (y.mem.read 64#64 8, [0, 1].all fun t => match y.threads t with
        | .done m => m.pc.val 0 = some 0x1004#64
        | _ => false)) = some (some 15#64, true) := by
  exact ⟨fun t => ⟨⟨rfl, rfl, rfl⟩, rfl⟩, by decide +kernel⟩

end Verif.Conc.RV64
