import Verif.Conc.X86Props
import Mathlib.Data.BitVec
import Mathlib.Algebra.BigOperators.Fin

/-! A counter that any number of threads increment with `LOCK ADD`. -/

namespace Verif.Conc.X86

open Verif.IR Verif.X86 Verif.X86.Spec

/-- `lock add [rdx], rax` at 0x1000 and a jump to itself at 0x1004; without the prefix if `lock` is false. -/
def counterCode (lock : Bool) (pc : BitVec 64) : Option (Instr × Nat) :=
  if pc = 0x1000#64 then some (.arith .add .q lock (.mem { base := .reg 2 }) (.reg 0), 4)
  else if pc = 0x1004#64 then some (.jmpRel (-2#64), 2)
  else none

/-- `N` processors at the start of `counterCode`: RAX is what the processor adds, RDX the address of the counter. -/
def counterCpus (N : Nat) (a : BitVec 64) (d : Fin N → BitVec 64) (mem : Mem) : Cpus (Fin N) where
  cpu t := { gp := fun r => if r = 0 then d t else if r = 2 then a else 0#64, fl := fun _ => some false, vec := fun _ => 0, fs := 0, gs := 0
             mem := fun _ => 0#8, ip := 0x1000#64 }
  mem := mem

/-- The counter is the sum of what the processors that are past the addition have added. -/
structure CounterInv (N : Nat) (a : BitVec 64) (d : Fin N → BitVec 64) (c : BitVec 64) (g : Cpus (Fin N)) : Prop where
  rax : ∀ t, (g.cpu t).gp 0 = d t
  rdx : ∀ t, (g.cpu t).gp 2 = a
  pc : ∀ t, (g.cpu t).ip = 0x1000#64 ∨ (g.cpu t).ip = 0x1004#64
  sum : g.mem.read a 8 = c + ∑ t, if (g.cpu t).ip = 0x1004#64 then d t else 0#64

variable {N : Nat} {a : BitVec 64} {d : Fin N → BitVec 64} {c : BitVec 64} {cfg : Cfg}

theorem counter_good {slide : BitVec 64} {g : Cpus (Fin N)} (ha : a.toNat % 8 = 0) (h : CounterInv N a d c g) (t : Fin N) :
    g.Good slide cfg (counterCode true) t := by
  rcases h.pc t with hp | hp
  · refine ⟨_, _, by rw [hp]; rfl, ?_, rfl, .inr fun m => rfl, by decide⟩
    refine ⟨rfl, fun _ => ⟨_, rfl, ?_⟩, rfl, by decide⟩
    have : ((g.at t).nx 4).ea { base := .reg 2 } = a := by
      simp [S.ea, S.segBase, S.offset, Cpus.at, h.rdx t]
    rw [this]
    exact ha
  · exact ⟨.jmpRel (-2#64), 2, by rw [hp]; rfl, trivial, rfl, .inl rfl, by decide⟩

theorem add_step {s s' : S} (h : Spec.step (.arith .add .q true (.mem { base := .reg 2 }) (.reg 0)) 4 s = some s') :
    s'.gp = s.gp ∧ s'.ip = s.ip + 4#64 ∧ s'.mem = s.mem.write (s.gp 2) 8 (s.mem.read (s.gp 2) 8 + s.gp 0) := by
  have he : ∀ b, ({ s with ip := b } : S).ea { base := .reg 2 } = s.gp 2 := fun b => by
    simp [S.ea, S.segBase, S.offset]
  simp only [Spec.step, Spec.exec, stepArith, S.read, S.write, he, Option.bind_eq_bind, Option.bind_some] at h
  cases h
  refine ⟨rfl, rfl, ?_⟩
  change s.mem.write (({ s with ip := _ } : S).ea { base := .reg 2 }) 8 (s.mem.read (s.gp 2) 8 + (s.gp 0).extractLsb' 0 64) = _
  rw [he, BitVec.extractLsb'_eq_self]

theorem counter_step {g g' : Cpus (Fin N)} (h : CounterInv N a d c g) (t : Fin N)
    (hs : g.step cfg (counterCode true) t = some g') : CounterInv N a d c g' := by
  rcases h.pc t with hp | hp
  · unfold Cpus.step at hs
    rw [hp] at hs
    simp only [counterCode, if_true, Option.map_eq_some_iff] at hs
    obtain ⟨s, hs, rfl⟩ := hs
    obtain ⟨hgp, hip0, hmem⟩ := add_step hs
    have hip : s.ip = 0x1004#64 := by rw [hip0]; simp only [Cpus.at, hp]; decide
    clear hip0
    refine ⟨fun u => ?_, fun u => ?_, fun u => ?_, ?_⟩
    · by_cases hu : u = t
      · subst hu; simpa [after, S.forget, hgp, Cpus.at] using h.rax u
      · simpa [hu] using h.rax u
    · by_cases hu : u = t
      · subst hu; simpa [after, S.forget, hgp, Cpus.at] using h.rdx u
      · simpa [hu] using h.rdx u
    · by_cases hu : u = t
      · subst hu; right; simpa [after, S.forget] using hip
      · simpa [hu] using h.pc u
    · have hm : s.mem = g.mem.write a 8 (g.mem.read a 8 + d t) := by
        rw [hmem]; simp only [Cpus.at, h.rdx t, h.rax t]
      change s.mem.read a 8 = c + ∑ u, if (if u = t then S.forget s (adcBad ((g.at t).nx 4) .add .q (.reg 0)) else g.cpu u).ip =
        0x1004#64 then d u else 0#64
      rw [hm, Mem.read_write _ _ _ _ (by decide)]
      have he : ∀ u : Fin N, (if (if u = t then S.forget s (adcBad ((g.at t).nx 4) .add .q (.reg 0)) else g.cpu u).ip = 0x1004#64
            then d u else 0#64) =
          (if (g.cpu u).ip = 0x1004#64 then d u else 0#64) + if u = t then d t else 0#64 := by
        intro u
        by_cases hu : u = t
        · subst hu; simp [hp, S.forget, hip]
        · simp [hu]
      refine Eq.trans ?_ (congrArg (c + ·) (Finset.sum_congr rfl fun u _ => (he u).symm))
      have hs : (∑ u, if u = t then d t else 0#64) = d t :=
        (Finset.sum_ite_eq' Finset.univ t fun _ => d t).trans (if_pos (Finset.mem_univ _))
      rw [Finset.sum_add_distrib, hs, ← BitVec.add_assoc, ← h.sum]
  · unfold Cpus.step at hs
    rw [hp] at hs
    rw [show counterCode true 0x1004#64 = some (.jmpRel (-2#64), 2) from rfl] at hs
    simp only [Spec.step, Spec.exec, Option.map_some, Option.some.injEq, after] at hs
    subst hs
    have hj : ∀ u, (if u = t then { g.at t with ip := (g.at t).ip + BitVec.ofNat 64 2 + -2#64 } else g.cpu u : S).gp = (g.cpu u).gp ∧
        (if u = t then { g.at t with ip := (g.at t).ip + BitVec.ofNat 64 2 + -2#64 } else g.cpu u : S).ip = (g.cpu u).ip := by
      intro u
      by_cases hu : u = t
      · subst hu; simp only [if_true, Cpus.at, true_and]; rw [hp]; decide
      · simp [hu]
    refine ⟨fun u => ?_, fun u => ?_, fun u => ?_, ?_⟩
    · simp only [(hj u).1]; exact h.rax u
    · simp only [(hj u).1]; exact h.rdx u
    · simp only [(hj u).2]; exact h.pc u
    · simp only [(hj _).2]; exact h.sum

theorem counter_run (order : List (Fin N)) (g g' : Cpus (Fin N)) (h : CounterInv N a d c g)
    (hs : runG (Cpus.step cfg (counterCode true)) order g = some g') : CounterInv N a d c g' := by
  induction order generalizing g with
  | nil => cases hs; exact h
  | cons t order ih =>
    simp only [runG, Option.bind_eq_some_iff] at hs
    obtain ⟨g1, h1, h2⟩ := hs
    exact ih g1 (counter_step h t h1) h2

/-- C62, no update is lost: `N` threads execute the lifted code of `lock add [rdx], rax` once each on the same counter.  For every
number of threads, every schedule, all values that are added and every other content of memory, the threads never get into undefined
behaviour, and when all of them are past the instruction, the counter has grown by the sum of the values. -/
theorem C62_x86_counter (N : Nat) (cfg : Cfg) (hcall : cfg.callFunction = none) (slide a : BitVec 64) (d : Fin N → BitVec 64) (mem : Mem)
    (ha : a.toNat % 8 = 0) (regs : Fin N → St)
    (hrel : ∀ t, Rel slide { regs t with mem := mem.toV } ((counterCpus N a d mem).at t)) (schedule : List (Fin N)) :
    ∃ y, System.run (fun _ => xProg slide cfg (counterCode true)) schedule { threads := fun t => .done (regs t), mem := mem.toV } =
        some y ∧
      ((∀ t, ∃ m, y.threads t = .done m ∧ m.pc.val slide = some 0x1004#64) →
        y.mem.read a 8 = some (mem.read a 8 + ∑ t, d t)) := by
  have hinv : CounterInv N a d (mem.read a 8) (counterCpus N a d mem) := by
    refine ⟨fun _ => rfl, fun _ => rfl, fun _ => .inl rfl, ?_⟩
    simp [counterCpus]
  obtain ⟨y, order, g', h1, h2, h3, h4⟩ := C62_x86_partial (fetch := counterCode true) hcall regs (counterCpus N a d mem) hrel
    (fun order g' h t => counter_good ha (counter_run order _ _ hinv h) t) schedule
  refine ⟨y, h1, fun hall => ?_⟩
  have hi := counter_run order _ _ hinv h2
  have hpc : ∀ t, (g'.cpu t).ip = 0x1004#64 := by
    intro t
    obtain ⟨m, hm, hp⟩ := hall t
    obtain ⟨m2, hr, hc⟩ := h4 t
    rcases hc with hc | ⟨hc, hn⟩
    · rw [hm] at hc
      cases hc
      have := hr.pc
      simp only [hp, Option.some.injEq] at this
      exact this.symm
    · exact absurd (hc.symm.trans hm) (hn m)
  rw [h3, VMem.read_toV, hi.sum]
  simp only [hpc, if_true]

/-- Two threads that add 3 and 5 to a counter that holds 7. -/
def twoMem : Mem := fun a => if a = 64#64 then 7#8 else 0#8
def twoCpus : Cpus (Fin 2) := counterCpus 2 64#64 (fun t => if t = 0 then 3#64 else 5#64) twoMem
def twoRegs (t : Fin 2) : St :=
  { gp := fun r => some ((twoCpus.cpu t).gp r), fl := fun _ => some 0#1, pf := some 1#8, vec := fun _ => some 0, fs := some 0, gs := some 0
    mem := fun _ => none, pc := .const 0x1000#64 }
def twoRun (lock : Bool) (schedule : List (Fin 2)) : Option (Option (BitVec 64) × Bool) :=
  (System.run (fun _ => xProg 0 {} (counterCode lock)) schedule { threads := fun t => .done (twoRegs t), mem := twoMem.toV }).map
    fun y => (y.mem.read 64#64 8, [0, 1].all fun t => match y.threads t with
      | .done m => m.pc.val 0 = some 0x1004#64
      | _ => false)

/-- The hypotheses of `C62_x86_counter` are met, with a schedule in which both threads are done; without the LOCK prefix, as on the
processor, one of the updates may be lost. -/
example : (∀ t, Rel 0 { twoRegs t with mem := twoMem.toV } (twoCpus.at t)) ∧
    twoRun true [0, 1, 1, 0] = some (some 15#64, true) ∧ twoRun false [0, 1, 0, 1, 0, 1] = some (some 12#64, true) := by
  refine ⟨fun t => ⟨fun _ => rfl, fun _ => rfl, rfl, rfl, rfl, rfl, ?_⟩, by decide +kernel, by decide +kernel⟩
  intro f b hb
  cases hb
  revert t
  cases f <;> decide

end Verif.Conc.X86
