import Verif.Conc.A64Props

/-! LDXR/STXR between threads. -/

namespace Verif.Conc.A64

open Verif.IR Verif.A64 Verif.A64.Spec

/-- Processor `false` executes `ldxr x5, [x2]` and `stxr w6, x7, [x2]`, processor `true` executes `str x1, [x2]`. -/
def exclCode (pc : BitVec 64) : Option (Instr × Nat × Bool) :=
  if pc = 0x1000#64 then some (.ldr false .uxtx .simple false (.x 5) (.x 2), 4, true)
  else if pc = 0x1004#64 then some (.str false .uxtx .simple false (some (.x 6)) (.x 7) (.x 2), 4, false)
  else if pc = 0x2000#64 then some (.str false .uxtx .simple false none (.x 1) (.x 2), 4, false)
  else none

/-- `x1` = 1, `x2` = 64, `x7` = 7, all other registers and memory 0. -/
def exclCpus : Cpus Bool where
  cpu t :=
    { x := fun r => if r = 1 then 1#64 else if r = 2 then 64#64 else if r = 7 then 7#64 else 0#64
      sp := 0#64, vec := fun _ => 0#128, fl := fun _ => none, tpidr := 0#64, mem := fun _ => 0#8
      pc := if t then 0x2000#64 else 0x1000#64 }
  mem := fun _ => 0#8
  mark _ := none

def exclRegs (t : Bool) : St :=
  { gp := fun r => if r = 1 then some 1#64 else if r = 2 then some 64#64 else if r = 7 then some 7#64 else some 0#64
    vec := fun _ => some 0#128, fl := fun _ => none, tpidr := some 0#64, mem := fun _ => none
    pc := .const (if t then 0x2000#64 else 0x1000#64) }

/-- Both processors are past their code, LDXR has read 0, STXR has reported success, and memory is what STXR has stored. -/
def lostUpdate (pc0 pc1 x5 x6 v : Option (BitVec 64)) : Bool :=
  pc0 = some 0x1008#64 && pc1 = some 0x2004#64 && x5 = some 0#64 && x6 = some 0#64 && v = some 7#64

/-- Is this the state of the lifted threads? -/
def lostLifted (y : System Bool St) : Bool :=
  match y.threads false, y.threads true with
  | .done m0, .done m1 => lostUpdate (m0.pc.val 0) (m1.pc.val 0) (m0.gp 5) (m0.gp 6) (y.mem.read 64#64 8)
  | _, _ => false

/-- Is this the state of the processors? -/
def lostCpus (g : Cpus Bool) : Bool :=
  lostUpdate (some (g.cpu false).pc) (some (g.cpu true).pc) (some ((g.cpu false).x 5)) (some ((g.cpu false).x 6))
    (some (g.mem.read 64#64 8))

theorem excl_long (a b c d : Bool) (o : List Bool) : (runG (Cpus.step {} exclCode) (a :: b :: c :: d :: o) exclCpus).isNone := by
  have h : ∀ a b c d : Bool, (runG (Cpus.step {} exclCode) [a, b, c, d] exclCpus).isNone := by decide +kernel
  rw [show a :: b :: c :: d :: o = [a, b, c, d] ++ o from rfl, runG_append]
  rw [Option.isNone_iff_eq_none.1 (h a b c d)]
  rfl

/-- C62 fails for LDXR/STXR: the lifted STXR always stores and reports success.  With the store of the other thread between LDXR and
STXR it overwrites the store although LDXR has not seen it; no order of the instructions of the two processors gives this result. -/
theorem C62_a64_exclusive_counterexample :
    (∀ t, Rel 0 { exclRegs t with mem := exclCpus.mem.toV } (exclCpus.at t)) ∧
    (∃ y, System.run (fun _ => aProg 0 {} exclCode) [false, false, true, true, false, false]
      { threads := fun t => .done (exclRegs t), mem := exclCpus.mem.toV } = some y ∧ lostLifted y = true) ∧
    ∀ order g', runG (Cpus.step {} exclCode) order exclCpus = some g' → lostCpus g' = false := by
  refine ⟨fun t => ⟨?_, rfl, fun _ => rfl, rfl, rfl, ?_, fun _ _ h => by cases h⟩, ?_, fun order g' h => ?_⟩
  · revert t; decide
  · cases t <;> decide
  · have h : ((System.run (fun _ => aProg 0 {} exclCode) [false, false, true, true, false, false]
      { threads := fun t => .done (exclRegs t), mem := exclCpus.mem.toV }).map lostLifted) = some true := by decide +kernel
    rw [Option.map_eq_some_iff] at h
    exact h
  · match order with
    | [] => cases h; decide +kernel
    | [a] =>
      have h2 : ∀ a, ((runG (Cpus.step {} exclCode) [a] exclCpus).all fun g => !lostCpus g) = true := by decide +kernel
      simpa [h] using h2 a
    | [a, b] =>
      have h2 : ∀ a b, ((runG (Cpus.step {} exclCode) [a, b] exclCpus).all fun g => !lostCpus g) = true := by decide +kernel
      simpa [h] using h2 a b
    | [a, b, c] =>
      have h2 : ∀ a b c, ((runG (Cpus.step {} exclCode) [a, b, c] exclCpus).all fun g => !lostCpus g) = true := by
        decide +kernel
      simpa [h] using h2 a b c
    | a :: b :: c :: d :: o =>
      have := excl_long a b c d o
      rw [h] at this
      cases this

/-- The guest's STXR fails in this order, and the mark is what decides: without the store it succeeds. -/
example : ((runG (Cpus.step {} exclCode) [false, true, false] exclCpus).map fun g =>
      ((g.cpu false).x 6, g.mem.read 64#64 8)) = some (1#64, 1#64) ∧
    ((runG (Cpus.step {} exclCode) [false, false] exclCpus).map fun g =>
      ((g.cpu false).x 6, g.mem.read 64#64 8)) = some (0#64, 7#64) := by
  decide +kernel

end Verif.Conc.A64
