import Verif.Conc.RV64Props

/-! `LR`/`SC` between threads. -/

namespace Verif.Conc.RV64

open Verif.IR Verif.RV64

/-- Hart `false` executes `lr.d x5, (x2)` and `sc.d x6, x7, (x2)`, hart `true` executes `sd x1, (x2)`. -/
def lrscCode (pc : BitVec 64) : Option (Frv × Nat) :=
  if pc = 0x1000#64 then some (⟨.lrd, 5, 2, 0, 0#32, 0, 0⟩, 4)
  else if pc = 0x1004#64 then some (⟨.scd, 6, 2, 7, 0#32, 0, 0⟩, 4)
  else if pc = 0x2000#64 then some (⟨.sd, 0, 2, 1, 0#32, 0, 0⟩, 4)
  else none

/-- `x1` = 1, `x2` = 64, `x7` = 7, all other registers and memory 0. -/
def lrscHarts : Harts Bool where
  hart t :=
    { gp := fun r => if r = 1 then 1#64 else if r = 2 then 64#64 else if r = 7 then 7#64 else 0#64
      fp := fun _ => 0#64
      mem := fun _ => 0#8
      pc := if t then 0x2000#64 else 0x1000#64 }
  mem := fun _ => 0#8
  res _ := none

def lrscRegs (t : Bool) : St :=
  { gp := fun r => some ((lrscHarts.hart t).gp r), fp := fun _ => some 0#64, mem := fun _ => none, pc := .const (lrscHarts.hart t).pc }

/-- Both harts are past their code, `lr` has read 0, `sc` has reported success, and memory is what `sc` has stored. -/
def lostUpdate (pc0 pc1 x5 x6 v : Option (BitVec 64)) : Bool :=
  pc0 = some 0x1008#64 && pc1 = some 0x2004#64 && x5 = some 0#64 && x6 = some 0#64 && v = some 7#64

/-- Is this the state of the lifted threads? -/
def lostLifted (y : System Bool St) : Bool :=
  match y.threads false, y.threads true with
  | .done m0, .done m1 => lostUpdate (m0.pc.val 0) (m1.pc.val 0) (m0.gp 5) (m0.gp 6) (y.mem.read 64#64 8)
  | _, _ => false

/-- Is this the state of the harts? -/
def lostHarts (g : Harts Bool) : Bool :=
  lostUpdate (some (g.hart false).pc) (some (g.hart true).pc) (some ((g.hart false).gp 5)) (some ((g.hart false).gp 6))
    (some (g.mem.read 64#64 8))

theorem lrsc_long (a b c d : Bool) (o : List Bool) : (runG (Harts.step lrscCode) (a :: b :: c :: d :: o) lrscHarts).isNone := by
  have h : ∀ a b c d : Bool, (runG (Harts.step lrscCode) [a, b, c, d] lrscHarts).isNone := by decide +kernel
  rw [show a :: b :: c :: d :: o = [a, b, c, d] ++ o from rfl, runG_append]
  rw [Option.isNone_iff_eq_none.1 (h a b c d)]
  rfl

/-- C62 fails for `LR`/`SC`: the lifted `SC` always stores and reports success.  With the store of the other thread between `LR` and
`SC` it overwrites the store although `LR` has not seen it; no order of the instructions of the two harts gives this result. -/
theorem C62_lrsc_counterexample :
    (∀ t, Rel 0 { lrscRegs t with mem := lrscHarts.mem.toV } (lrscHarts.at t)) ∧
    (∃ y, System.run (fun _ => prog lrscCode 0) [false, false, true, true, false, false]
      { threads := fun t => .done (lrscRegs t), mem := lrscHarts.mem.toV } = some y ∧ lostLifted y = true) ∧
    ∀ order g', runG (Harts.step lrscCode) order lrscHarts = some g' → lostHarts g' = false := by
  refine ⟨fun t => ⟨⟨rfl, rfl, rfl⟩, ?_⟩, ?_, fun order g' h => ?_⟩
  · cases t <;> decide
  · have h : ((System.run (fun _ => prog lrscCode 0) [false, false, true, true, false, false]
      { threads := fun t => .done (lrscRegs t), mem := lrscHarts.mem.toV }).map lostLifted) = some true := by decide +kernel
    rw [Option.map_eq_some_iff] at h
    exact h
  · match order with
    | [] => cases h; decide +kernel
    | [a] =>
      have h2 : ∀ a, ((runG (Harts.step lrscCode) [a] lrscHarts).all fun g => !lostHarts g) = true := by decide +kernel
      simpa [h] using h2 a
    | [a, b] =>
      have h2 : ∀ a b, ((runG (Harts.step lrscCode) [a, b] lrscHarts).all fun g => !lostHarts g) = true := by decide +kernel
      simpa [h] using h2 a b
    | [a, b, c] =>
      have h2 : ∀ a b c, ((runG (Harts.step lrscCode) [a, b, c] lrscHarts).all fun g => !lostHarts g) = true := by
        decide +kernel
      simpa [h] using h2 a b c
    | a :: b :: c :: d :: o =>
      have := lrsc_long a b c d o
      rw [h] at this
      cases this

/-- The guest's `SC` fails in this order, and the reservation is what decides: without the store it succeeds. -/
example : ((runG (Harts.step lrscCode) [false, true, false] lrscHarts).map fun g =>
      ((g.hart false).gp 6, g.mem.read 64#64 8)) = some (1#64, 1#64) ∧
    ((runG (Harts.step lrscCode) [false, false] lrscHarts).map fun g =>
      ((g.hart false).gp 6, g.mem.read 64#64 8)) = some (0#64, 7#64) := by
  decide +kernel

end Verif.Conc.RV64
