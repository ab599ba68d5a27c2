import Verif.RV64.Exact

/-!
Specification of RV64 harts that share memory, independent of the model of the lifter: every instruction is one step, and `SC`
needs the reservation that `LR` made.
-/

namespace Verif.Conc.RV64

open Verif.IR Verif.RV64

/-- Registers of each hart (the `mem` component is not used), the memory, and the reserved bytes of each hart. -/
structure Harts (ι : Type) where
  hart : ι → Spec.State
  mem : Mem
  res : ι → Option (BitVec 64 × Nat)

variable {ι : Type}

/-- The machine as hart `t` sees it. -/
def Harts.at (g : Harts ι) (t : ι) : Spec.State := { g.hart t with mem := g.mem }

/-- Number of bytes of `LR` and of `SC`. -/
def lrBytes : Mnem → Option Nat
  | .lrw => some 4
  | .lrd => some 8
  | _ => none

def scBytes : Mnem → Option Nat
  | .scw => some 4
  | .scd => some 8
  | _ => none

/-- The bytes an instruction writes. -/
def writes (i : Frv) (s : Spec.State) : Option (BitVec 64 × Nat) :=
  match Spec.storeKind i.mnem with
  | some n => some (s.x i.rs1 + i.imm.signExtend 64, n)
  | none =>
  match Spec.amoKind i.mnem with
  | some ⟨n, _⟩ => some (s.x i.rs1, n)
  | none =>
  match i.mnem with
  | .fsw => some (s.x i.rs1 + i.imm.signExtend 64, 4)
  | .fsd => some (s.x i.rs1 + i.imm.signExtend 64, 8)
  | .scw => some (s.x i.rs1, 4)
  | .scd => some (s.x i.rs1, 8)
  | _ => none

/-- Do the bytes `a ..` and `b ..` have one in common? -/
def overlap (a b : BitVec 64 × Nat) : Bool := (b.1 - a.1).toNat < a.2 || (a.1 - b.1).toNat < b.2

/-- Does `SC` have its reservation? -/
def reserved (g : Harts ι) (t : ι) (i : Frv) : Prop :=
  ∀ n, scBytes i.mnem = some n → g.res t = some ((g.hart t).x i.rs1, n)

instance (g : Harts ι) (t : ι) (i : Frv) : Decidable (reserved g t i) := by
  unfold reserved
  cases h : scBytes i.mnem with
  | none => exact .isTrue (by simp)
  | some n =>
    exact decidable_of_iff (g.res t = some ((g.hart t).x i.rs1, n)) ⟨fun h k hk => by cases hk; exact h, fun h => h n rfl⟩

variable [DecidableEq ι]

/-- Hart `t` executes an instruction of `len` bytes.  A failing `SC` writes 1 to `rd` and does not store. -/
def Harts.exec (g : Harts ι) (t : ι) (i : Frv) (len : Nat) : Option (Harts ι) :=
  if reserved g t i then
    (Spec.exec i len (g.at t)).map fun s =>
      { hart := fun u => if u = t then s else g.hart u
        mem := s.mem
        res := fun u =>
          if u = t then
            match lrBytes i.mnem with
            | some n => some ((g.hart t).x i.rs1, n)
            | none => if (scBytes i.mnem).isSome then none else g.res t
          else
            match g.res u, writes i (g.at t) with
            | some r, some w => if overlap r w then none else some r
            | r, _ => r }
  else
    some { g with
      hart := fun u => if u = t then (g.hart t).wr i.rd 1#64 len else g.hart u
      res := fun u => if u = t then none else g.res u }

/-- Hart `t` makes a step. -/
def Harts.step (fetch : BitVec 64 → Option (Frv × Nat)) (t : ι) (g : Harts ι) : Option (Harts ι) :=
  match fetch (g.hart t).pc with
  | none => none
  | some (i, len) => g.exec t i len

/-- What `C62_rv64_partial` asks of the next instruction of hart `t`: it exists, is specified, is not one of the cases in which the
lifted code is wrong even for a single hart (see `RV64_exact`), and is not an `SC` that fails (see `C62_lrsc_counterexample`). -/
def Harts.Good (fetch : BitVec 64 → Option (Frv × Nat)) (g : Harts ι) (t : ι) : Prop :=
  ∃ i len, fetch (g.hart t).pc = some (i, len) ∧ Decoded i ∧ NoDefect i (g.at t) ∧ (Spec.exec i len (g.at t)).isSome ∧
    reserved g t i

end Verif.Conc.RV64
