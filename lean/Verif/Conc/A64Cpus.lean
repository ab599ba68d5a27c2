import Verif.Conc.A64
import Verif.A64.Props

/-!
Specification of AArch64 processors that share memory, independent of the model of the lifter: every instruction is one step, and a
store-exclusive needs the mark that a load-exclusive made.
-/

namespace Verif.Conc.A64

open Verif.IR Verif.A64 Verif.A64.Spec

/-- Registers of each processor (the `mem` component is not used), the memory, and the bytes each processor has marked for exclusive
access. -/
structure Cpus (ι : Type) where
  cpu : ι → S
  mem : Mem
  mark : ι → Option (BitVec 64 × Nat)

variable {ι : Type}

/-- The machine as processor `t` sees it. -/
def Cpus.at (g : Cpus ι) (t : ι) : S := { g.cpu t with mem := g.mem }

/-- The bytes of an access of `n` bytes. -/
def S.bytes (s : S) (size n : Nat) (rn : Reg) (mode : AM) : Option (BitVec 64 × Nat) := (s.addr size rn mode).map fun a => (a.1, n)

/-- The bytes a load reads. -/
def reads (s : S) : Instr → Option (BitVec 64 × Nat)
  | .ldr _ e mode _ _ rn => S.bytes s e.bytes e.bytes rn mode
  | .ldp _ e mode _ _ _ rn => S.bytes s e.bytes (2 * e.bytes) rn mode
  | _ => none

/-- The bytes a store writes. -/
def writes (s : S) : Instr → Option (BitVec 64 × Nat)
  | .str _ e mode _ _ _ rn => S.bytes s e.bytes e.bytes rn mode
  | .stp _ e mode _ _ _ _ rn => S.bytes s e.bytes (2 * e.bytes) rn mode
  | .strFp sz mode _ rn => S.bytes s sz.bytes sz.bytes rn mode
  | .stpFp sz mode _ _ rn => S.bytes s sz.bytes (2 * sz.bytes) rn mode
  | _ => none

/-- The status register of a store-exclusive. -/
def statusReg : Instr → Option Reg
  | .str _ _ _ _ excl _ _ => excl
  | .stp _ _ _ _ excl _ _ _ => excl
  | _ => none

/-- Do the bytes `a ..` and `b ..` have one in common? -/
def overlap (a b : BitVec 64 × Nat) : Bool := (b.1 - a.1).toNat < a.2 || (a.1 - b.1).toNat < b.2

/-- May processor `t` execute the store-exclusive? -/
def marked (g : Cpus ι) (t : ι) (i : Instr) : Prop :=
  statusReg i = none ∨ (writes (g.at t) i).isSome ∧ g.mark t = writes (g.at t) i

instance (g : Cpus ι) (t : ι) (i : Instr) : Decidable (marked g t i) := by
  unfold marked
  infer_instance

variable [DecidableEq ι]

/-- Processor `t` executes an instruction of `len` bytes; `ex`: it is a load-exclusive.  A store-exclusive without the mark writes 1 to
the status register and does not store.  DC ZVA and the SIMD stores are not specified here.  As in the theorems about single
instructions, nothing is claimed about the flags that `after` leaves out. -/
def Cpus.exec (cfg : Cfg) (g : Cpus ι) (t : ι) (i : Instr) (len : Nat) (ex : Bool) : Option (Cpus ι) :=
  if other i then none
  else if marked g t i then
    (Spec.step i len (g.at t)).map fun s =>
      { cpu := fun u => if u = t then after cfg s i else g.cpu u
        mem := s.mem
        mark := fun u =>
          if u = t then
            if ex then reads (g.at t) i
            else if (statusReg i).isSome then none else g.mark t
          else
            match g.mark u, writes (g.at t) i with
            | some r, some w => if overlap r w then none else some r
            | r, _ => r }
  else
    (statusReg i).map fun rs =>
      { g with
        cpu := fun u => if u = t then { (g.cpu t).setReg rs 1#32 with pc := (g.cpu t).pc + BitVec.ofNat 64 len } else g.cpu u
        mark := fun u => if u = t then none else g.mark u }

/-- Processor `t` makes a step. -/
def Cpus.step (cfg : Cfg) (fetch : BitVec 64 → Option (Instr × Nat × Bool)) (t : ι) (g : Cpus ι) : Option (Cpus ι) :=
  match fetch (g.cpu t).pc with
  | none => none
  | some (i, len, ex) => g.exec cfg t i len ex

/-- What `C62_a64_partial` asks of the next instruction of processor `t`: it exists, is specified, is not one of the cases in which the
lifted code is wrong even for a single processor, has one memory access at most, and is not a store-exclusive that fails (see
`C62_a64_exclusive_counterexample`). -/
def Cpus.Good (cfg : Cfg) (fetch : BitVec 64 → Option (Instr × Nat × Bool)) (g : Cpus ι) (t : ι) : Prop :=
  ∃ i len ex, fetch (g.cpu t).pc = some (i, len, ex) ∧ Supported cfg (g.at t) i ∧ (Spec.step i len (g.at t)).isSome ∧
    other i = false ∧ accesses i ≤ 1 ∧ marked g t i

end Verif.Conc.A64
