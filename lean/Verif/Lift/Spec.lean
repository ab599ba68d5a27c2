import Verif.Lift.Model

/-!
Specification vocabulary for the whole-function properties: the guest machine, and what it means for
the code of one instruction to be right.
-/

namespace Verif.Lift

open Verif.Decode Verif.IR

variable {P R V M MS : Type}

/-- A guest machine: the program counter of a state and the effect of an instruction; `none` if the
architecture does not define it. -/
structure Guest (P MS : Type) where
  pc : MS → BitVec 64
  step : Inst P → MS → Option MS

/-- One machine step: fetch the instruction at the program counter and execute it.  The code is found
`slide` bytes behind the address it was lifted from. -/
def Guest.next (G : Guest P MS) (code : Decoder P) (slide : BitVec 64) (m : MS) : Option MS :=
  (code (G.pc m - slide)).bind (fun lp => G.step ⟨G.pc m - slide, lp.1, lp.2⟩ m)

/-- `n` machine steps. -/
def Guest.run (G : Guest P MS) (code : Decoder P) (slide : BitVec 64) : Nat → MS → Option MS
  | 0, m => some m
  | n + 1, m => (G.next code slide m).bind (G.run code slide n)

/-- The guest machine executes the straight-line code `body` up to the first instruction that could not be
lifted, and gets from `m` to `m'`. -/
def Guest.Follow (G : Guest P MS) (ok : Inst P → Bool) (slide : BitVec 64) : List (Inst P) → MS → MS → Prop
  | [], m, m' => m' = m
  | i :: is, m, m' => G.pc m = i.start + slide ∧
      if ok i then ∃ m1, G.step i m = some m1 ∧ G.Follow ok slide is m1 m' else m' = m

/-- The guest machine in state `m` executes the first instructions of the straight-line code `body` and
then gets stuck at one of its instructions: the architecture does not define the result. -/
def Guest.StuckIn (G : Guest P MS) (code : Decoder P) (slide : BitVec 64) (body : List (Inst P))
    (m : MS) : Prop :=
  ∃ j m1 i, body[j]? = some i ∧ G.Follow (fun _ => true) slide (body.take j) m m1 ∧
    G.run code slide j m = some m1 ∧ G.pc m1 = i.start + slide ∧ G.step i m1 = none

/-- The code generated for `i` does what the instruction does, and the lifter's static knowledge
about the program counter after it is right.  If the instruction cannot be
lifted, the code leaves the state alone and points the program counter at it. -/
structure Correct (L : Lifter P R V M) (G : Guest P MS) (slide : BitVec 64)
    (rel : MS → (R → V) → M → Prop) (i : Inst P) : Prop where
  lifted : L.ok i = true → ∀ m m' s, rel m s.regs s.mem → G.pc m = i.start + slide →
    G.step i m = some m' → ∃ s', execInst L slide i s = some s' ∧ rel m' s'.regs s'.mem ∧
      s'.pc.val slide = some (G.pc m') ∧ (L.form i ≠ .returned → formOf s'.pc = L.form i)
  failed : L.ok i = false → L.form i = .value ∧ ∀ m s, rel m s.regs s.mem →
    G.pc m = i.start + slide → ∃ s', execInst L slide i s = some s' ∧ rel m s'.regs s'.mem ∧
      s'.pc.val slide = some (G.pc m) ∧ formOf s'.pc = .value

/-- A branch condition that the IR builder folded to a constant has this value whenever the branch is
executed in a run of the lifted function.  (Folding may use constants from earlier instructions and
from preceding blocks, so this is a property of the whole function.) -/
def FoldOK (L : Lifter P R V M) (slide : BitVec 64) (g : Graph P) (c : CPU R V M) : Prop :=
  ∀ k b s bb s' i v, runBlocks L slide g k (.at .entry c.unpack) = some (.at b s) →
    g b = some bb → execBody L slide bb.body s = some s' → bb.body.getLast? = some i →
    L.fold i = some v → pcCond slide s'.pc = some (BitVec.ofBool v)

/-- An instruction that the decoder takes for a plain one continues at its end: the lifter knows this,
or the guest machine does so. -/
def PlainFalls (cls : Classifier P) (L : SLifter P) (G : Guest P MS) (slide : BitVec 64) (i : Inst P) :
    Prop :=
  (cls i).1 = .other → L.ok i = true → L.form i = .const i.stop ∨
    ∀ m m', G.pc m = i.start + slide → G.step i m = some m' → G.pc m' = i.stop + slide

/-- Direct targets of a program counter mode. -/
def Form.targets : Form → List Addr
  | .value | .returned => []
  | .const a => [a]
  | .cond a b => [a, b]
  | .check a => [a]

/-- The decoder knows every direct successor that the lifter branches to. -/
def TargetsKnown (cls : Classifier P) (callFn : Bool) (L : SLifter P) (i : Inst P) : Prop :=
  ((cls i).1 = .call ∧ callFn = false) ∨
    ∀ a ∈ (L.form i).targets, a ≠ 0 → StaticSucc cls callFn i a

end Verif.Lift
