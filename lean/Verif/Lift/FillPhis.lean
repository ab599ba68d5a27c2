import Verif.Lift.Ssa

/-!
Model of the construction of PHI nodes: on-demand creation while code is generated, and the loop that
fills them at the end.

Source: /repo/src/regfile.cc lines 330-361 (`GetRegFold`, the part that looks outside of the block),
/repo/src/basicblock.cc lines 58-70 and 101-118 (`InitWithPHIs`, `FillPhis`), /repo/src/function.cc
lines 221-231.

`Verif.Lift.Ssa` describes what the registers of a block with PHI nodes hold at run time: the values
at the end of the predecessor that was left.  This needs that every PHI node gets one value for each
edge into its block.  The model here has only what matters for this: which registers a register file
has in full (`has`), the PHI nodes of a block with the predecessors they have a value for, and the
list of PHI nodes still to be filled.
-/

namespace Verif.Lift

open Verif.Decode Verif.IR

variable {P R V M : Type}

/-- A PHI node: its register and the predecessors it has an incoming value for
(`phi->addIncoming(value, pred->EndBlock())`, /repo/src/basicblock.cc:109).  The value is always the
one of that register at the end of that predecessor. -/
structure PhiNode (R : Type) where
  reg : R
  incoming : List Id

/-- What is tracked for a block.  `has r`: the register file the block starts with has a value of
native size for `r`, or knows that the upper part is zero, i.e. the condition of
/repo/src/regfile.cc:335 is false for the native size.  `pending` is `empty_phis` (positions in
`phis`), /repo/src/basicblock.h:94. -/
structure BlockPhis (R : Type) where
  has : R → Bool
  phis : List (PhiNode R) := []
  pending : List Nat := []

/-- The tracked state of all blocks. -/
abbrev PhiSt (R : Type) := Id → BlockPhis R

/-- Change one block. -/
def PhiSt.set (st : PhiSt R) (b : Id) (x : BlockPhis R) : PhiSt R := fun c => if c = b then x else st c

/-- Freshly initialized register files: a clean one has all registers (as pending loads,
/repo/src/callconv.cc:195-217), the others have none (/repo/src/regfile.cc:207-223). -/
def phiInit (g : Graph P) : PhiSt R := fun b =>
  { has := fun _ => match g b with
      | some bb => decide (bb.init = some .clean)
      | none => false }

variable [DecidableEq R]

/-- The register becomes known in full. -/
def BlockPhis.know (x : BlockPhis R) (r : R) : BlockPhis R :=
  { x with has := fun q => if q = r then true else x.has q }

/-- A new PHI node, /repo/src/regfile.cc:350-357. -/
def BlockPhis.push (x : BlockPhis R) (r : R) : BlockPhis R :=
  { has := fun q => if q = r then true else x.has q
    phis := x.phis ++ [⟨r, []⟩]
    pending := x.pending ++ [x.phis.length] }

/-- Is the register file at the end of the block one that was loaded from the CPU struct, after a
call or in the entry block?  Then it has all registers and is not the one the block started with. -/
def cleanEnd (L : Lifter P R V M) (g : Graph P) (b : Id) : Bool :=
  match g b with
  | some bb => (endSeg L bb).clean
  | none => false

/-- `GetRegFold(reg, native size)` on the register file a block starts with, /repo/src/regfile.cc:330-361:
if the register is not there in full, it is taken from the parent, or a PHI node is created.  `none`
is the assertion failure "accessing unset register in entry block", or that `n` is exceeded by the
length of the chain of parents. -/
def demand (L : Lifter P R V M) (g : Graph P) : Nat → PhiSt R → Id → R → Option (PhiSt R)
  | 0, _, _, _ => none
  | n + 1, st, b, r =>
    if (st b).has r then some st
    else
      match g b with
      | none => none
      | some bb =>
        match bb.init with
        | none => none
        | some .clean => none
        | some (.parent p) =>
          match (if cleanEnd L g p then some st else demand L g n st p r) with
          | none => none
          | some st => some (st.set b ((st b).know r))
        | some .phis => some (st.set b ((st b).push r))

/-- `GetReg` on the register file at the end of a block. -/
def demandEnd (L : Lifter P R V M) (g : Graph P) (n : Nat) (st : PhiSt R) (b : Id) (r : R) :
    Option (PhiSt R) :=
  if cleanEnd L g b then some st else demand L g n st b r

/-- An access to the register file a block starts with, by an instruction lifter or for a CPU struct
store.  `read` is one that needs more of the register than is there, or the whole of it; other reads
and partial writes change nothing that is tracked; `write` is a write of the whole register
(/repo/src/regfile.cc:567-596). -/
inductive PhiAcc (R : Type) where
  | read (b : Id) (r : R)
  | write (b : Id) (r : R)

/-- A sequence of accesses, in any order and to any blocks. -/
def runAccs (L : Lifter P R V M) (g : Graph P) (n : Nat) : PhiSt R → List (PhiAcc R) → Option (PhiSt R)
  | st, [] => some st
  | st, .read b r :: as =>
    match demand L g n st b r with
    | none => none
    | some st => runAccs L g n st as
  | st, .write b r :: as => runAccs L g n (st.set b ((st b).know r)) as

/-- `phi->addIncoming(value, pred)`, /repo/src/basicblock.cc:109. -/
def BlockPhis.addIncoming (x : BlockPhis R) (i : Nat) (q : Id) : BlockPhis R :=
  { x with phis := x.phis.modify i (fun p => { p with incoming := p.incoming ++ [q] }) }

/-- The inner loop of `FillPhis` for the PHI node `i` of block `b`, /repo/src/basicblock.cc:107-113.
`none` also if an access appends to the list that the outer loop iterates over, which is undefined
behaviour.  Replacing the uses of a PHI node with a single value does not change any value. -/
def fillPhi (L : Lifter P R V M) (g : Graph P) (n : Nat) (b : Id) (i : Nat) (r : R) :
    PhiSt R → List Id → Option (PhiSt R)
  | st, [] => some st
  | st, q :: qs =>
    match demandEnd L g n st q r with
    | none => none
    | some st' =>
      if (st' b).pending.length = (st b).pending.length then
        fillPhi L g n b i r (st'.set b ((st' b).addIncoming i q)) qs
      else none

/-- The outer loop of `FillPhis`, /repo/src/basicblock.cc:106-114. -/
def fillList (L : Lifter P R V M) (g : Graph P) (n : Nat) (b : Id) (preds : List Id) :
    PhiSt R → List Nat → Option (PhiSt R)
  | st, [] => some st
  | st, i :: is =>
    match (st b).phis[i]? with
    | none => none
    | some phi =>
      match fillPhi L g n b i phi.reg st preds with
      | none => none
      | some st => fillList L g n b preds st is

/-- `FillPhis`, /repo/src/basicblock.cc:101-118, with its result.  The assertion on the number of
predecessors (line 102) is the subject of C08 and not modelled here. -/
def fillBlock (L : Lifter P R V M) (g : Graph P) (n : Nat) (st : PhiSt R) (b : Id) :
    Option (PhiSt R × Bool) :=
  match g b with
  | none => some (st, false)
  | some bb =>
    match (st b).pending with
    | [] => some (st, false)
    | i :: is =>
      match fillList L g n b bb.preds st (i :: is) with
      | none => none
      | some st => some (st.set b { st b with pending := [] }, true)

/-- One pass over all blocks, /repo/src/function.cc:227-230.  `ids` is the order of the pass: that of
the hash map, then the exit block. -/
def fillRound (L : Lifter P R V M) (g : Graph P) (n : Nat) : PhiSt R → Bool → List Id →
    Option (PhiSt R × Bool)
  | st, ch, [] => some (st, ch)
  | st, ch, b :: bs =>
    match fillBlock L g n st b with
    | none => none
    | some (st, c) => fillRound L g n st (ch || c) bs

/-- The loop, /repo/src/function.cc:225-231; `none` also if it does not end within `k` passes. -/
def fillLoop (L : Lifter P R V M) (g : Graph P) (n : Nat) (ids : List Id) : Nat → PhiSt R →
    Option (PhiSt R)
  | 0, _ => none
  | k + 1, st =>
    match fillRound L g n st false ids with
    | none => none
    | some (st, true) => fillLoop L g n ids k st
    | some (st, false) => some st

end Verif.Lift
