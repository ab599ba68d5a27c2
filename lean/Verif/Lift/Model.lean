import Verif.Decode.Spec
import Verif.IR.Pc
import Mathlib.Data.Finset.Basic

/-!
Model of the construction of the lifted function's control-flow graph and of its execution.

Source: /repo/src/function.cc lines 71-243 (`LiftHelper::ResolveAddr`, `LiftHelper::Lift`),
/repo/src/basicblock.cc lines 48-118 (`ArchBasicBlock`), /repo/src/regfile.cc lines 232-293 and
598-633 (program counter modes), /repo/src/callconv.cc lines 178-260 (packing and unpacking).

The generated code of one instruction is abstracted to a list of `Item`s: straight-line updates and
calls of external functions.  The instruction lifters themselves are modelled in `Verif.RV64` etc.
This file has the "flat" execution, in which registers travel along the edges of the graph; the SSA
construction and the optimized placement of CPU struct stores are in `Verif.Lift.Ssa`.
-/

namespace Verif.Lift

open Verif.Decode Verif.IR

/-- An `ArchBasicBlock`: the entry block, the exit block, or the block of an address
(`block_map`), /repo/src/function.cc:59-61,137,144. -/
inductive Id where
  | entry | exit
  | at (a : Addr)
  deriving DecidableEq, Repr

/-- Mode of the program counter after lifting an instruction (`PCReg::Mode`, known when the
function is generated), /repo/src/regfile.cc:250-267; `returned` if the instruction's code ends in a
return (`ForceReturn`, /repo/src/lifter-base.h:132-134), so there is no register file any more. -/
inductive Form where
  | value
  | const (a : Addr)
  | cond (a b : Addr)
  | check (a : Addr)
  | returned
  deriving DecidableEq, Repr

/-- The mode of a program counter with its run-time values. -/
def formOf : Pc → Form
  | .value _ => .value
  | .const a => .const a
  | .cond _ a b => .cond a b
  | .check _ a => .check a

/-- How the register file of a block starts: loaded from the CPU struct, taken from the register
file of another block, or with PHI nodes.  /repo/src/basicblock.cc:58-70. -/
inductive Init where
  | clean
  | parent (p : Id)
  | phis
  deriving DecidableEq, Repr

/-- Terminator of a block, /repo/src/basicblock.cc:72-99. -/
inductive Term where
  | br (t : Id)
  | cond (t e : Id)
  deriving DecidableEq, Repr

/-- `ArchBasicBlock`, /repo/src/basicblock.h:80-95.  `maxPreds = none` is `SIZE_MAX`; `body` lists the
instructions whose code was put into the block; `rf` tells whether the block has a register file. -/
structure BB (P : Type) where
  maxPreds : Option Nat
  preds : List Id := []
  succs : List Id := []
  init : Option Init := none
  body : List (Inst P) := []
  term : Option Term := none
  rf : Bool := false

/-- All blocks of the function. -/
abbrev Graph (P : Type) := Id → Option (BB P)

/-- What the generator knows about an instruction: whether it can be lifted (return value of
`lift_fn`, /repo/src/function.cc:169), the mode of the program counter after it, and whether its
branch condition was folded to a constant by the IR builder (/repo/src/function.cc:190). -/
structure SLifter (P : Type) where
  ok : Inst P → Bool
  form : Inst P → Form
  fold : Inst P → Option Bool

variable {P : Type}

/-- Change one block. -/
def Graph.set (g : Graph P) (b : Id) (bb : BB P) : Graph P := fun x => if x = b then some bb else g x

/-- Change one block if it exists. -/
def Graph.modify (g : Graph P) (b : Id) (f : BB P → BB P) : Graph P :=
  fun x => if x = b then (g b).map f else g x

/-- `ResolveAddr`, /repo/src/function.cc:71-91.  `none` is undefined behaviour: looking up a key
that the map type reserves. -/
def resolve (fn : Fn P) (g : Graph P) (a : Addr) : Option (Graph P × Id) :=
  if a = 0 then some (g, .exit)
  else if reserved a then none
  else if (g (.at a)).isSome then some (g, .at a)
  else
    match fn.imap a with
    | none => some (g, .exit)
    | some e =>
      if e.decoded then
        match fn.instrs[e.idx]? with
        | none => none
        | some d =>
          if d.newBlock then some (g.set (.at a) { maxPreds := some e.preds }, .at a)
          else some (g, .exit)
      else some (g, .exit)

/-- `BranchTo(next)`, /repo/src/basicblock.cc:72-80. -/
def branchTo (g : Graph P) (b t : Id) : Graph P :=
  (g.modify b (fun bb => { bb with term := some (.br t), succs := bb.succs ++ [t] })).modify t
    (fun bb => { bb with preds := bb.preds ++ [b] })

/-- `BranchTo(cond, then, other)`, /repo/src/basicblock.cc:82-99. -/
def branchCond (g : Graph P) (b t e : Id) : Graph P :=
  if t = e then branchTo g b t
  else
    (((g.modify b (fun bb => { bb with term := some (.cond t e), succs := bb.succs ++ [t, e] })).modify
      t (fun bb => { bb with preds := bb.preds ++ [b] })).modify
      e (fun bb => { bb with preds := bb.preds ++ [b] }))

/-- `InitWithPHIs`, /repo/src/basicblock.cc:58-70. -/
def BB.initPhis (closed : Bool) (bb : BB P) : BB P :=
  { bb with
    rf := true
    init := some (match bb.preds with
      | [p] => if closed || bb.maxPreds == some 1 then .parent p else .phis
      | _ => .phis) }

/-- Start of a new block in the lifting loop, /repo/src/function.cc:163-167.  `none` is undefined
behaviour or an assertion failure: a reserved address, code at address 0 (which would be put into
the exit block), or a block with a register file. -/
def enter (fn : Fn P) (g : Graph P) (a : Addr) : Option (Graph P × Id) :=
  match resolve fn g a with
  | none => none
  | some (_, .entry) => none
  | some (_, .exit) => none
  | some (g, .at x) =>
    match g (.at x) with
    | none => none
    | some bb => if bb.rf then none else some (g.set (.at x) (bb.initPhis false), .at x)

/-- Putting the code of an instruction into a block (`lift_fn`, /repo/src/function.cc:169).  `none`:
the block has no register file. -/
def emit (L : SLifter P) (g : Graph P) (b : Id) (i : Inst P) : Option (Graph P) :=
  match g b with
  | none => none
  | some bb =>
    if bb.rf then
      some (g.set b { bb with body := bb.body ++ [i], rf := decide (L.form i ≠ .returned) })
    else none

/-- Two-way branch with a condition that may have been folded, /repo/src/function.cc:189-193. -/
def branchPc (fn : Fn P) (g : Graph P) (b : Id) (fold : Option Bool) (a1 a2 : Addr) :
    Option (Graph P) :=
  match fold with
  | some true => (resolve fn g a1).map (fun r => branchTo r.1 b r.2)
  | some false => (resolve fn g a2).map (fun r => branchTo r.1 b r.2)
  | none =>
    match resolve fn g a1 with
    | none => none
    | some (g, t) => (resolve fn g a2).map (fun r => branchCond r.1 b t r.2)

/-- Finishing a block, /repo/src/function.cc:182-193 and `GetPCBranch`,
/repo/src/regfile.cc:617-633. -/
def finishBlock (L : SLifter P) (fn : Fn P) (g : Graph P) (b : Id) (d : DInstr P) :
    Option (Graph P) :=
  match g b with
  | none => none
  | some bb =>
    if !bb.rf || bb.term.isSome then some g
    else if d.inhibit then some (branchTo g b .exit)
    else
      match L.form d.inst with
      | .value => branchPc fn g b (some true) 0 0
      | .const a => branchPc fn g b (some true) a 0
      | .cond a1 a2 => branchPc fn g b (L.fold d.inst) a1 a2
      | .check a => branchPc fn g b (L.fold d.inst) a 0
      | .returned => none

/-- Result of `ll_func_lift`: NULL, undefined behaviour, or a function. -/
inductive Res (P : Type) where
  | null | ub
  | ok (g : Graph P)

/-- Instructions skipped after a failure, /repo/src/function.cc:175-177. -/
def skip (ok : Bool) (ds : List (DInstr P)) : List (DInstr P) :=
  if ok then ds else ds.dropWhile (fun d => !d.newBlock)

/-- Is the block finished here?  /repo/src/function.cc:181. -/
def endsHere : List (DInstr P) → Bool
  | [] => true
  | d :: _ => d.newBlock

theorem skip_length (ok : Bool) (ds : List (DInstr P)) : (skip ok ds).length ≤ ds.length := by
  unfold skip
  split
  · exact Nat.le_refl _
  · exact (List.dropWhile_suffix _).length_le

/-- The lifting loop, /repo/src/function.cc:159-196; `first` is `i == 0`. -/
def liftLoop (L : SLifter P) (fn : Fn P) (first : Bool) (cur : Option Id) (g : Graph P) :
    List (DInstr P) → Res P
  | [] => .ok g
  | d :: ds =>
    match (if d.newBlock then (enter fn g d.inst.start).map (fun r => (r.1, some r.2))
           else some (g, cur)) with
    | none => .ub
    | some (_, none) => .ub
    | some (g, some b) =>
      match emit L g b d.inst with
      | none => .ub
      | some g =>
        if !L.ok d.inst && first then .null
        else if endsHere (skip (L.ok d.inst) ds) then
          match finishBlock L fn g b d with
          | none => .ub
          | some g => liftLoop L fn false (some b) g (skip (L.ok d.inst) ds)
        else liftLoop L fn false (some b) g (skip (L.ok d.inst) ds)
  termination_by ds => ds.length
  decreasing_by
    all_goals
      have := skip_length (L.ok d.inst) ds
      simp only [List.length_cons]; omega

/-- The graph before the loop, /repo/src/function.cc:137-144: the entry block branches to the block
of the first instruction; afterwards the exit block is created. -/
def startGraph (fn : Fn P) (entryIp : Addr) : Option (Graph P) :=
  match resolve fn (fun x => if x = .entry then
      some { maxPreds := some 0, init := some .clean, rf := true } else none) entryIp with
  | none => none
  | some (_, .entry) => none
  | some (_, .exit) => none
  | some (g, .at a) => some ((branchTo g .entry (.at a)).set .exit { maxPreds := none })

/-- The exit block, /repo/src/function.cc:198-217: sealed, then its register file is packed for the
return or the tail call. -/
def sealExit (g : Graph P) : Graph P :=
  g.modify .exit (fun bb => { bb.initPhis true with rf := false })

/-- `LiftHelper::Lift`, /repo/src/function.cc:93-243.  `known` is whether support for the configured
architecture was compiled in; lines 233-240 are modelled in `Verif.Lift.Finish`. -/
def lift (known : Bool) (L : SLifter P) (fn : Fn P) : Res P :=
  match fn.instrs with
  | [] => .null
  | d :: _ =>
    if !known then .null
    else
      let fn := countEntry fn d.inst.start
      match startGraph fn d.inst.start with
      | none => .ub
      | some g =>
        match liftLoop L fn true none g fn.instrs with
        | .ok g => .ok (sealExit g)
        | r => r

/-! ### Execution -/

/-- Run-time state inside the lifted code: guest registers, guest memory and the program counter of
the register file. -/
structure St (R V M : Type) where
  regs : R → V
  mem : M
  pc : Pc

/-- The state visible outside: the CPU struct (one slot per register and the program counter) and
guest memory.  The struct does not alias guest memory (`noalias`, /repo/src/function.cc:127). -/
structure CPU (R V M : Type) where
  slot : R → V
  pc : Val 64
  mem : M

/-- A piece of the generated code of an instruction: a straight-line update that writes at most the
registers in `dirty`, or a call of an external function on the CPU struct
(`CallExternalFunction`, /repo/src/lifter-base.cc:46-57).  `none` is undefined behaviour. -/
inductive Item (R V M : Type) where
  | upd (f : St R V M → Option (St R V M)) (dirty : Finset R)
  | call (g : CPU R V M → Option (CPU R V M))

/-- A lifter with the run-time meaning of the code it generates.  `startPc` is the program counter
set before anything else (start of the instruction on RV64 and AArch64, end on x86-64):
/repo/src/rv64/lifter.cc:365, /repo/src/a64/main.cc:52, /repo/src/x86-64/lifter.cc:50. -/
structure Lifter (P R V M : Type) extends SLifter P where
  startPc : Inst P → Addr
  items : Inst P → List (Item R V M)

variable {R V M : Type}

/-- Storing all registers to the CPU struct. -/
def St.pack (slide : BitVec 64) (s : St R V M) : CPU R V M := ⟨s.regs, s.pc.val slide, s.mem⟩

/-- Loading all registers from the CPU struct (`Unpack`, /repo/src/callconv.cc:195-217). -/
def CPU.unpack (c : CPU R V M) : St R V M := ⟨c.slot, c.mem, .value c.pc⟩

/-- Flat execution of one item. -/
def execItem (slide : BitVec 64) (s : St R V M) : Item R V M → Option (St R V M)
  | .upd f _ => f s
  | .call g => (g (s.pack slide)).map CPU.unpack

/-- Flat execution of items in sequence. -/
def execItems (slide : BitVec 64) : List (Item R V M) → St R V M → Option (St R V M)
  | [], s => some s
  | i :: is, s => (execItem slide s i).bind (execItems slide is)

/-- Flat execution of the code of an instruction. -/
def execInst (L : Lifter P R V M) (slide : BitVec 64) (i : Inst P) (s : St R V M) :
    Option (St R V M) :=
  execItems slide (L.items i) { s with pc := .const (L.startPc i) }

/-- Flat execution of the instructions of a block. -/
def execBody (L : Lifter P R V M) (slide : BitVec 64) : List (Inst P) → St R V M →
    Option (St R V M)
  | [], s => some s
  | i :: is, s => (execInst L slide i s).bind (execBody L slide is)

/-- Condition of `GetPCBranch`, /repo/src/regfile.cc:617-633. -/
def pcCond (slide : BitVec 64) : Pc → Val 1
  | .value _ => some 1#1
  | .const _ => some 1#1
  | .cond c _ _ => c
  | .check v a => icmp .eq v (addrPCBase slide a)

/-- The block a terminator transfers control to; branching on poison is undefined. -/
def Term.next (slide : BitVec 64) (pc : Pc) : Term → Option Id
  | .br t => some t
  | .cond t e =>
    match pcCond slide pc with
    | none => none
    | some c => some (if c = 1#1 then t else e)

/-- Where execution stands: at the beginning of a block, or returned.  `viaExit` tells whether the
exit block was left, where the tail function is called if there is one
(/repo/src/function.cc:211-217), or the code of an instruction returned. -/
inductive Cfg (R V M : Type) where
  | at (b : Id) (s : St R V M)
  | done (viaExit : Bool) (c : CPU R V M)

/-- Execution of one block of the lifted function.  `none` is undefined behaviour. -/
def stepBlock (L : Lifter P R V M) (slide : BitVec 64) (g : Graph P) : Cfg R V M →
    Option (Cfg R V M)
  | .done v c => some (.done v c)
  | .at .exit s => some (.done true (s.pack slide))
  | .at b s =>
    match g b with
    | none => none
    | some bb =>
      match execBody L slide bb.body s with
      | none => none
      | some s =>
        match bb.term with
        | none => if bb.rf then none else some (.done false (s.pack slide))
        | some t => (t.next slide s.pc).map (fun b => .at b s)

/-- Execution of `n` blocks. -/
def runBlocks (L : Lifter P R V M) (slide : BitVec 64) (g : Graph P) : Nat → Cfg R V M →
    Option (Cfg R V M)
  | 0, c => some c
  | n + 1, c => (stepBlock L slide g c).bind (runBlocks L slide g n)

end Verif.Lift
