import Verif.Lift.Model

/-!
Model of the SSA form of the lifted function and of the placement of CPU struct stores.

Source: /repo/src/callconv.cc lines 188-358 (`Pack`, `Unpack`, `Call`, `Return`, `OptimizePacks`),
/repo/src/basicblock.cc lines 58-118 (`InitWithPHIs`, `FillPhis`), /repo/src/regfile.cc lines 191-260
(`InitWithRegFile`, `InitWithPHIs`, `DirtyRegs`, `StartsClean`).

The register file of a block starts with the values of the CPU struct, with the values at the end of
another block, or with PHI nodes.  In SSA form the value of a register at the end of a block is fixed
by the last execution of that block, so execution keeps the values at the end of every block (`env`).
A lazily emitted load of a clean register is modelled by its value at the time of the `Unpack`;
`late_load` (in `Verif.Lift.SsaProofs`) shows that the slot still has this value at the end of the
block.
-/

namespace Verif.Lift

open Verif.Decode Verif.IR

variable {P R V M : Type}

/-- Static state of a register file: `StartsClean()` and `DirtyRegs()`,
/repo/src/regfile.cc:225-226. -/
structure Seg (R : Type) where
  clean : Bool
  dirty : Finset R

/-- Result of the dataflow analysis: dirty registers at the beginning and the end of the blocks
(`bb_map`, /repo/src/callconv.cc:264).  Blocks never visited have no entry; `lookup` gives empty
sets for them. -/
abbrev Flow (R : Type) := Id → Option (Finset R × Finset R)

def Flow.pre (F : Flow R) (b : Id) : Finset R := ((F b).map Prod.fst).getD ∅
def Flow.post (F : Flow R) (b : Id) : Finset R := ((F b).map Prod.snd).getD ∅

variable [DecidableEq R]

/-- Effect of an item on the register file: a call packs the old one and starts a new, clean one;
/repo/src/callconv.cc:188-217,234-260. -/
def Seg.item (x : Seg R) : Item R V M → Seg R
  | .upd _ d => { x with dirty := x.dirty ∪ d }
  | .call _ => ⟨true, ∅⟩

/-- Items of the code of a list of instructions. -/
def bodyItems (L : Lifter P R V M) (is : List (Inst P)) : List (Item R V M) := is.flatMap L.items

/-- The register file a block starts with. -/
def startSeg (bb : BB P) : Seg R := ⟨decide (bb.init = some .clean), ∅⟩

/-- The register file at the end of a block. -/
def endSeg (L : Lifter P R V M) (bb : BB P) : Seg R :=
  (bodyItems L bb.body).foldl Seg.item (startSeg bb)

/-- The register file at the first call among the items. -/
def callSeg (x : Seg R) : List (Item R V M) → Option (Seg R)
  | [] => none
  | .call _ :: _ => some x
  | .upd f d :: is => callSeg (x.item (.upd f d : Item R V M)) is

/-- The register file that is packed first in a block: at the first call, or at the end if the block
has no terminator (exit block, or a return). -/
def packSeg (L : Lifter P R V M) (bb : BB P) : Option (Seg R) :=
  match callSeg (startSeg bb) (bodyItems L bb.body) with
  | some x => some x
  | none => if bb.term.isNone then some (endSeg L bb) else none

/-- State of the dataflow iteration, /repo/src/callconv.cc:266-275: the rest of the current queue,
the next queue, and the map.  The set `queue` contains the members of both lists. -/
structure DfSt (R : Type) where
  cur : List Id
  nxt : List Id
  map : Flow R

/-- Appending the successors that are not queued, /repo/src/callconv.cc:292-297. -/
def pushSuccs (cur : List Id) : List Id → List Id → List Id
  | nxt, [] => nxt
  | nxt, s :: ss => if s ∈ cur ∨ s ∈ nxt then pushSuccs cur nxt ss else pushSuccs cur (nxt ++ [s]) ss

/-- Sets at the beginning and the end of a block, /repo/src/callconv.cc:276-288. -/
def blockSets (L : Lifter P R V M) (F : Flow R) (bb : BB P) : Finset R × Finset R :=
  let pre := bb.preds.foldr (fun p s => F.post p ∪ s) ∅
  let x := endSeg L bb
  (pre, if bb.rf then (if x.clean then x.dirty else pre ∪ x.dirty) else ∅)

/-- Do the successors have to be looked at again?  /repo/src/callconv.cc:289-292. -/
def needPush (old : Option (Finset R × Finset R)) (new : Finset R × Finset R) : Bool :=
  match old with
  | none => true
  | some old => decide (old.2 ≠ new.2)

/-- One iteration of the inner loop, or taking the next queue; /repo/src/callconv.cc:272-304.
`none`: the analysis is finished. -/
def dfStep (L : Lifter P R V M) (g : Graph P) (d : DfSt R) : Option (DfSt R) :=
  match d.cur with
  | [] => match d.nxt with
    | [] => none
    | n :: ns => some { d with cur := n :: ns, nxt := [] }
  | b :: cur =>
    match g b with
    | none => some { d with cur := cur }
    | some bb =>
      let new := blockSets L d.map bb
      some { cur := cur
             nxt := if needPush (d.map b) new then pushSuccs cur d.nxt bb.succs else d.nxt
             map := fun x => if x = b then some new else d.map x }

/-- The dataflow analysis with a bound on the number of iterations; `none`: not finished. -/
def dfRun (L : Lifter P R V M) (g : Graph P) : Nat → DfSt R → Option (Flow R)
  | 0, _ => none
  | n + 1, d =>
    match dfStep L g d with
    | none => some d.map
    | some d => dfRun L g n d

/-- The single dirty predecessor, if it has no other successor; /repo/src/callconv.cc:327-343. -/
def hoistNext (g : Graph P) (F : Flow R) (b : Id) (r : R) : Option Id :=
  match g b with
  | none => none
  | some bb =>
    match bb.preds.filter (fun p => decide (r ∈ F.post p)) with
    | [p] =>
      match g p with
      | none => none
      | some pb => if pb.succs.length = 1 then some p else none
    | _ => none

/-- Where a register is stored for a pack, /repo/src/callconv.cc:322-357, with a bound on the number
of iterations.  `x` is the register file looked at in block `b`; `pos` is `none` as long as this is
the register file to be packed (`rf == &regfile`), otherwise the store goes to the end of `b`. -/
def hoistLoop (L : Lifter P R V M) (g : Graph P) (F : Flow R) (r : R) :
    Nat → Option Id → Id → Seg R → Option (Option Id)
  | 0, _, _, _ => none
  | n + 1, pos, b, x =>
    if x.clean || decide (r ∈ x.dirty) then some pos
    else
      match hoistNext g F b r with
      | none => some pos
      | some p =>
        match g p with
        | none => none
        | some pb => hoistLoop L g F r n (some p) p (endSeg L pb)

/-- Where stores were put: at the pack of the block itself, or at the end of another block. -/
structure Plan (R : Type) where
  flow : Flow R
  here : List (Id × R)
  atEnd : List (Id × R)

/-- The registers to look at for the first pack of a block: those that are not dirty in the register
file itself but may be dirty at the beginning of the block.  (Dirty registers are always stored at
the pack, /repo/src/callconv.cc:325.) -/
def packRegs (L : Lifter P R V M) (F : Flow R) (regs : List R) (b : Id) (bb : BB P) : List R :=
  match packSeg L bb with
  | none => []
  | some x => if x.clean then [] else
      regs.filter (fun r => decide (r ∈ F.pre b) && !decide (r ∈ x.dirty))

/-- Destinations of the stores for the first pack of a block: `(b, r, none)` for a store at the pack,
`(b, r, some q)` for a store at the end of `q`. -/
def packDests (L : Lifter P R V M) (g : Graph P) (F : Flow R) (regs : List R) (fuel : Nat) (b : Id) :
    Option (List (Id × R × Option Id)) :=
  match g b with
  | none => some []
  | some bb =>
    match packSeg L bb with
    | none => some []
    | some x => (packRegs L F regs b bb).mapM
        (fun r => (hoistLoop L g F r fuel none b x).map (fun d => (b, r, d)))

/-- Stores at packs. -/
def hereOf (ds : List (Id × R × Option Id)) : List (Id × R) :=
  ds.filterMap (fun d => if d.2.2 = none then some (d.1, d.2.1) else none)

/-- Hoisted stores. -/
def atEndOf (ds : List (Id × R × Option Id)) : List (Id × R) :=
  ds.filterMap (fun d => d.2.2.map (fun q => (q, d.2.1)))

/-- `OptimizePacks`, /repo/src/callconv.cc:262-358.  `ids` are the blocks that may have packs, `regs`
the registers in the CPU struct.  `none` if the loops need more than `fuel` iterations. -/
def optimizePacks (L : Lifter P R V M) (g : Graph P) (ids : List Id) (regs : List R) (fuel : Nat) :
    Option (Plan R) :=
  match dfRun L g fuel ⟨[.entry], [], fun _ => none⟩ with
  | none => none
  | some F =>
    (ids.mapM (packDests L g F regs fuel)).map
      (fun ls => { flow := F, here := hereOf ls.flatten, atEnd := atEndOf ls.flatten })

/-! ### Execution -/

/-- Run-time state within a block: the register file with its static state, and the slots of the CPU
struct. -/
structure Rt (R V M : Type) where
  st : St R V M
  slot : R → V
  seg : Seg R

/-- A store of a register.  Stores of undefined values may be left out
(/repo/src/callconv.cc:350-351): `drop` tells whether the value is the constant `undef`. -/
def storeReg (drop : R → V → Bool) (r : R) (new old : V) : V := if drop r new then old else new

/-- Storing the registers selected by `sel`. -/
def storeAll (drop : R → V → Bool) (sel : R → Bool) (regs slot : R → V) : R → V :=
  fun r => if sel r then storeReg drop r (regs r) (slot r) else slot r

/-- The registers stored by a pack in block `b` directly before the call or return. -/
def packSel (plan : Plan R) (b : Id) (x : Seg R) (r : R) : Bool :=
  decide (r ∈ x.dirty) || (!x.clean && decide ((b, r) ∈ plan.here))

/-- The CPU struct after packing, /repo/src/callconv.cc:306-357. -/
def Rt.pack (plan : Plan R) (drop : R → V → Bool) (slide : BitVec 64) (b : Id) (x : Rt R V M) :
    CPU R V M :=
  ⟨storeAll drop (packSel plan b x.seg) x.st.regs x.slot, x.st.pc.val slide, x.st.mem⟩

/-- Execution of an item. -/
def ssaItem (plan : Plan R) (drop : R → V → Bool) (slide : BitVec 64) (b : Id) (x : Rt R V M)
    (it : Item R V M) : Option (Rt R V M) :=
  match it with
  | .upd f d => (f x.st).map (fun st => { x with st := st, seg := x.seg.item (.upd f d : Item R V M) })
  | .call g => (g (x.pack plan drop slide b)).map
      (fun c => { st := c.unpack, slot := c.slot, seg := x.seg.item (.call g) })

def ssaItems (plan : Plan R) (drop : R → V → Bool) (slide : BitVec 64) (b : Id) :
    List (Item R V M) → Rt R V M → Option (Rt R V M)
  | [], x => some x
  | i :: is, x => (ssaItem plan drop slide b x i).bind (ssaItems plan drop slide b is)

/-- Execution of the instructions of a block. -/
def ssaBody (L : Lifter P R V M) (plan : Plan R) (drop : R → V → Bool) (slide : BitVec 64) (b : Id) :
    List (Inst P) → Rt R V M → Option (Rt R V M)
  | [], x => some x
  | i :: is, x =>
    (ssaItems plan drop slide b (L.items i)
      { x with st := { x.st with pc := .const (L.startPc i) } }).bind
      (ssaBody L plan drop slide b is)

/-- Run-time state between blocks: the registers at the end of the last execution of every block, the
program counter at the end of the last block, CPU struct slots and memory. -/
structure Env (R V M : Type) where
  out : Id → R → V
  pc : Pc
  slot : R → V
  mem : M

/-- Where execution of the SSA form stands: on the edge from `q` to `b`, or returned. -/
inductive SCfg (R V M : Type) where
  | at (q b : Id) (e : Env R V M)
  | done (viaExit : Bool) (c : CPU R V M)

/-- Registers at the beginning of a block reached from `q`. -/
def startRegs (bb : BB P) (q : Id) (e : Env R V M) : Option (R → V) :=
  match bb.init with
  | none => none
  | some .clean => some e.slot
  | some (.parent p) => some (e.out p)
  | some .phis => some (e.out q)

/-- Execution of one block of the SSA form. -/
def stepSsa (L : Lifter P R V M) (plan : Plan R) (drop : R → V → Bool) (slide : BitVec 64)
    (g : Graph P) : SCfg R V M → Option (SCfg R V M)
  | .done v c => some (.done v c)
  | .at q b e =>
    match g b with
    | none => none
    | some bb =>
      match startRegs bb q e with
      | none => none
      | some regs =>
        match ssaBody L plan drop slide b bb.body ⟨⟨regs, e.mem, e.pc⟩, e.slot, startSeg bb⟩ with
        | none => none
        | some x =>
          match bb.term with
          | none => if bb.rf then none else some (.done (decide (b = .exit)) (x.pack plan drop slide b))
          | some t => (t.next slide x.st.pc).map (fun b' => .at b b'
              { out := fun y => if y = b then x.st.regs else e.out y
                pc := x.st.pc
                slot := storeAll drop (fun r => decide ((b, r) ∈ plan.atEnd)) x.st.regs x.slot
                mem := x.st.mem })

def runSsa (L : Lifter P R V M) (plan : Plan R) (drop : R → V → Bool) (slide : BitVec 64)
    (g : Graph P) : Nat → SCfg R V M → Option (SCfg R V M)
  | 0, c => some c
  | n + 1, c => (stepSsa L plan drop slide g c).bind (runSsa L plan drop slide g n)

/-- Call of the lifted function with a CPU struct: nothing has been executed yet, so the values
`out0` at the end of blocks are arbitrary. -/
def ssaStart (out0 : Id → R → V) (c : CPU R V M) : SCfg R V M :=
  .at .entry .entry ⟨out0, .value c.pc, c.slot, c.mem⟩

/-- Blocks in which `Pack` may have been called, in the order of lifting. -/
def packIds (fn : Fn P) : List Id :=
  (fn.instrs.filter (fun d => d.newBlock)).map (fun d => Id.at d.inst.start) ++ [.exit]

end Verif.Lift
