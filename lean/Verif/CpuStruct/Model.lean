import Verif.IR.Basic

/-!
Model of the CPU struct: the description files and their parser, the table used by the calling
convention, and the loads and stores of the lifted code in terms of bytes.
-/

namespace Verif.CpuStruct

open Verif.IR

/-- Guest registers, /repo/src/regfile.h:45-106 (`ArchReg`: kind and index). -/
inductive Reg where
  | invalid
  | gp (i : Nat)
  | vec (i : Nat)
  | flag (i : Nat)
  deriving DecidableEq, Repr

/-- The facets that occur in the description files, /repo/src/facet.inc:2-6,31. -/
inductive Facet where
  | I1 | I8 | I64 | V2I64
  deriving DecidableEq, Repr

/-- Size in bits, /repo/src/facet.inc. -/
def Facet.bits : Facet → Nat
  | .I1 => 1
  | .I8 => 8
  | .I64 => 64
  | .V2I64 => 128

/-- Number of bytes occupied in memory (LLVM's store size). -/
def Facet.bytes : Facet → Nat
  | .I1 => 1
  | .I8 => 1
  | .I64 => 8
  | .V2I64 => 16

/-- Entry of a description file, /repo/data/rellume/cpustruct-x86_64.json. -/
structure Desc where
  name : Option String
  size : Nat
  reg : Option (Reg × Facet)
  exported : Bool
  deriving DecidableEq

/-- Entry with the offset added, /repo/data/rellume/cpustruct_parser.py:37. -/
structure Field extends Desc where
  off : Nat
  deriving DecidableEq

/-- The loop of the parser, /repo/data/rellume/cpustruct_parser.py:33-40: offsets are running sums; an
entry that would be misaligned is an error (`none`), and so is an entry of size 0 (modulo by zero).
The result also contains the final offset, the size of the struct. -/
def layout : Nat → List Desc → Option (List Field × Nat)
  | off, [] => some ([], off)
  | off, d :: ds =>
    if d.size = 0 then none
    else if off % d.size ≠ 0 then none
    else (layout (off + d.size) ds).map (fun p => ({ d with off := off } :: p.1, p.2))

/-- Tuple of the private table: index into the pointer vector, offset, register and facet,
/repo/src/callconv.cc:115. -/
structure Entry where
  idx : Nat
  off : Nat
  reg : Reg
  facet : Facet
  deriving DecidableEq

/-- `RELLUME_MAPPED_REG` entries, /repo/data/rellume/cpustruct_parser.py:13-17 with
/repo/src/callconv.cc:131-158.  The index is the enumerator of /repo/src/function-info.h:42-66, which is
built from the same entries in the same order and therefore is the position. -/
def entriesFrom : Nat → List Field → List Entry
  | _, [] => []
  | n, f :: fs =>
    match f.reg with
    | some (r, fc) => ⟨n, f.off, r, fc⟩ :: entriesFrom (n + 1) fs
    | none => entriesFrom n fs

def entries (fs : List Field) : List Entry := entriesFrom 0 fs

/-- `RELLUME_PUBLIC_REG` entries: name, size and offset, /repo/data/rellume/cpustruct_parser.py:6-11. -/
def publicEntries (fs : List Field) : List (Option String × Nat × Nat) :=
  (fs.filter (fun f => f.reg.isSome && f.exported)).map (fun f => (f.name, f.size, f.off))

/-- Alignment promised for the CPU struct parameter, /repo/src/function.cc:129-130. -/
def paramAlign : Nat := 16

/-- Size promised to be dereferenceable, /repo/src/function.cc:131. -/
def paramDeref : Nat := 0x190

/-- Bit of a register in a `RegisterSet`, /repo/src/regfile.cc:47-60.  `none` is the failing assertion. -/
def bitIdx : Reg → Option Nat
  | .flag i => some (1 + i)
  | .gp i => some (8 + i)
  | .vec i => some (40 + i)
  | .invalid => none

/-- Number of bits of a `RegisterSet`, /repo/src/regfile.h:115. -/
def setSize : Nat := 128

/-! ### Bytes -/

/-- Contents of the struct: bytes by offset, poison possible. -/
abbrev Bytes := Nat → Val 8

/-- `n` bytes at offset `o`, little-endian. -/
def readB (m : Bytes) (o : Nat) : (n : Nat) → Val (8 * n)
  | 0 => some 0#0
  | n + 1 => bin (fun hi lo => hi ++ lo) (readB m (o + 1) n) (m o)

/-- Overwriting `n` bytes at offset `o`. -/
def writeB (m : Bytes) (o n : Nat) (v : Val (8 * n)) : Bytes :=
  fun x => if o ≤ x ∧ x < o + n then un (fun v => v.extractLsb' (8 * (x - o)) 8) v else m x

/-- LLVM load of the type of a facet.  An `i1` in memory is a byte 0 or 1; the result of loading any
other byte as `i1` is not defined. -/
def load (f : Facet) (m : Bytes) (o : Nat) : Val f.bits :=
  match f with
  | .I1 => (readB m o 1).bind (fun b => if b = 0#8 then some 0#1 else if b = 1#8 then some 1#1 else none)
  | .I8 => readB m o 1
  | .I64 => readB m o 8
  | .V2I64 => readB m o 16

/-- LLVM store of the type of a facet. -/
def store (f : Facet) (m : Bytes) (o : Nat) (v : Val f.bits) : Bytes :=
  match f with
  | .I1 => writeB m o 1 (un (fun b => b.setWidth 8) v)
  | .I8 => writeB m o 1 v
  | .I64 => writeB m o 8 v
  | .V2I64 => writeB m o 16 v

/-- Values of the registers, by table entry. -/
abbrev Vals := (e : Entry) → Val e.facet.bits

/-- Loading the registers, `Unpack`, /repo/src/callconv.cc:195-217.  The program counter is loaded from
offset 0. -/
def unpackPc (m : Bytes) : Val 64 := load .I64 m 0

def unpack (m : Bytes) : Vals := fun e => load e.facet m e.off

/-- The stores of the registers selected by `sel`, /repo/src/callconv.cc:314-356 (placement of the
stores is the subject of `Verif.Lift.Ssa`; here all of them are executed in table order, and the values
are given).  Entries without register are skipped. -/
def packRegs (sel : Entry → Bool) (vals : Vals) : List Entry → Bytes → Bytes
  | [], m => m
  | e :: es, m =>
    packRegs sel vals es (if e.reg ≠ .invalid ∧ sel e then store e.facet m e.off (vals e) else m)

/-- Storing the program counter at offset 0 and then the registers, /repo/src/callconv.cc:312-356. -/
def pack (es : List Entry) (sel : Entry → Bool) (pc : Val 64) (vals : Vals) (m : Bytes) : Bytes :=
  packRegs sel vals es (store .I64 m 0 pc)

end Verif.CpuStruct
