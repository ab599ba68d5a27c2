import Verif.X86.State

/-!
Architectural state of x86-64: registers, operands and memory (Intel SDM volume 1, chapter 3).
-/

namespace Verif.X86.Spec

set_option linter.constructorNameAsVariable false

open Verif.IR (Mem)
open Verif.X86

/-- Architectural state. -/
structure S where
  gp : Fin 16 → BitVec 64
  fl : Flag → Option Bool
  vec : Fin 16 → BitVec 128
  fs : BitVec 64
  gs : BitVec 64
  mem : Mem
  ip : BitVec 64

/-! ### Registers and operands -/

/-- The low part of a register. -/
def S.reg (s : S) (r : Fin 16) (z : Sz) : BitVec z.bits := (s.gp r).extractLsb' 0 z.bits

/-- AH, CH, DH, BH. -/
def S.regH (s : S) (r : Fin 4) : BitVec 8 := (s.gp (hreg r)).extractLsb' 8 8

def S.setGp (s : S) (r : Fin 16) (v : BitVec 64) : S :=
  { s with gp := fun x => if x = r then v else s.gp x }

/-- Writing part of a register: 8-bit and 16-bit writes keep the rest, 32-bit writes clear the upper
half. -/
def S.setReg (s : S) (r : Fin 16) : (z : Sz) → BitVec z.bits → S
  | .b, v => s.setGp r ((s.gp r).extractLsb' 8 56 ++ v)
  | .w, v => s.setGp r ((s.gp r).extractLsb' 16 48 ++ v)
  | .d, v => s.setGp r (0#32 ++ v)
  | .q, v => s.setGp r v

def S.setRegH (s : S) (r : Fin 4) (v : BitVec 8) : S :=
  s.setGp (hreg r) ((s.gp (hreg r)).extractLsb' 16 48 ++ v ++ (s.gp (hreg r)).extractLsb' 0 8)

def S.segBase (s : S) : Seg → BitVec 64
  | .none => 0
  | .fs => s.fs
  | .gs => s.gs

/-- Offset of a memory operand: base + index * scale + displacement, modulo the address size. -/
def S.offset (s : S) (o : MemOp) : BitVec 64 :=
  let base := match o.base with
    | .none => 0
    | .ip => s.ip
    | .reg r => s.gp r
  let index := match o.idx with
    | none => 0
    | some (r, k) => s.gp r * BitVec.ofNat 64 (2 ^ k.val)
  let sum := base + index + o.off
  if o.a32 then (sum.extractLsb' 0 32).setWidth 64 else sum

/-- Linear address of a memory operand. -/
def S.ea (s : S) (o : MemOp) : BitVec 64 := s.segBase o.seg + s.offset o

def S.read (s : S) (z : Sz) : Op → Option (BitVec z.bits)
  | .imm v => some (v.setWidth z.bits)
  | .reg r => some (s.reg r z)
  | .regH r => match z with
    | .b => some (s.regH r)
    | _ => none
  | .mem o => some (s.mem.read (s.ea o) z.bytes)

def S.store (s : S) (a : BitVec 64) (n : Nat) (v : BitVec (8 * n)) : S :=
  { s with mem := s.mem.write a n v }

/-- Write to an operand whose address is computed in the state `e`. -/
def S.writeAt (s e : S) (z : Sz) (o : Op) (v : BitVec z.bits) : Option S :=
  match o with
  | .imm _ => none
  | .reg r => some (s.setReg r z v)
  | .regH r => match z with
    | .b => some (s.setRegH r v)
    | _ => none
  | .mem o => some (s.store (e.ea o) z.bytes v)

def S.write (s : S) (z : Sz) (o : Op) (v : BitVec z.bits) : Option S := s.writeAt s z o v

end Verif.X86.Spec
