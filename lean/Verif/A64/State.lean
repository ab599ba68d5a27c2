import Verif.IR.Mem
import Verif.IR.Pc

/-!
Run-time state of the code lifted from AArch64: registers, memory accesses.  Line numbers without file
refer to /repo/src/a64/main.cc.
-/

namespace Verif.A64

open Verif.IR

/-- `farmdec::Reg`: X0 to X30, the zero register and the stack pointer, which have different numbers
in farmdec. -/
inductive Reg where
  | x (r : Fin 31)
  | zr
  | sp
  deriving DecidableEq, Repr

/-- `farmdec::FPSize`. -/
inductive FSz where
  | b | h | s | d | q
  deriving DecidableEq, Repr

abbrev FSz.bytes : FSz → Nat
  | .b => 1 | .h => 2 | .s => 4 | .d => 8 | .q => 16

/-- Width of a floating-point operand, 980-995; operations on the others are not valid IR. -/
def FSz.fpBits : FSz → Option Nat
  | .s => some 32
  | .d => some 64
  | _ => none

/-- Operand width in bits, `(w32) ? 32 : 64`. -/
abbrev W : Bool → Nat
  | true => 32
  | false => 64

/-- N, Z, C, V are kept as SF, ZF, CF and OF. -/
inductive Flag where
  | n | z | c | v
  deriving DecidableEq, Repr

/-- Run-time state of the lifted code: general-purpose registers (31 is the stack pointer,
/repo/src/regfile.h:97), vector registers, flags, the TPIDR_EL0 field of the CPU struct, memory and
the lifter's PC. -/
structure St where
  gp : Fin 32 → Val 64
  vec : Fin 32 → Val 128
  fl : Flag → Val 1
  tpidr : Val 64
  mem : VMem
  pc : Pc

/-! ### Registers -/

/-- Index of a register in the register file; `none` for the zero register. -/
def Reg.idx : Reg → Option (Fin 32)
  | .x r => some ⟨r.val, by omega⟩
  | .sp => some 31
  | .zr => none

/-- `GetGp`, 914-931. -/
def St.get (m : St) (w : Nat) (r : Reg) : Val w :=
  match r.idx with
  | none => some 0
  | some i => trunc w (m.gp i)

/-- `SetGp`, 933-942: writing a 32-bit value clears the upper half (C12). -/
def St.set (m : St) (r : Reg) {w : Nat} (v : Val w) : St :=
  match r.idx with
  | none => m
  | some i => { m with gp := fun x => if x = i then zext 64 v else m.gp x }

def St.setF (m : St) (f : Flag) (v : Val 1) : St :=
  { m with fl := fun x => if x = f then v else m.fl x }

/-- `GetScalar` as bits, 974-994. -/
def St.getV (m : St) (r : Fin 32) (w : Nat) : Val w := trunc w (m.vec r)

/-- `SetScalar`, 997-999: the rest of the register is cleared. -/
def St.setV (m : St) (r : Fin 32) {w : Nat} (v : Val w) : St :=
  { m with vec := fun x => if x = r then zext 128 v else m.vec x }

/-- `InsertElem` of a 64-bit element at index 1, /repo/src/a64/simd.cc:1361-1378. -/
def St.insTop (m : St) (r : Fin 32) (v : Val 64) : St :=
  { m with vec := fun x => if x = r then IR.bin (fun hi lo => hi ++ lo) v (trunc 64 (m.vec r)) else m.vec x }

/-! ### Memory -/

/-- Load of `n` bytes: undefined for a poison address or if not aligned as promised. -/
def load (m : St) (a : Val 64) (n align : Nat) : Option (Val (8 * n)) :=
  match a with
  | none => none
  | some a => if a.toNat % align = 0 then some (m.mem.read a n) else none

/-- Store of `n` bytes. -/
def store (m : St) (a : Val 64) (n align : Nat) (v : Val (8 * n)) : Option St :=
  match a with
  | none => none
  | some a => if a.toNat % align = 0 then some { m with mem := m.mem.write a n v } else none

end Verif.A64
