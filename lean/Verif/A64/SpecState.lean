import Verif.A64.State

/-!
Architectural state of AArch64 for the specification: plain bit vectors, independent of the lifter.
-/

namespace Verif.A64.Spec

open Verif.IR (Mem)
open Verif.A64

/-- Architectural state. -/
structure S where
  x : Fin 31 → BitVec 64
  sp : BitVec 64
  vec : Fin 32 → BitVec 128
  fl : Flag → Option Bool
  tpidr : BitVec 64
  mem : Mem
  pc : BitVec 64

/-- The `w`-bit word whose bit `i` is `f i`. -/
def bits : (w : Nat) → (Nat → Bool) → BitVec w
  | 0, _ => 0#0
  | w + 1, f => BitVec.cons (f w) (bits w f)

/-! ### Registers -/

def S.reg (s : S) (w : Nat) : Reg → BitVec w
  | .x r => (s.x r).extractLsb' 0 w
  | .sp => s.sp.extractLsb' 0 w
  | .zr => 0#w

/-- Writing a W register clears the upper half; the zero register ignores writes. -/
def S.setReg (s : S) {w : Nat} (r : Reg) (v : BitVec w) : S :=
  match r with
  | .x r => { s with x := fun k => if k = r then BitVec.ofNat 64 v.toNat else s.x k }
  | .sp => { s with sp := BitVec.ofNat 64 v.toNat }
  | .zr => s

/-- Scalar part of a SIMD&FP register. -/
def S.scalar (s : S) (r : Fin 32) (w : Nat) : BitVec w := (s.vec r).extractLsb' 0 w

/-- Writing a scalar clears the rest of the register. -/
def S.setVec (s : S) {w : Nat} (r : Fin 32) (v : BitVec w) : S :=
  { s with vec := fun k => if k = r then BitVec.ofNat 128 v.toNat else s.vec k }

/-- Single and double precision. -/
def FSz.bits : FSz → Option Nat
  | .s => some 32
  | .d => some 64
  | _ => none

/-- Signed or unsigned value. -/
def val {w : Nat} (signed : Bool) (x : BitVec w) : Int := if signed then x.toInt else x.toNat

end Verif.A64.Spec
