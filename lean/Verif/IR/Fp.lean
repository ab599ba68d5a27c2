import Verif.IR.Basic

/-!
IEEE 754 comparison of binary32 and binary64 numbers, on bit patterns, and the `fcmp` predicates of
LLVM defined by it.
-/

namespace Verif.Fp

/-- Outcome of a comparison. -/
inductive Rel where
  | lt | eq | gt | un
  deriving DecidableEq, Repr

/-- Number of mantissa bits of the formats used: binary32 and binary64. -/
def mantBits (w : Nat) : Nat := if w = 32 then 23 else 52

/-- Exponent and mantissa, without the sign bit. -/
def mag {w : Nat} (x : BitVec w) : Nat := x.toNat % 2 ^ (w - 1)

/-- Bit pattern of infinity. -/
def infMag (w : Nat) : Nat := 2 ^ (w - 1) - 2 ^ mantBits w

/-- Not a number: the exponent is maximal and the mantissa is not zero. -/
def isNaN {w : Nat} (x : BitVec w) : Bool := decide (infMag w < mag x)

/-- The numbers other than NaN are ordered as the integers `± mag`. -/
def key {w : Nat} (x : BitVec w) : Int := if x.msb then - (mag x : Int) else mag x

def cmp {w : Nat} (x y : BitVec w) : Rel :=
  if isNaN x || isNaN y then .un
  else if key x < key y then .lt
  else if key x = key y then .eq
  else .gt

end Verif.Fp

namespace Verif.IR

/-- `fcmp uno`, `fcmp oeq`, `fcmp olt`. -/
def fcmpUno {w : Nat} (a b : Val w) : Val 1 := bin (fun x y => BitVec.ofBool (Fp.cmp x y = .un)) a b
def fcmpOeq {w : Nat} (a b : Val w) : Val 1 := bin (fun x y => BitVec.ofBool (Fp.cmp x y = .eq)) a b
def fcmpOlt {w : Nat} (a b : Val w) : Val 1 := bin (fun x y => BitVec.ofBool (Fp.cmp x y = .lt)) a b

/-- `llvm.fabs` and `fneg` change the sign bit only, also of a NaN. -/
def fabs {w : Nat} (a : Val w) : Val w := un (fun x => x &&& ~~~ BitVec.intMin w) a
def fneg {w : Nat} (a : Val w) : Val w := un (fun x => x ^^^ BitVec.intMin w) a

attribute [ir] fcmpUno fcmpOeq fcmpOlt fabs fneg

end Verif.IR
