import Verif.IR.Fp

/-!
IEEE 754 arithmetic of binary32 and binary64 numbers on bit patterns, rounding to nearest, ties to even,
and the LLVM instructions defined by it.

A finite number is an integer multiple of the least subnormal number, the unit `2^-uexp`; results are
computed exactly and rounded once.  LLVM leaves the payload of a NaN result open.  The model fixes it to
what SSE hardware does: the first NaN operand made quiet, otherwise the NaN with sign bit, maximal
exponent and quiet bit.  `Verif.IR.FpIeee` proves that the results are
those of IEEE 754.
-/

namespace Verif.Fp

variable {w : Nat}

/-- The unit is `2^-uexp`: 149 for binary32, 1074 for binary64. -/
def uexp (w : Nat) : Nat := 2 ^ (w - 1 - mantBits w - 1) - 1 + mantBits w - 1

/-- Magnitude of a finite number in units. -/
def units (x : BitVec w) : Nat :=
  let e := mag x / 2 ^ mantBits w
  let f := mag x % 2 ^ mantBits w
  if e = 0 then f else (2 ^ mantBits w + f) * 2 ^ (e - 1)

def sunits (x : BitVec w) : Int := if x.msb then - (units x : Int) else units x

def isInf (x : BitVec w) : Bool := decide (mag x = infMag w)

/-- `n / d` rounded to the nearest integer, ties to even. -/
def rne (n d : Nat) : Nat :=
  let q := n / d
  let r := n % d
  if 2 * r < d ∨ (2 * r = d ∧ q % 2 = 0) then q else q + 1

/-- Sign and magnitude. -/
def signed (w : Nat) (neg : Bool) (m : Nat) : BitVec w := BitVec.ofNat w ((if neg then 2 ^ (w - 1) else 0) + m)

/-- The number nearest to `n / d` units, infinity on overflow.  `k` is the exponent of the unit in the last
place; an increment of the mantissa carries into the exponent. -/
def round (w : Nat) (neg : Bool) (n d : Nat) : BitVec w :=
  let k := Nat.log2 (n / d) - mantBits w
  signed w neg (min (infMag w) (k * 2 ^ mantBits w + rne n (d * 2 ^ k)))

def quiet (x : BitVec w) : BitVec w := x ||| BitVec.ofNat w (2 ^ (mantBits w - 1))

/-- Result of an invalid operation. -/
def indef (w : Nat) : BitVec w := signed w true (infMag w + 2 ^ (mantBits w - 1))

inductive Arith where
  | add | sub | mul | div
  deriving DecidableEq, Repr

def add (x y : BitVec w) : BitVec w :=
  if isInf x then (if isInf y && x.msb != y.msb then indef w else x)
  else if isInf y then y
  else
    let z := sunits x + sunits y
    if z = 0 then signed w (x.msb && y.msb) 0 else round w (decide (z < 0)) z.natAbs 1

def mul (x y : BitVec w) : BitVec w :=
  let neg := x.msb != y.msb
  if isInf x || isInf y then (if mag x = 0 ∨ mag y = 0 then indef w else signed w neg (infMag w))
  else round w neg (units x * units y) (2 ^ uexp w)

def div (x y : BitVec w) : BitVec w :=
  let neg := x.msb != y.msb
  if isInf x then (if isInf y then indef w else signed w neg (infMag w))
  else if isInf y then signed w neg 0
  else if mag y = 0 then (if mag x = 0 then indef w else signed w neg (infMag w))
  else round w neg (units x * 2 ^ uexp w) (units y)

def arith (op : Arith) (x y : BitVec w) : BitVec w :=
  if isNaN x then quiet x
  else if isNaN y then quiet y
  else match op with
    | .add => add x y
    | .sub => add x (y ^^^ BitVec.intMin w)
    | .mul => mul x y
    | .div => div x y

/-- Integer square root. -/
def isqrt (n : Nat) : Nat :=
  (List.range (Nat.log2 n / 2 + 1)).foldr (fun i r => if (r + 2 ^ i) * (r + 2 ^ i) ≤ n then r + 2 ^ i else r) 0

/-- The root has more digits than the result, so that one digit for "not exact" suffices. -/
def sqrt (x : BitVec w) : BitVec w :=
  if isNaN x then quiet x
  else if mag x = 0 then x
  else if x.msb then indef w
  else if isInf x then x
  else
    let n := units x * 2 ^ uexp w
    let r := isqrt n
    round w false (2 * r + (if r * r = n then 0 else 1)) 2

/-- Conversion of an integer. -/
def ofInt (w : Nat) (z : Int) : BitVec w := round w (decide (z < 0)) (z.natAbs * 2 ^ uexp w) 1

/-- Conversion to an integer, rounding toward zero; `none` for NaN and infinity. -/
def toInt (x : BitVec w) : Option Int :=
  if isNaN x || isInf x then none
  else
    let q : Int := units x / 2 ^ uexp w
    some (if x.msb then - q else q)

/-- Conversion between formats. -/
def conv (v : Nat) (x : BitVec w) : BitVec v :=
  if isNaN x then
    let f := mag x % 2 ^ mantBits w
    quiet (signed v x.msb (infMag v + f * 2 ^ mantBits v / 2 ^ mantBits w))
  else if isInf x then signed v x.msb (infMag v)
  else round v x.msb (units x * 2 ^ uexp v) (2 ^ uexp w)

/-! Sanity checks: 0.1 + 0.2, 1 - 1, 1 / 3, the square root of 2, overflow, underflow, conversions. -/

example : arith .add 0x3fb999999999999a#64 0x3fc999999999999a#64 = 0x3fd3333333333334#64 := by decide +kernel
example : arith .sub 0x3f800000#32 0x3f800000#32 = 0#32 := by decide +kernel
example : arith .div 0x3f800000#32 0x40400000#32 = 0x3eaaaaab#32 := by decide +kernel
example : sqrt 0x4000000000000000#64 = 0x3ff6a09e667f3bcd#64 := by decide +kernel
example : arith .mul 0x7f000000#32 0x7f000000#32 = 0x7f800000#32 := by decide +kernel
example : arith .mul 0x00800000#32 0x3f000000#32 = 0x00400000#32 := by decide +kernel
example : arith .div 0#32 0#32 = 0xffc00000#32 := by decide +kernel
example : conv 32 0x3fb999999999999a#64 = 0x3dcccccd#32 := by decide +kernel
example : conv 64 0x3dcccccd#32 = 0x3fb99999a0000000#64 := by decide +kernel
example : ofInt 32 (-16777217) = 0xcb800000#32 := by decide +kernel
example : toInt 0xc02e000000000000#64 = some (-15) := by decide +kernel

end Verif.Fp

namespace Verif.IR

variable {w : Nat}

/-- `fadd`, `fsub`, `fmul`, `fdiv`. -/
def fbin (op : Fp.Arith) (a b : Val w) : Val w := bin (Fp.arith op) a b

/-- `llvm.sqrt`. -/
def fsqrt (a : Val w) : Val w := un Fp.sqrt a

/-- `fcmp`; the predicate is the set of outcomes for which it is true. -/
def fcmp (p : Fp.Rel → Bool) (a b : Val w) : Val 1 := bin (fun x y => BitVec.ofBool (p (Fp.cmp x y))) a b

/-- `sitofp`. -/
def sitofp (v : Nat) (a : Val w) : Val v := un (fun x => Fp.ofInt v x.toInt) a

/-- `fptosi`: poison if the result does not fit. -/
def fptosi (v : Nat) (a : Val w) : Val v := a.bind fun x => match Fp.toInt x with
  | none => none
  | some z => if -2 ^ (v - 1) ≤ z ∧ z < 2 ^ (v - 1) then some (BitVec.ofInt v z) else none

/-- `fpext`, `fptrunc`. -/
def fpconv (v : Nat) (a : Val w) : Val v := un (Fp.conv v) a

end Verif.IR
