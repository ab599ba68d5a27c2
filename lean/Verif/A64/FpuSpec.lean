import Verif.A64.SimdSpec
import Verif.A64.Fpu

/-!
Specification of the AArch64 floating-point arithmetic, rounding and conversion instructions after the
pseudocode of the Arm Architecture Reference Manual, for FPCR = 0: round to nearest even, no flushing to zero,
NaN operands are propagated.  Exception flags are not specified.  The exact operations `Fp.arith`, `Fp.sqrt`,
`Fp.fma`, `Fp.conv`, `Fp.integral`, `Fp.ofFixed`, `Fp.toFixed` are those of IEEE 754 (`Verif.IR.FpIeee`,
`Verif.IR.FpOps`, `Verif.IR.FpScale`).  From the model it uses the instruction datatype only.

`none` stands for encodings that do not exist and for half precision.
-/

namespace Verif.A64.Spec

open Verif.A64 Verif.Bits Verif.Fp

section
variable {w : Nat}

/-! ### Operations on one element -/

/-- Signalling NaN: the most significant bit of the fraction is clear. -/
def isSNaN (x : BitVec w) : Bool := isNaN x && !x.getLsbD (mantBits w - 1)

/-- FPDefaultNaN: positive, quiet, payload zero. -/
def defNaN (w : Nat) : BitVec w := signed w false (infMag w + 2 ^ (mantBits w - 1))

example : defNaN 32 = 0x7fc00000#32 ∧ defNaN 64 = 0x7ff8000000000000#64 := by decide

/-- FPProcessNaNs, FPProcessNaNs3: the first signalling NaN, made quiet, else the first quiet NaN. -/
def procNaNs (l : List (BitVec w)) : Option (BitVec w) :=
  match l.find? isSNaN with
  | some x => some (quiet x)
  | none => l.find? isNaN

/-- An invalid operation on numbers gives the default NaN. -/
def valid (r : BitVec w) : BitVec w := if isNaN r then defNaN w else r

/-- The result for NaN operands, or else the given one. -/
def orNaN (l : List (BitVec w)) (r : BitVec w) : BitVec w := (procNaNs l).getD r

/-- FPNeg, FPAbs: the sign bit only. -/
def fpNeg (x : BitVec w) : BitVec w := bits w fun i => (i == w - 1) ^^ x.getLsbD i
def fpAbs (x : BitVec w) : BitVec w := bits w fun i => i != w - 1 && x.getLsbD i

/-- FPAdd, FPSub, FPMul, FPDiv. -/
def fpArith (o : Arith) (a b : BitVec w) : BitVec w := orNaN [a, b] (valid (Fp.arith o a b))

/-- FPMax, FPMin: the positive zero is greater than the negative one. -/
def fpMax (a b : BitVec w) : BitVec w := orNaN [a, b] (Ieee.maxNumber a b)
def fpMin (a b : BitVec w) : BitVec w := orNaN [a, b] (Ieee.minNumber a b)

/-- FPMaxNum, FPMinNum: a single quiet NaN counts as the infinity that is never the result. -/
def isQNaN (x : BitVec w) : Bool := isNaN x && !isSNaN x

def fpMaxNum (a b : BitVec w) : BitVec w :=
  if isQNaN a && !isQNaN b then fpMax (signed w true (infMag w)) b
  else if !isQNaN a && isQNaN b then fpMax a (signed w true (infMag w))
  else fpMax a b

def fpMinNum (a b : BitVec w) : BitVec w :=
  if isQNaN a && !isQNaN b then fpMin (signed w false (infMag w)) b
  else if !isQNaN a && isQNaN b then fpMin a (signed w false (infMag w))
  else fpMin a b

/-- FPMulAdd(addend, a, b): the product of infinity and zero is invalid even if the addend is a quiet NaN. -/
def fpMulAdd (c a b : BitVec w) : BitVec w :=
  if isQNaN c && ((isInf a && decide (mag b = 0)) || (decide (mag a = 0) && isInf b)) then defNaN w
  else orNaN [c, a, b] (valid (fma a b c))

/-- FPSqrt, FPRoundInt. -/
def fpSqrt (a : BitVec w) : BitVec w := orNaN [a] (valid (Fp.sqrt a))
def fpRoundInt (mode : Mode) (a : BitVec w) : BitVec w := orNaN [a] (integral mode a)

/-- Least and greatest integer of `v` bits. -/
def loInt (sgn : Bool) (v : Nat) : Int := if sgn then - 2 ^ (v - 1) else 0
def hiInt (sgn : Bool) (v : Nat) : Int := if sgn then 2 ^ (v - 1) - 1 else 2 ^ v - 1

/-- FPToFixed: saturating; NaN gives zero. -/
def fpToFixed (sgn : Bool) (mode : Mode) (fbits v : Nat) (a : BitVec w) : Int :=
  match toFixed mode fbits a with
  | some z => max (loInt sgn v) (min (hiInt sgn v) z)
  | none => if isNaN a then 0 else if a.msb then loInt sgn v else hiInt sgn v

def fbin2 (op : FBin) (a b : BitVec w) : BitVec w :=
  match op with
  | .arith o => fpArith o a b
  | .nmul => fpNeg (fpArith .mul a b)
  | .abd => fpAbs (fpArith .sub a b)
  | .max => fpMax a b
  | .min => fpMin a b
  | .maxnm => fpMaxNum a b
  | .minnm => fpMinNum a b

/-- FMADD, FMSUB (negated product), FNMADD (negated product and addend), FNMSUB (negated addend). -/
def fmadd (neg sub : Bool) (a b c : BitVec w) : BitVec w :=
  fpMulAdd (if sub then fpNeg c else c) (if neg then fpNeg a else a) b

/-- FMUL, FMLA, FMLS. -/
def facc (op : FAcc) (d a b : BitVec w) : BitVec w :=
  match op with
  | .mul => fpArith .mul a b
  | .mla => fpMulAdd d a b
  | .mls => fpMulAdd d (fpNeg a) b

/-- VFPExpandImm: sign, three bits of exponent, four bits of fraction. -/
def expandImm (w : Nat) (i : BitVec 8) : BitVec w := bits w fun k =>
  if k = w - 1 then i.getLsbD 7
  else if k = w - 2 then !i.getLsbD 6
  else if mantBits w + 2 ≤ k then i.getLsbD 6
  else if mantBits w - 4 ≤ k then i.getLsbD (k - (mantBits w - 4))
  else false

end

example : expandImm 32 0x70#8 = 0x3f800000#32 ∧ expandImm 64 0x70#8 = 0x3ff0000000000000#64 ∧
    expandImm 32 0x80#8 = 0xc0000000#32 := by decide +kernel

/-! ### Instructions -/

/-- The rounding direction of an instruction, FPCR.RMode being to nearest even. -/
def roundDir : Rnd → Option Mode
  | .current | .tieEven => some .even
  | .posInf => some .up
  | .negInf => some .down
  | .zero => some .zero
  | .tieAway => some .away
  | .odd => none

/-- The encoding of an immediate, given its value as a double. -/
def immOf (imm : BitVec 64) : Option (BitVec 8) :=
  ((List.range 256).map (BitVec.ofNat 8)).find? fun i => expandImm 64 i == imm

/-- Vectors of single or double precision. -/
def fvec (va : VA) : Bool := decide (32 ≤ va.w) && decide (2 ≤ va.n)

/-- Scalars of single or double precision. -/
def fscal (va : VA) : Bool := decide (32 ≤ va.w)

/-- Operations with a pairwise form; operations with a reduction. -/
def isPair (op : FBin) : Bool := [.arith .add, .max, .min, .maxnm, .minnm].contains op
def isAcross (op : FBin) : Bool := [FBin.max, .min, .maxnm, .minnm].contains op

def S.fpu (s : S) : Fpu → Option S
  | .bin op sz rd rn rm =>
    (FSz.bits sz).map fun w => s.setVec rd (fbin2 op (s.scalar rn w) (s.scalar rm w))
  | .sqrt sz rd rn => (FSz.bits sz).map fun w => s.setVec rd (fpSqrt (s.scalar rn w))
  | .madd neg sub sz rd rn rm ra => (FSz.bits sz).map fun w =>
      s.setVec rd (fmadd neg sub (s.scalar rn w) (s.scalar rm w) (s.scalar ra w))
  | .rint mode bits sz rd rn =>
    if bits = 0 then (FSz.bits sz).bind fun w => (roundDir mode).map fun d =>
      s.setVec rd (fpRoundInt d (s.scalar rn w))
    else none
  | .cvt dbl sz rd rn =>
    match dbl, sz with
    | false, .d => some (s.setVec rd (conv 32 (s.scalar rn 64)))
    | true, .s => some (s.setVec rd (conv 64 (s.scalar rn 32)))
    | _, _ => none
  | .toGp sgn w32 mode fbits sz rd rn =>
    if fbits ≤ W w32 then (FSz.bits sz).bind fun w => (roundDir mode).map fun d =>
      s.setReg rd (BitVec.ofInt (W w32) (fpToFixed sgn d fbits (W w32) (s.scalar rn w)))
    else none
  | .ofGp sgn w32 fbits sz rd rn =>
    if fbits ≤ W w32 then (FSz.bits sz).map fun w =>
      s.setVec rd (ofFixed w fbits (val sgn (s.reg (W w32) rn)))
    else none
  | .movImm sz rd imm => (FSz.bits sz).bind fun w => (immOf imm).map fun i => s.setVec rd (expandImm w i)
  | .vbin op va rd rn rm =>
    if fvec va ∧ op ≠ .nmul then
      some (s.setEls rd va.w va.n fun i => fbin2 op (s.el rn va.w i) (s.el rm va.w i))
    else none
  | .vsqrt va rd rn =>
    if fvec va then some (s.setEls rd va.w va.n fun i => fpSqrt (s.el rn va.w i)) else none
  | .vrint mode bits va rd rn =>
    if fvec va ∧ bits = 0 then (roundDir mode).map fun d =>
      s.setEls rd va.w va.n fun i => fpRoundInt d (s.el rn va.w i)
    else none
  | .vacc sub va rd rn rm =>
    if fvec va then
      some (s.setEls rd va.w va.n fun i =>
        facc (if sub then .mls else .mla) (s.el rd va.w i) (s.el rn va.w i) (s.el rm va.w i))
    else none
  | .elem op scalar va rd rn rm idx =>
    if fscal va ∧ idx < 128 / va.w then
      if scalar then some (s.setVec rd (facc op (s.el rd va.w 0) (s.el rn va.w 0) (s.el rm va.w idx)))
      else if fvec va then
        some (s.setEls rd va.w va.n fun i => facc op (s.el rd va.w i) (s.el rn va.w i) (s.el rm va.w idx))
      else none
    else none
  | .toInt sgn mode fbits scalar va rd rn =>
    if fscal va ∧ fbits ≤ va.w then
      let f (d : Mode) (i : Nat) := BitVec.ofInt va.w (fpToFixed sgn d fbits va.w (s.el rn va.w i))
      (roundDir mode).bind fun d =>
        if scalar then some (s.setVec rd (f d 0))
        else if fvec va then some (s.setEls rd va.w va.n (f d)) else none
    else none
  | .ofInt sgn fbits scalar va rd rn =>
    if fscal va ∧ fbits ≤ va.w then
      let f (i : Nat) := ofFixed va.w fbits (val sgn (s.el rn va.w i))
      if scalar then some (s.setVec rd (f 0))
      else if fvec va then some (s.setEls rd va.w va.n f) else none
    else none
  | .cvtn va rd rn =>
    if va = .s2 ∨ va = .s4 then some (s.narrow va rd fun i => conv va.w (s.el rn (2 * va.w) i)) else none
  | .cvtl va rd rn =>
    if va = .s2 ∨ va = .s4 then
      some (s.setEls rd (2 * va.w) (64 / va.w) fun i => conv (2 * va.w) (s.el rn va.w (VA.base va + i)))
    else none
  | .pair op va rd rn rm =>
    if fvec va ∧ isPair op then
      some (s.setEls rd va.w va.n fun i =>
        if i < va.n / 2 then fbin2 op (s.el rn va.w (2 * i)) (s.el rn va.w (2 * i + 1))
        else fbin2 op (s.el rm va.w (2 * i - va.n)) (s.el rm va.w (2 * i + 1 - va.n)))
    else none
  | .addp va rd rn =>
    if va = .s2 ∨ va = .d2 then some (s.setVec rd (fbin2 (.arith .add) (s.el rn va.w 0) (s.el rn va.w 1)))
    else none
  | .across op va rd rn =>
    let e (i : Nat) := s.el rn va.w i
    if isAcross op then
      if va = .s2 ∨ va = .d2 then some (s.setVec rd (fbin2 op (e 0) (e 1)))
      else if va = .s4 then some (s.setVec rd (fbin2 op (fbin2 op (e 0) (e 1)) (fbin2 op (e 2) (e 3))))
      else none
    else none
  | .vmovImm va rd imm =>
    if fvec va then (immOf imm).map fun i => s.setEls rd va.w va.n fun _ => expandImm va.w i else none

end Verif.A64.Spec
