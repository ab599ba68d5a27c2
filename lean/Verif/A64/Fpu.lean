import Verif.A64.Simd
import Verif.IR.FpScale

/-!
Model of the AArch64 floating-point arithmetic, rounding and conversion instructions, scalar and vector,
with generator and generated code composed (see DESIGN.md section 3).  "main" is /repo/src/a64/main.cc,
"simd" is /repo/src/a64/simd.cc.

Half precision is read as an integer (main 973-994, simd 1463-1475), so that the floating-point operations
on it are not valid IR: outcome `none`.  The rounding mode and the exception flags are those of the host and
are not modelled: the mode is to nearest even.
-/

namespace Verif.A64

open Verif.IR

/-- `farmdec::FPRounding`. -/
inductive Rnd where
  | current | tieEven | posInf | negInf | zero | tieAway | odd
  deriving DecidableEq, Repr

/-- Operations with two operands. -/
inductive FBin where
  | arith (o : Fp.Arith)
  | nmul | abd | max | min | maxnm | minnm
  deriving DecidableEq, Repr

/-- Operations with an element: FMUL, FMLA, FMLS. -/
inductive FAcc where
  | mul | mla | mls
  deriving DecidableEq, Repr

/-- Decoded floating-point instructions (`farmdec::Inst`).  `bin .abd` is the scalar form of FABD_VEC;
`madd` is FMADD, FMSUB, FNMADD, FNMSUB; `toGp` and `ofGp` are FCVT_GPR and CVTF, `toInt` and `ofInt`
FCVT_VEC and CVTF_VEC; `addp` is the scalar FADDP; `across` is FMAXV, FMAXP (scalar) and so on; the immediates
are the `double` of the decoder. -/
inductive Fpu where
  | bin (op : FBin) (sz : FSz) (rd rn rm : Fin 32)
  | sqrt (sz : FSz) (rd rn : Fin 32)
  | madd (neg sub : Bool) (sz : FSz) (rd rn rm ra : Fin 32)
  | rint (mode : Rnd) (bits : Nat) (sz : FSz) (rd rn : Fin 32)
  | cvt (dbl : Bool) (sz : FSz) (rd rn : Fin 32)
  | toGp (sgn w32 : Bool) (mode : Rnd) (fbits : Nat) (sz : FSz) (rd : Reg) (rn : Fin 32)
  | ofGp (sgn w32 : Bool) (fbits : Nat) (sz : FSz) (rd : Fin 32) (rn : Reg)
  | movImm (sz : FSz) (rd : Fin 32) (imm : BitVec 64)
  | vbin (op : FBin) (va : VA) (rd rn rm : Fin 32)
  | vsqrt (va : VA) (rd rn : Fin 32)
  | vrint (mode : Rnd) (bits : Nat) (va : VA) (rd rn : Fin 32)
  | vacc (sub : Bool) (va : VA) (rd rn rm : Fin 32)
  | elem (op : FAcc) (scalar : Bool) (va : VA) (rd rn rm : Fin 32) (idx : Nat)
  | toInt (sgn : Bool) (mode : Rnd) (fbits : Nat) (scalar : Bool) (va : VA) (rd rn : Fin 32)
  | ofInt (sgn : Bool) (fbits : Nat) (scalar : Bool) (va : VA) (rd rn : Fin 32)
  | cvtn (va : VA) (rd rn : Fin 32)
  | cvtl (va : VA) (rd rn : Fin 32)
  | pair (op : FBin) (va : VA) (rd rn rm : Fin 32)
  | addp (va : VA) (rd rn : Fin 32)
  | across (op : FBin) (va : VA) (rd rn : Fin 32)
  | vmovImm (va : VA) (rd : Fin 32) (imm : BitVec 64)
  deriving DecidableEq, Repr

/-! ### Operations on one lane -/

section
variable {w : Nat}

/-- `Round`, main 1041-1061; `none` is the failed assertion.  `nearbyint` and `rint` round to nearest even
in the default environment. -/
def Rnd.mode : Rnd → Option Fp.Mode
  | .current => some .even
  | .tieEven => some .even
  | .tieAway => some .away
  | .negInf => some .down
  | .zero => some .zero
  | .posInf => some .up
  | .odd => none

/-- `LiftBinOpFP` and `LiftIntrinsicFP`, main 804-833, 1412-1416, 1433-1437; `LiftThreeSame` and
`LiftIntrinsicFPVec`, simd 537-548, 565-580, 1542-1554, 1728-1732. -/
def laneBin (op : FBin) (a b : Val w) : Val w :=
  match op with
  | .arith o => fbin o a b
  | .nmul => IR.fneg (fbin .mul a b)
  | .abd => IR.fabs (fbin .sub a b)
  | .max | .maxnm => maxnum a b
  | .min | .minnm => minnum a b

/-- `LiftFMA`, main 1418-1426. -/
def laneFma (neg sub : Bool) (a b c : Val w) : Val w :=
  let mul := fbin .mul a b
  let mul := if neg then IR.fneg mul else mul
  fbin (if sub then .sub else .add) mul c

/-- FCVT_GPR, main 733-746, and FCVT_VEC, simd 396-428, with `Round` done in the given direction: an integer
of `v` bits. -/
def laneToInt (sgn : Bool) (mode : Fp.Mode) (fbits v : Nat) (a : Val w) : Val v :=
  let fp := if fbits > 0 then fbin .mul a (some (Fp.pow2 w fbits)) else a
  let rounded := frint mode fp
  if sgn then fptosi v rounded else fptoui v rounded

/-- CVTF, main 747-761, and CVTF_VEC, simd 429-457. -/
def laneOfInt (sgn : Bool) (fbits v : Nat) (a : Val w) : Val v :=
  let fp := if sgn then sitofp v a else uitofp v a
  if fbits > 0 then fbin .div fp (some (Fp.pow2 v fbits)) else fp

/-- FMLA_VEC and FMLS_VEC, `LiftMulAcc` with `fp`, simd 592, 604, 1607-1614; scalar FMLA_ELEM and FMLS_ELEM,
simd 581-591, 593-603. -/
def laneAcc (sub : Bool) (d a b : Val w) : Val w := fbin (if sub then .sub else .add) d (fbin .mul a b)

/-- FMUL_ELEM, FMLA_ELEM and FMLS_ELEM on vectors, `LiftMulAccElem` with `fp`, simd 555-564, 1643-1653: FMUL
accumulates on zero. -/
def laneElem (op : FAcc) (d a b : Val w) : Val w :=
  match op with
  | .mul => laneAcc false (some 0) a b
  | .mla => laneAcc false d a b
  | .mls => laneAcc true d a b

/-- The scalar forms, simd 555-560, 582-588, 594-600. -/
def scalarElem (op : FAcc) (d a b : Val w) : Val w :=
  match op with
  | .mul => fbin .mul a b
  | .mla => laneAcc false d a b
  | .mls => laneAcc true d a b

/-- `CreateFPMaxReduce` and `CreateFPMinReduce`; LLVM leaves the order open, here from the first lane on. -/
def redLanes (f : Val w → Val w → Val w) (v : Nat → Val w) : Nat → Val w
  | 0 => none
  | 1 => v 0
  | n + 1 => f (redLanes f v n) (v n)

end

/-! ### Instructions -/

/-- `FacetOf` and `GetScalar` with `fp`: floating-point elements, simd 1463-1475. -/
def VA.fp (va : VA) : Bool := va.e == 4 || va.e == 8

/-- Result for floating-point elements only. -/
def ifFp (va : VA) (m : St) : Option St := if va.fp then some m else none

/-- Operations that exist as FxxxP on vectors, simd 1229-1234, 1247-1258, 1265-1276. -/
def FBin.pairOp : FBin → Bool
  | .arith .add | .max | .min | .maxnm | .minnm => true
  | _ => false

/-- Operations that exist as reduction, simd 1314-1319, 1323-1328. -/
def FBin.acrossOp : FBin → Bool
  | .max | .min | .maxnm | .minnm => true
  | _ => false

/-- FCVT_S and FCVT_D, main 774-791: `CreateFPCast` to the same type does nothing. -/
def liftCvt (m : St) (dbl : Bool) (sz : FSz) (rd rn : Fin 32) : Option St :=
  match dbl, sz with
  | false, .d => some (m.setV rd (fpconv 32 (m.getV rn 64)))
  | true, .s => some (m.setV rd (fpconv 64 (m.getV rn 32)))
  | false, .s => some (m.setV rd (m.getV rn 32))
  | true, .d => some (m.setV rd (m.getV rn 64))
  | _, _ => none

/-- Does `Lift` (main) or `LiftSIMD` (simd) return true: main 766-767, 776-777, 784-785, simd 461-462,
469-470, 479-480? -/
def Fpu.handled : Fpu → Bool
  | .rint _ bits sz .. => bits == 0 && sz != .h
  | .cvt _ sz .. => sz != .h
  | .vrint _ bits .. => bits == 0
  | .cvtn va .. | .cvtl va .. => va == .s2 || va == .s4
  | _ => true

/-- The arms of `Lift` (main) and `LiftSIMD` (simd); `none` is undefined behaviour, a failed assertion or
invalid IR.  Only for instructions that are `handled`. -/
def Fpu.lift (m : St) : Fpu → Option St
  | .bin op sz rd rn rm => sz.fpBits.map fun w => m.setV rd (laneBin op (m.getV rn w) (m.getV rm w))
  -- main 801-803, 1428-1431
  | .sqrt sz rd rn => sz.fpBits.map fun w => m.setV rd (fsqrt (m.getV rn w))
  -- main 834-847
  | .madd neg sub sz rd rn rm ra =>
    sz.fpBits.map fun w => m.setV rd (laneFma neg sub (m.getV rn w) (m.getV rm w) (m.getV ra w))
  -- main 762-773
  | .rint mode _ sz rd rn =>
    sz.fpBits.bind fun w => mode.mode.map fun mode => m.setV rd (frint mode (m.getV rn w))
  | .cvt dbl sz rd rn => liftCvt m dbl sz rd rn
  -- main 733-746
  | .toGp sgn w32 mode fbits sz rd rn =>
    sz.fpBits.bind fun w => mode.mode.map fun mode => m.set rd (laneToInt sgn mode fbits (W w32) (m.getV rn w))
  -- main 747-761
  | .ofGp sgn w32 fbits sz rd rn =>
    sz.fpBits.map fun w => m.setV rd (laneOfInt sgn fbits w (m.get (W w32) rn))
  -- main 897-901
  | .movImm sz rd imm => sz.fpBits.map fun w => m.setV rd (some (Fp.conv w imm))
  -- simd 537-548, 565-580; FNMUL has no vector form
  | .vbin op va rd rn rm => if op = .nmul then none else
    ifFp va (m.setVec rd va.n fun i => laneBin op (m.getVec va rn i) (m.getVec va rm i))
  -- simd 552-554
  | .vsqrt va rd rn => ifFp va (m.setVec rd va.n fun i => fsqrt (m.getVec va rn i))
  -- simd 458-467
  | .vrint mode _ va rd rn =>
    mode.mode.bind fun mode => ifFp va (m.setVec rd va.n fun i => frint mode (m.getVec va rn i))
  -- simd 592, 604
  | .vacc sub va rd rn rm =>
    ifFp va (m.setVec rd va.n fun i => laneAcc sub (m.getVec va rd i) (m.getVec va rn i) (m.getVec va rm i))
  -- simd 555-564, 581-591, 593-603
  | .elem op scalar va rd rn rm idx =>
    ifFp va (if scalar then m.setV rd (scalarElem op (m.getV rd va.w) (m.getV rn va.w) (m.getElem va rm idx))
      else m.setVec rd va.n fun i =>
        laneElem op (m.getVec va rd i) (m.getVec va rn i) (Vec.splat (m.getElem va rm idx) i))
  -- simd 396-428
  | .toInt sgn mode fbits scalar va rd rn =>
    mode.mode.bind fun mode => ifFp va
      (if scalar then m.setV rd (laneToInt sgn mode fbits va.w (m.getV rn va.w))
        else m.setVec rd va.n fun i => laneToInt sgn mode fbits va.w (m.getVec va rn i))
  -- simd 429-457
  | .ofInt sgn fbits scalar va rd rn => ifFp va
      (if scalar then m.setV rd (laneOfInt sgn fbits va.w (m.getV rn va.w))
        else m.setVec rd va.n fun i => laneOfInt sgn fbits va.w (m.getVec va rn i))
  -- simd 468-477
  | .cvtn va rd rn => va.dbl.map fun _ => m.insHalf va rd fun i => fpconv va.w (m.getDbl va rn i)
  -- simd 478-485
  | .cvtl va rd rn =>
    va.dbl.map fun _ => m.setVec rd va.dn fun i => fpconv (2 * va.w) (halve va (m.getVec va rn) i)
  -- simd 1229-1234, 1247-1258, 1265-1276, 1673-1679
  | .pair op va rd rn rm =>
    let vn := m.getVec va rn
    let vm := m.getVec va rm
    if op.pairOp then
      ifFp va (m.setVec rd va.n fun i => laneBin op (Vec.shuffle va.n vn vm (linear va.n 2 0) i)
        (Vec.shuffle va.n vn vm (linear va.n 2 1) i))
    else none
  -- simd 1219-1225
  | .addp va rd rn =>
    let vec := m.getVec va rn
    ifFp va (m.setV rd (fbin .add (vec.extract va.n 0) (vec.extract va.n 1)))
  -- simd 1314-1319, 1323-1328
  | .across op va rd rn =>
    if op.acrossOp then ifFp va (m.setV rd (redLanes (laneBin op) (m.getVec va rn) va.n)) else none
  -- simd 876-880
  | .vmovImm va rd imm => ifFp va (m.setVec rd va.n (Vec.splat (some (Fp.conv va.w imm))))

end Verif.A64
