import Verif.A64.State
import Verif.IR.Vec
import Verif.IR.Fp

/-!
Model of the AArch64 SIMD instructions, /repo/src/a64/simd.cc, with generator and generated code
composed (see DESIGN.md section 3).  Line numbers without file refer to that file.

Floating-point arithmetic, rounding and conversions (396-485, 537-548, 552-604, 876-880, 1219-1225,
1229-1234, 1247-1258, 1265-1276, 1314-1319, 1323-1328) are in `Verif.A64.Fpu`.  Not modelled: `CLS` (642-643,
not implemented by the code).  A vector of 4H or 8H is always read as integers (`FacetOf`).
-/

namespace Verif.A64

open Verif.IR

/-- `farmdec::VectorArrangement`. -/
inductive VA where
  | b8 | b16 | h4 | h8 | s2 | s4 | d1 | d2
  deriving DecidableEq, Repr

/-- Bytes of an element, from `FacetOf`, 1463-1475. -/
abbrev VA.e : VA → Nat
  | .b8 | .b16 => 1
  | .h4 | .h8 => 2
  | .s2 | .s4 => 4
  | .d1 | .d2 => 8

/-- Width of an element. -/
abbrev VA.w (va : VA) : Nat := 8 * va.e

/-- `NumElem`, 1423-1435. -/
abbrev VA.n : VA → Nat
  | .b8 => 8 | .b16 => 16 | .h4 => 4 | .h8 => 8 | .s2 => 2 | .s4 => 4 | .d1 => 1 | .d2 => 2

/-- `DoubleWidth`, 1449-1461: `none` is the failed assertion. -/
def VA.dbl : VA → Option VA
  | .b8 | .b16 => some .h8
  | .h4 | .h8 => some .s4
  | .s2 | .s4 => some .d2
  | .d1 | .d2 => none

/-- Lanes of a full vector of doubled elements. -/
abbrev VA.dn (va : VA) : Nat := 8 / va.e

/-- `upper_half`, 1393, 1513, 1637: the "2" variant of the instruction. -/
def VA.upper : VA → Bool
  | .s4 | .h8 | .b16 => true
  | _ => false

/-- The arrangement of the full vector, 1346-1352. -/
def VA.full : VA → VA
  | .b8 => .b16 | .h4 => .h8 | .s2 => .s4 | .d1 => .d2 | va => va

inductive Three where
  | and | bic | orr | orn | eor | bit | bif | bsl
  | add | sub | mul | mla | mls | hadd (round : Bool) | hsub | max | min | abd | aba
  | cmeq | cmge | cmgt | cmhi | cmhs | cmtst
  | shl (round : Bool)
  | fcmeq | fcmge | fcmgt
  deriving DecidableEq, Repr

inductive Two where
  | not | neg | abs | clz | cnt | rbit
  | cmeq | cmge | cmgt | cmle | cmlt
  | fabs | fneg
  | fcmeq | fcmge | fcmgt | fcmle | fcmlt
  deriving DecidableEq, Repr

inductive Long where
  | add | sub | mul | mla | mls | abd | aba
  deriving DecidableEq, Repr

inductive Pair where
  | add | max | min
  deriving DecidableEq, Repr

/-- Post-index: the register (or ZERO_REG) and the immediate offset. -/
abbrev Post := Option (Reg × BitVec 64)

/-- Decoded SIMD instructions (`farmdec::Inst`). -/
inductive Simd where
  | three (op : Three) (sgn scalar : Bool) (va : VA) (rd rn rm : Fin 32)
  | two (op : Two) (scalar : Bool) (va : VA) (rd rn : Fin 32)
  | shlImm (scalar : Bool) (va : VA) (rd rn : Fin 32) (imm : Nat)
  | shr (sgn round scalar : Bool) (va : VA) (rd rn : Fin 32) (imm : Nat)
  | sra (sgn round scalar : Bool) (va : VA) (rd rn : Fin 32) (imm : Nat)
  | shll (sgn : Bool) (va : VA) (rd rn : Fin 32) (imm : Nat)
  | shrn (round : Bool) (va : VA) (rd rn : Fin 32) (imm : Nat)
  | xtn (va : VA) (rd rn : Fin 32)
  | long (op : Long) (sgn : Bool) (va : VA) (rd rn rm : Fin 32)
  | longElem (op : Long) (sgn : Bool) (va : VA) (rd rn rm : Fin 32) (idx : Nat)
  | wide (sub sgn : Bool) (va : VA) (rd rn rm : Fin 32)
  | mulElem (op : Three) (va : VA) (rd rn rm : Fin 32) (idx : Nat)
  | pair (op : Pair) (sgn : Bool) (va : VA) (rd rn rm : Fin 32)
  | addp (rd rn : Fin 32)
  | addlp (acc sgn : Bool) (va : VA) (rd rn : Fin 32)
  | across (op : Pair) (sgn : Bool) (va : VA) (rd rn : Fin 32)
  | immOp (bic : Bool) (va : VA) (rd : Fin 32) (imm : BitVec 64)
  | movi (scalar : Bool) (va : VA) (rd : Fin 32) (imm : BitVec 64)
  | dupElem (scalar : Bool) (va : VA) (rd rn : Fin 32) (idx : Nat)
  | dupGpr (w32 : Bool) (va : VA) (rd : Fin 32) (rn : Reg)
  | ext (va : VA) (rd rn rm : Fin 32) (imm : Nat)
  | insElem (va : VA) (rd : Fin 32) (dst : Nat) (rn : Fin 32) (src : Nat)
  | insGpr (w32 : Bool) (va : VA) (rd : Fin 32) (idx : Nat) (rn : Reg)
  | mov (sgn w32 : Bool) (va : VA) (rd : Reg) (rn : Fin 32) (idx : Nat)
  | tbl (tbx : Bool) (va : VA) (nreg : Nat) (rd rn rm : Fin 32)
  | uzp (odd : Bool) (va : VA) (rd rn rm : Fin 32)
  | zip (upper : Bool) (va : VA) (rd rn rm : Fin 32)
  | rev (container : Nat) (va : VA) (rd rn : Fin 32)
  | ld1 (nreg : Nat) (va : VA) (rt : Fin 32) (rn : Reg) (post : Post)
  | ldN (k : Nat) (va : VA) (rt : Fin 32) (rn : Reg) (post : Post)
  | ldSingle (k : Nat) (va : VA) (rt : Fin 32) (idx : Nat) (rn : Reg) (post : Post)
  | ldR (k : Nat) (va : VA) (rt : Fin 32) (rn : Reg) (post : Post)
  | st1 (nreg : Nat) (va : VA) (rt : Fin 32) (rn : Reg) (post : Post)
  | stN (k : Nat) (va : VA) (rt : Fin 32) (rn : Reg) (post : Post)
  | stSingle (k : Nat) (va : VA) (rt : Fin 32) (idx : Nat) (rn : Reg) (post : Post)
  deriving DecidableEq, Repr

/-! ### Masks, 43-90 -/

/-- `linear`, `even`, `odd`, 43-58. -/
def linear (n a t : Nat) : List Nat := (List.range n).map fun i => a * i + t

/-- `zipmask_lower` and `zipmask_upper`, 60-78. -/
def zipLower (n : Nat) : List Nat := (List.range (n / 2)).flatMap fun i => [i, i + n]
def zipUpper (n : Nat) : List Nat := (List.range (n / 2)).flatMap fun i => [n / 2 + i, n / 2 + i + n]

/-- `reverse`, 80-90: `m` runs of `n` elements. -/
def reverse (n m : Nat) : List Nat :=
  (List.range m).flatMap fun i => (List.range n).map fun j => i * n + (n - j - 1)

/-! ### Register access -/

/-- `GetVec`, 1340-1342. -/
def St.getVec (m : St) (va : VA) (r : Fin 32) : Vec va.w := Vec.ofBits va.w (m.getV r (va.w * va.n))

/-- `GetVec` with the arrangement `DoubleWidth(va)`. -/
def St.getDbl (m : St) (va : VA) (r : Fin 32) : Vec (2 * va.w) :=
  Vec.ofBits (2 * va.w) (m.getV r (2 * va.w * va.dn))

/-- `SetVec` of a vector of `n` elements, 1356-1358: a short vector clears the upper half. -/
def St.setVec (m : St) (r : Fin 32) {w : Nat} (n : Nat) (v : Vec w) : St := m.setV r (v.toBits n)

/-- `GetElem`, 1344-1354: from the full vector. -/
def St.getElem (m : St) (va : VA) (r : Fin 32) (i : Nat) : Val va.w :=
  (Vec.ofBits va.w (m.vec r)).extract (16 / va.e) i

/-- `InsertElem`, 1361-1377, of an element of `8 * e` bits. -/
def St.insElem (m : St) (r : Fin 32) (e i : Nat) (x : Val (8 * e)) : St :=
  m.setVec r (16 / e) ((Vec.ofBits (8 * e) (m.vec r)).insert (16 / e) i x)

/-- `Halve`, 1510-1526. -/
def halve (va : VA) {w : Nat} (v : Vec w) : Vec w :=
  Vec.shuffle va.n v Vec.zero
    (if va.upper then (List.range va.n).drop (va.n / 2) else List.range va.n)

/-- `InsertInHalf`, 1384-1421; `narrow` has `va.dn` elements. -/
def St.insHalf (m : St) (va : VA) (r : Fin 32) (narrow : Vec va.w) : St :=
  if va.upper then
    let extended := Vec.shuffle va.dn narrow Vec.zero (List.range va.n)
    m.setVec r va.n (Vec.shuffle va.n (m.getVec va r) extended
      ((List.range va.n).map fun i => if i < va.n / 2 then i else i + va.n / 2))
  else m.setVec r va.dn narrow

/-! ### Lane operations -/

section
variable {w : Nat}

/-- `MinMax`, 1485-1495. -/
def minMax (sgn min : Bool) (a b : Val w) : Val w :=
  let c := if min then (if sgn then icmp .slt a b else icmp .ult a b)
    else (if sgn then icmp .sgt a b else icmp .ugt a b)
  select c a b

/-- `Abs`, 1497-1501. -/
def absV (a : Val w) : Val w := select (icmp .slt a (some 0)) (IR.neg a) a

/-- `SExt` of a comparison, 1072, 1565, 1578. -/
def mask1 (w : Nat) (c : Val 1) : Val w := sext w c

/-- Extension to elements of twice the width (`getExtendedElementVectorType`). -/
def ext2 (sgn : Bool) (a : Val w) : Val (2 * w) := IR.ext sgn (2 * w) a

/-- `fcmp` with an ordered predicate. -/
def fcmpO (p : Fp.Rel → Bool) (a b : Val w) : Val 1 :=
  IR.bin (fun x y => BitVec.ofBool (p (Fp.cmp x y))) a b

/-- SHL_REG, 733-761: `rhs` is truncated to a byte, which is the amount. -/
def shlReg (sgn : Bool) (a b : Val w) : Val w :=
  let amt : Val 8 := trunc 8 b
  let left := icmp .sge amt (some 0)
  let e := sext w amt
  select left (IR.shl a e) (if sgn then IR.ashr a (IR.neg e) else IR.lshr a (IR.neg e))

/-- Three operands of the same arrangement; `d` is the old value of the destination.
`LiftThreeSame` 1540-1553 (605-607, 615-617, 654-656, 660-662, 670-673, 1131-1133, 1170-1172),
618-641 (`BIF`, `BIT`, `BSL`), `LiftCmXX` and `LiftScalarCmXX` 1555-1581 (486-533, 1005-1064),
1065-1078 (`CMTST`), 1088-1104 (`ABD`, `ABA`), `LiftMulAcc` 1583-1614 (1128, 1212, 1214),
1151-1169 (`HADD`), 1190-1210 (`HSUB`, `MAX`, `MIN`). -/
def lane3 (op : Three) (sgn : Bool) (d a b : Val w) : Val w :=
  match op with
  | .and => IR.and a b
  | .bic => IR.and a (IR.not b)
  | .orr => IR.or a b
  | .orn => IR.or a (IR.not b)
  | .eor => IR.xor a b
  | .bit => IR.xor d (IR.and (IR.xor d a) b)
  | .bif => IR.xor d (IR.and (IR.xor d a) (IR.not b))
  | .bsl => IR.xor b (IR.and (IR.xor b a) d)
  | .add => IR.add a b
  | .sub => IR.sub a b
  | .mul => IR.add (some 0) (IR.mul a b)
  | .mla => IR.add d (IR.mul a b)
  | .mls => IR.sub d (IR.mul a b)
  | .hadd round =>
    let rhs := if round then IR.add (ext2 sgn b) (some 1) else ext2 sgn b
    let sum := IR.add (ext2 sgn a) rhs
    trunc w (if sgn then IR.ashr sum (some 1) else IR.lshr sum (some 1))
  | .hsub =>
    let diff := IR.sub (ext2 sgn a) (ext2 sgn b)
    trunc w (if sgn then IR.ashr diff (some 1) else IR.lshr diff (some 1))
  | .max => minMax sgn false a b
  | .min => minMax sgn true a b
  | .abd => IR.add (some 0) (trunc w (absV (IR.sub (ext2 sgn a) (ext2 sgn b))))
  | .aba => IR.add d (trunc w (absV (IR.sub (ext2 sgn a) (ext2 sgn b))))
  | .cmeq => mask1 w (icmp .eq a b)
  | .cmge => mask1 w (icmp .sge a b)
  | .cmgt => mask1 w (icmp .sgt a b)
  | .cmhi => mask1 w (icmp .ugt a b)
  | .cmhs => mask1 w (icmp .uge a b)
  | .cmtst => mask1 w (icmp .ne (IR.and a b) (some 0))
  | .shl _ => shlReg sgn a b
  | .fcmeq => mask1 w (fcmpO (· == .eq) a b)
  | .fcmge => mask1 w (fcmpO (fun r => r == .gt || r == .eq) a b)
  | .fcmgt => mask1 w (fcmpO (· == .gt) a b)

/-- One operand.  644-653 (`CLZ`, `CNT`), 657-659, 674-676 (`RBIT`), 1011-1064 and 492-533 (comparison with
zero), 1079-1087 (`ABS`), 1118-1126 (`NEG`), 534-536, 549-551 (`FABS`, `FNEG`). -/
def lane2 (op : Two) (a : Val w) : Val w :=
  match op with
  | .not => IR.not a
  | .neg => IR.neg a
  | .abs => absV a
  | .clz => ctlz false a
  | .cnt => ctpop a
  | .rbit => bitreverse a
  | .cmeq => mask1 w (icmp .eq a (some 0))
  | .cmge => mask1 w (icmp .sge a (some 0))
  | .cmgt => mask1 w (icmp .sgt a (some 0))
  | .cmle => mask1 w (icmp .sle a (some 0))
  | .cmlt => mask1 w (icmp .slt a (some 0))
  | .fabs => IR.fabs a
  | .fneg => IR.fneg a
  | .fcmeq => mask1 w (fcmpO (· == .eq) a (some 0))
  | .fcmge => mask1 w (fcmpO (fun r => r == .gt || r == .eq) a (some 0))
  | .fcmgt => mask1 w (fcmpO (· == .gt) a (some 0))
  | .fcmle => mask1 w (fcmpO (fun r => r == .lt || r == .eq) a (some 0))
  | .fcmlt => mask1 w (fcmpO (· == .lt) a (some 0))

/-- SRA, 800-836, on one lane; the code computes 2^(imm-1) modulo 2^64. -/
def laneSra (sgn round : Bool) (imm : Nat) (acc a : Val w) : Val w :=
  if round then
    let a := IR.add (ext2 sgn a) (some (BitVec.ofNat (2 * w) (2 ^ (imm - 1))))
    if imm < 2 * w then
      let k := some (BitVec.ofNat (2 * w) imm)
      IR.add acc (trunc w (if sgn then IR.ashr a k else IR.lshr a k))
    else if sgn then IR.add acc (trunc w (IR.ashr a (some (BitVec.ofNat (2 * w) (2 * w - 1)))))
    else IR.add acc (trunc w (IR.lshr (some (0#(2 * w))) (some 0)))
  else
    if imm < w then
      let k := some (BitVec.ofNat w imm)
      IR.add acc (if sgn then IR.ashr a k else IR.lshr a k)
    else if sgn then IR.add acc (IR.ashr a (some (BitVec.ofNat w (w - 1))))
    else IR.add acc (IR.lshr (some 0) (some 0))

/-- Two operands extended to twice the width; `d` is the old value of the destination.
`ABDL`, `ABAL` 1105-1117, `ADDL` 1134-1142, `SUBL` 1173-1181, `LiftMulAcc` 1597-1613. -/
def laneLong (op : Long) (sgn : Bool) (d : Val (2 * w)) (a b : Val w) : Val (2 * w) :=
  match op with
  | .add => IR.add (ext2 sgn a) (ext2 sgn b)
  | .sub => IR.sub (ext2 sgn a) (ext2 sgn b)
  | .mul => IR.add (some 0) (IR.mul (ext2 sgn a) (ext2 sgn b))
  | .mla => IR.add d (IR.mul (ext2 sgn a) (ext2 sgn b))
  | .mls => IR.sub d (IR.mul (ext2 sgn a) (ext2 sgn b))
  | .abd => IR.add (some 0) (absV (IR.sub (ext2 sgn a) (ext2 sgn b)))
  | .aba => IR.add d (absV (IR.sub (ext2 sgn a) (ext2 sgn b)))

def lanePair (op : Pair) (sgn : Bool) (a b : Val w) : Val w :=
  match op with
  | .add => IR.add a b
  | .max => minMax sgn false a b
  | .min => minMax sgn true a b

end

/-! ### Instructions -/

/-- Operations that look at `SIMD_SCALAR`. -/
def Three.hasScalar : Three → Bool
  | .add | .sub | .cmeq | .cmge | .cmgt | .cmhi | .cmhs | .cmtst | .shl _ | .fcmeq | .fcmge | .fcmgt => true
  | _ => false

/-- Width of the scalar operands: `LiftScalarCmXX` (1570-1581), `CMTST` and `SHL` always use 64 bits. -/
def Three.scalarW (op : Three) (va : VA) : Nat :=
  match op with
  | .add | .sub => va.w
  | _ => 64

def Two.hasScalar : Two → Bool
  | .neg | .abs | .cmeq | .cmge | .cmgt | .cmle | .cmlt | .fcmeq | .fcmge | .fcmgt | .fcmle | .fcmlt => true
  | _ => false

def Two.scalarW (op : Two) (va : VA) : Nat :=
  match op with
  | .neg | .abs => va.w
  | _ => 64

/-- Instructions with three vector registers (a64/simd.cc; lines at `lane3`).  Arrangements of floating-point operations with elements of
less than 32 bits would be invalid IR in the code (integer vectors); `fpOk` excludes them from the theorems. -/
def liftThree (m : St) (op : Three) (sgn scalar : Bool) (va : VA) (rd rn rm : Fin 32) : St :=
  if scalar && op.hasScalar then
    let w := op.scalarW va
    m.setV rd (lane3 op sgn (m.getV rd w) (m.getV rn w) (m.getV rm w))
  else m.setVec rd va.n fun i => lane3 op sgn (m.getVec va rd i) (m.getVec va rn i) (m.getVec va rm i)

/-- Instructions with two vector registers (a64/simd.cc; lines at `lane2`); floating-point arrangements as for `liftThree`. -/
def liftTwo (m : St) (op : Two) (scalar : Bool) (va : VA) (rd rn : Fin 32) : St :=
  if scalar && op.hasScalar then
    let w := op.scalarW va
    m.setV rd (lane2 op (m.getV rn w))
  else m.setVec rd va.n fun i => lane2 op (m.getVec va rn i)

/-- SHL_IMM, 722-732, and SHR, 775-787. -/
def liftShlImm (m : St) (scalar : Bool) (va : VA) (rd rn : Fin 32) (imm : Nat) : St :=
  let k := some (BitVec.ofNat va.w imm)
  if scalar then m.setV rd (IR.shl (m.getV rn va.w) k)
  else m.setVec rd va.n fun i => IR.shl (m.getVec va rn i) k

def liftShr (m : St) (sgn scalar : Bool) (va : VA) (rd rn : Fin 32) (imm : Nat) : St :=
  let k := some (BitVec.ofNat va.w imm)
  let f (x : Val va.w) := if sgn then IR.ashr x k else IR.lshr x k
  if scalar then m.setV rd (f (m.getV rn va.w)) else m.setVec rd va.n fun i => f (m.getVec va rn i)

/-- SRA, 800-836: scalars as VA_1D. -/
def liftSra (m : St) (sgn round scalar : Bool) (va : VA) (rd rn : Fin 32) (imm : Nat) : St :=
  let va := if scalar then VA.d1 else va
  m.setVec rd va.n fun i => laneSra sgn round imm (m.getVec va rd i) (m.getVec va rn i)

/-- SHLL, 762-774. -/
def liftShll (m : St) (sgn : Bool) (va : VA) (rd rn : Fin 32) (imm : Nat) : Option St :=
  va.dbl.map fun _ => m.setVec rd va.dn fun i =>
    IR.shl (ext2 sgn (halve va (m.getVec va rn) i)) (some (BitVec.ofNat (2 * va.w) imm))

/-- SHRN, 788-799, and XTN, 988-990; `Narrow`, 1503-1508. -/
def liftShrn (m : St) (va : VA) (rd rn : Fin 32) (imm : Nat) : Option St :=
  va.dbl.map fun _ => m.insHalf va rd fun i =>
    trunc va.w (IR.lshr (m.getDbl va rn i) (some (BitVec.ofNat (2 * va.w) imm)))

def liftXtn (m : St) (va : VA) (rd rn : Fin 32) : Option St :=
  va.dbl.map fun _ => m.insHalf va rd fun i => trunc va.w (m.getDbl va rn i)

def liftLong (m : St) (op : Long) (sgn : Bool) (va : VA) (rd rn rm : Fin 32) : Option St :=
  va.dbl.map fun _ => m.setVec rd va.dn fun i => laneLong op sgn (m.getDbl va rd i)
    (halve va (m.getVec va rn) i) (halve va (m.getVec va rm) i)

/-- `LiftMulAccElem` with `extend_long`, 1631-1642, 1652-1653 (1129, 1215, 1217). -/
def liftLongElem (m : St) (op : Long) (sgn : Bool) (va : VA) (rd rn rm : Fin 32) (idx : Nat) : Option St :=
  va.dbl.map fun _ => m.setVec rd va.dn fun i => laneLong op sgn (m.getDbl va rd i)
    (halve va (m.getVec va rn) i) (Vec.splat (m.getElem va rm idx) i)

/-- ADDW, 1143-1150, and SUBW, 1182-1189. -/
def liftWide (m : St) (sub sgn : Bool) (va : VA) (rd rn rm : Fin 32) : Option St :=
  va.dbl.map fun _ => m.setVec rd va.dn fun i =>
    let rhs := ext2 sgn (halve va (m.getVec va rm) i)
    if sub then IR.sub (m.getDbl va rn i) rhs else IR.add (m.getDbl va rn i) rhs

/-- `LiftMulAccElem`, 1643-1653 (1127, 1211, 1213). -/
def liftMulElem (m : St) (op : Three) (va : VA) (rd rn rm : Fin 32) (idx : Nat) : St :=
  m.setVec rd va.n fun i =>
    lane3 op false (m.getVec va rd i) (m.getVec va rn i) (Vec.splat (m.getElem va rm idx) i)

/-- `TransformSIMDPairwise`, 1673-1679; 1235-1246, 1259-1264. -/
def liftPair (m : St) (op : Pair) (sgn : Bool) (va : VA) (rd rn rm : Fin 32) : St :=
  let vn := m.getVec va rn
  let vm := m.getVec va rm
  m.setVec rd va.n fun i => lanePair op sgn (Vec.shuffle va.n vn vm (linear va.n 2 0) i)
    (Vec.shuffle va.n vn vm (linear va.n 2 1) i)

/-- ADDP (scalar), 1226-1228. -/
def liftAddp (m : St) (rd rn : Fin 32) : St :=
  m.setV rd ((Vec.ofBits 64 (m.vec rn)).reduce IR.add (some 0) 2)

/-- ADALP, ADDLP, 1280-1313; the destination has `va.n / 2` elements. -/
def liftAddlp (m : St) (acc sgn : Bool) (va : VA) (rd rn : Fin 32) : Option St :=
  va.dbl.map fun _ =>
    let vn := m.getVec va rn
    let old : Vec (2 * va.w) := if acc then Vec.ofBits (2 * va.w) (m.getV rd (2 * va.w * (va.n / 2))) else Vec.zero
    m.setVec rd (va.n / 2) fun i => IR.add (old i)
      (IR.add (ext2 sgn (Vec.shuffle va.n vn Vec.zero (linear (va.n / 2) 2 0) i))
        (ext2 sgn (Vec.shuffle va.n vn Vec.zero (linear (va.n / 2) 2 1) i)))

/-- ADDV, MAXV, MINV, 1277-1279, 1320-1322, 1329-1331; `CreateIntMaxReduce` and `CreateIntMinReduce`. -/
def liftAcross (m : St) (op : Pair) (sgn : Bool) (va : VA) (rd rn : Fin 32) : St :=
  m.setV rd (match op with
    | .add => (m.getVec va rn).reduce IR.add (some 0) va.n
    | .max => (m.getVec va rn).reduce (if sgn then smax else umax)
        (some (if sgn then BitVec.intMin va.w else 0)) va.n
    | .min => (m.getVec va rn).reduce (if sgn then smin else umin)
        (some (if sgn then BitVec.intMax va.w else BitVec.allOnes va.w)) va.n)

/-- BIC and ORR with an immediate, 608-614, 663-669. -/
def liftImmOp (m : St) (bic : Bool) (va : VA) (rd : Fin 32) (imm : BitVec 64) : St :=
  let rhs : Val va.w := some (imm.setWidth va.w)
  m.setVec rd va.n fun i =>
    if bic then IR.and (m.getVec va rd i) (IR.not rhs) else IR.or (m.getVec va rd i) rhs

/-- MOVI, 881-889. -/
def liftMovi (m : St) (scalar : Bool) (va : VA) (rd : Fin 32) (imm : BitVec 64) : St :=
  if scalar then m.setV rd (some imm)
  else m.setVec rd va.n (Vec.splat (some (imm.setWidth va.w)))

/-- DUP (element), 837-845; `Dup`, 1379-1382. -/
def liftDupElem (m : St) (scalar : Bool) (va : VA) (rd rn : Fin 32) (idx : Nat) : St :=
  if scalar then m.setV rd (m.getElem va rn idx) else m.setVec rd va.n (Vec.splat (m.getElem va rn idx))

/-- Element of a general-purpose register, 847, 872: not valid IR if it is wider. -/
def gpElem (m : St) (w32 : Bool) (va : VA) (rn : Reg) : Option (Val va.w) :=
  if va.w ≤ W w32 then some (trunc va.w (m.get (W w32) rn)) else none

/-- EXT, 851-865. -/
def liftExt (m : St) (va : VA) (rd rn rm : Fin 32) (imm : Nat) : St :=
  m.setVec rd va.n (Vec.shuffle va.n (m.getVec va rn) (m.getVec va rm)
    ((List.range va.n).map fun i => imm + i))

/-- SMOV, UMOV, 890-899: not valid IR if the element is wider. -/
def liftMov (m : St) (sgn w32 : Bool) (va : VA) (rd : Reg) (rn : Fin 32) (idx : Nat) : Option St :=
  if va.w ≤ W w32 then some (m.set rd (IR.ext sgn (W w32) (m.getElem va rn idx))) else none

/-- `Concat` of two vectors of `n` elements, 913-921, 1528-1531. -/
def concat {w : Nat} (n : Nat) (a b : Vec w) : Vec w := Vec.shuffle n a b (List.range (2 * n))

/-- The table of TBL and TBX and its number of elements, 911-945. -/
def tblTable (m : St) (nreg : Nat) (rn : Fin 32) : Option (Vec 8 × Nat) :=
  let v (k : Nat) : Vec 8 := m.getVec .b16 (rn + Fin.ofNat 32 k)
  match nreg with
  | 1 => some (v 0, 16)
  | 2 => some (concat 16 (v 0) (v 1), 32)
  | 3 => some (concat 32 (concat 16 (v 0) (v 1)) (concat 16 (v 2) Vec.zero), 64)
  | 4 => some (concat 32 (concat 16 (v 0) (v 1)) (concat 16 (v 2) (v 3)), 64)
  | _ => none

/-- TBL, TBX, 900-973; the decoder produces them for bytes only. -/
def liftTbl (m : St) (tbx : Bool) (va : VA) (nreg : Nat) (rd rn rm : Fin 32) : Option St :=
  if va.e = 1 then
    (tblTable m nreg rn).map fun t =>
      let idxvec := Vec.ofBits 8 (m.getV rm (va.w * va.n))
      let oldvec := Vec.ofBits 8 (m.getV rd (va.w * va.n))
      let entries := some (BitVec.ofNat 8 (nreg * 16))
      m.setVec rd va.n ((List.range va.n).foldl (fun dst i =>
        let idx := idxvec.extract va.n i
        let tblval := t.1.extractV t.2 idx
        let outside := if tbx then oldvec.extract va.n i else some 0
        dst.insert va.n i (select (icmp .uge idx entries) outside tblval)) oldvec)
  else none

/-- UZP1, UZP2, ZIP1, ZIP2, 974-987, 991-1004. -/
def liftUzp (m : St) (odd : Bool) (va : VA) (rd rn rm : Fin 32) : St :=
  m.setVec rd va.n (Vec.shuffle va.n (m.getVec va rn) (m.getVec va rm)
    (linear va.n 2 (if odd then 1 else 0)))

def liftZip (m : St) (upper : Bool) (va : VA) (rd rn rm : Fin 32) : St :=
  m.setVec rd va.n (Vec.shuffle va.n (m.getVec va rn) (m.getVec va rm)
    (if upper then zipUpper va.n else zipLower va.n))

/-- Length of the runs reversed by REV16, REV32, REV64, 677-721; `none` is the failed assertion.
REV16 does not look at the arrangement. -/
def revRun (container : Nat) (va : VA) : Option Nat :=
  match container, va with
  | 16, _ => some 2
  | 32, .b8 | 32, .b16 => some 4
  | 32, .h4 | 32, .h8 => some 2
  | 64, .b8 | 64, .b16 => some 8
  | 64, .h4 | 64, .h8 => some 4
  | 64, .s2 | 64, .s4 => some 2
  | _, _ => none

def liftRev (m : St) (container : Nat) (va : VA) (rd rn : Fin 32) : Option St :=
  (revRun container va).map fun k =>
    m.setVec rd va.n (Vec.shuffle va.n (m.getVec va rn) Vec.zero (reverse k (va.n / k)))

/-! ### Loads and stores -/

/-- `SIMDLoadStoreAddr`, 1703-1726. -/
def simdAddr (m : St) (rn : Reg) (post : Post) : Val 64 × St :=
  match post with
  | none => (m.get 64 rn, m)
  | some (rm, imm) =>
    (m.get 64 rn, m.set rn (IR.add (m.get 64 rn) (if rm = .zr then some imm else m.get 64 rm)))

/-- Bytes of a vector. -/
abbrev VA.bytes (va : VA) : Nat := va.e * va.n

/-- Register `rt + k`, wrapping around, 110, 127. -/
def vreg (rt : Fin 32) (k : Nat) : Fin 32 := rt + Fin.ofNat 32 k

/-- The `k`th vector or element of `n` bytes at an address, `CreateConstGEP1_64`. -/
def loadAt (m : St) (a : Val 64) (n k : Nat) : Option (Val (8 * n)) :=
  load m (IR.add a (some (BitVec.ofNat 64 (n * k)))) n 1

def storeAt (m : St) (a : Val 64) (n k : Nat) (v : Val (8 * n)) : Option St :=
  store m (IR.add a (some (BitVec.ofNat 64 (n * k)))) n 1 v

/-- `k` vectors or elements of `n` bytes, in the order of the code. -/
def loadList (m : St) (a : Val 64) (n k : Nat) : Option (List (Val (8 * n))) :=
  (List.range k).mapM fun j => loadAt m a n j

/-- LD1 (multiple structures), 101-113: each register is written before the next vector is loaded, which
makes no difference. -/
def liftLd1 (m : St) (nreg : Nat) (va : VA) (rt : Fin 32) (rn : Reg) (post : Post) : Option St :=
  let a := simdAddr m rn post
  (List.range nreg).foldlM (fun m k => (loadAt m a.1 va.bytes k).map fun v => m.setV (vreg rt k) v) a.2

/-- LD2, LD3, LD4 (multiple structures), 114-175; `Concat` of four vectors, 1533-1538.  LD2 shuffles two vectors, the others the
concatenation of four. -/
def deint (va : VA) (k : Nat) (v : Nat → Vec va.w) (j : Nat) : Vec va.w :=
  match k with
  | 2 => Vec.shuffle va.n (v 0) (v 1) (linear va.n 2 j)
  | 3 => Vec.shuffle (4 * va.n) (concat (2 * va.n) (concat va.n (v 0) (v 1)) (concat va.n (v 2) Vec.zero))
      Vec.zero (linear va.n 3 j)
  | _ => Vec.shuffle (4 * va.n) (concat (2 * va.n) (concat va.n (v 0) (v 1)) (concat va.n (v 2) (v 3)))
      Vec.zero (linear va.n 4 j)

def liftLdN (m : St) (k : Nat) (va : VA) (rt : Fin 32) (rn : Reg) (post : Post) : Option St :=
  if k = 2 ∨ k = 3 ∨ k = 4 then
    let a := simdAddr m rn post
    (loadList a.2 a.1 va.bytes k).map fun l =>
      let v (j : Nat) : Vec va.w := Vec.ofBits va.w (l.getD j none)
      (List.range k).foldl (fun m j => m.setVec (vreg rt j) va.n (deint va k v j)) a.2
  else none

/-- LD1 to LD4 (single structure), 282-321. -/
def liftLdSingle (m : St) (k : Nat) (va : VA) (rt : Fin 32) (idx : Nat) (rn : Reg) (post : Post) :
    Option St :=
  let a := simdAddr m rn post
  (loadList a.2 a.1 va.e k).map fun l =>
    (List.range k).foldl (fun m j => m.insElem (vreg rt j) va.e idx (l.getD j none)) a.2

/-- LD1R to LD4R, 356-395. -/
def liftLdR (m : St) (k : Nat) (va : VA) (rt : Fin 32) (rn : Reg) (post : Post) : Option St :=
  let a := simdAddr m rn post
  (loadList a.2 a.1 va.e k).map fun l =>
    (List.range k).foldl (fun m j => m.setVec (vreg rt j) va.n (Vec.splat (w := va.w) (l.getD j none))) a.2

/-- ST1 (multiple structures), 176-189; `StoreMulti`, 1681-1701. -/
def liftSt1 (m : St) (nreg : Nat) (va : VA) (rt : Fin 32) (rn : Reg) (post : Post) : Option St :=
  if 1 ≤ nreg ∧ nreg ≤ 4 then
    let a := simdAddr m rn post
    (List.range nreg).foldlM (fun m k => storeAt m a.1 va.bytes k
      (bitcast _ (Vec.toBits va.n (m.getVec va (vreg rt k))))) a.2
  else none

/-- The zip mask of ST3 and ST4, `[0, n, 1, n + 1, …]`, 222-226, 262-266. -/
def zipAll (n : Nat) : List Nat := (List.range n).flatMap fun i => [i, i + n]

/-- ST2, ST3, ST4 (multiple structures), 190-281: ST2 stores two vectors, the others one long vector. -/
def liftStN (m : St) (k : Nat) (va : VA) (rt : Fin 32) (rn : Reg) (post : Post) : Option St :=
  let a := simdAddr m rn post
  let v (j : Nat) : Vec va.w := a.2.getVec va (vreg rt j)
  let n := va.n
  match k with
  | 2 =>
    (storeAt a.2 a.1 va.bytes 0 (bitcast _ (Vec.toBits n (Vec.shuffle n (v 0) (v 1) (zipLower n))))).bind
      fun m => storeAt m a.1 va.bytes 1
        (bitcast _ (Vec.toBits n (Vec.shuffle n (v 0) (v 1) (zipUpper n))))
  | 3 =>
    let xy := Vec.shuffle n (v 0) (v 1) (zipAll n)
    let xyz := Vec.shuffle (2 * n) xy (concat n (v 2) Vec.zero)
      ((List.range n).flatMap fun i => [2 * i, 2 * i + 1, i + 2 * n])
    store a.2 a.1 (va.e * (3 * n)) 1 (bitcast _ (Vec.toBits (3 * n) xyz))
  | 4 =>
    let xy := Vec.shuffle n (v 0) (v 1) (zipAll n)
    let zw := Vec.shuffle n (v 2) (v 3) (zipAll n)
    let xyzw := Vec.shuffle (2 * n) xy zw
      ((List.range n).flatMap fun i => [2 * i, 2 * i + 1, 2 * i + 2 * n, 2 * i + 2 * n + 1])
    store a.2 a.1 (va.e * (4 * n)) 1 (bitcast _ (Vec.toBits (4 * n) xyzw))
  | _ => none

/-- ST1 to ST4 (single structure), 322-355. -/
def liftStSingle (m : St) (k : Nat) (va : VA) (rt : Fin 32) (idx : Nat) (rn : Reg) (post : Post) :
    Option St :=
  let a := simdAddr m rn post
  (List.range k).foldlM (fun m j => storeAt m a.1 va.e j (m.getElem va (vreg rt j) idx)) a.2

/-- Does `LiftSIMD` return true, 734-735, 776-777, 789-790, 1332-1334? -/
def Simd.handled : Simd → Bool
  | .three (.shl true) .. | .shr _ true .. | .shrn true .. => false
  | _ => true

/-- `LiftSIMD`, 92-1338; `none` is undefined behaviour, a failed assertion or invalid IR.  Only for
instructions that are `handled`. -/
def Simd.lift (m : St) : Simd → Option St
  | .three op sgn scalar va rd rn rm => some (liftThree m op sgn scalar va rd rn rm)
  | .two op scalar va rd rn => some (liftTwo m op scalar va rd rn)
  | .shlImm scalar va rd rn imm => some (liftShlImm m scalar va rd rn imm)
  | .shr sgn _ scalar va rd rn imm => some (liftShr m sgn scalar va rd rn imm)
  | .sra sgn round scalar va rd rn imm => some (liftSra m sgn round scalar va rd rn imm)
  | .shll sgn va rd rn imm => liftShll m sgn va rd rn imm
  | .shrn _ va rd rn imm => liftShrn m va rd rn imm
  | .xtn va rd rn => liftXtn m va rd rn
  | .long op sgn va rd rn rm => liftLong m op sgn va rd rn rm
  | .longElem op sgn va rd rn rm idx => liftLongElem m op sgn va rd rn rm idx
  | .wide sub sgn va rd rn rm => liftWide m sub sgn va rd rn rm
  | .mulElem op va rd rn rm idx => some (liftMulElem m op va rd rn rm idx)
  | .pair op sgn va rd rn rm => some (liftPair m op sgn va rd rn rm)
  | .addp rd rn => some (liftAddp m rd rn)
  | .addlp acc sgn va rd rn => liftAddlp m acc sgn va rd rn
  | .across op sgn va rd rn => some (liftAcross m op sgn va rd rn)
  | .immOp bic va rd imm => some (liftImmOp m bic va rd imm)
  | .movi scalar va rd imm => some (liftMovi m scalar va rd imm)
  | .dupElem scalar va rd rn idx => some (liftDupElem m scalar va rd rn idx)
  | .dupGpr w32 va rd rn => (gpElem m w32 va rn).map fun x => m.setVec rd va.n (Vec.splat x)
  | .ext va rd rn rm imm => some (liftExt m va rd rn rm imm)
  | .insElem va rd dst rn src => some (m.insElem rd va.e dst (m.getElem va rn src))
  | .insGpr w32 va rd idx rn => (gpElem m w32 va rn).map fun x => m.insElem rd va.e idx x
  | .mov sgn w32 va rd rn idx => liftMov m sgn w32 va rd rn idx
  | .tbl tbx va nreg rd rn rm => liftTbl m tbx va nreg rd rn rm
  | .uzp odd va rd rn rm => some (liftUzp m odd va rd rn rm)
  | .zip upper va rd rn rm => some (liftZip m upper va rd rn rm)
  | .rev container va rd rn => liftRev m container va rd rn
  | .ld1 nreg va rt rn post => liftLd1 m nreg va rt rn post
  | .ldN k va rt rn post => liftLdN m k va rt rn post
  | .ldSingle k va rt idx rn post => liftLdSingle m k va rt idx rn post
  | .ldR k va rt rn post => liftLdR m k va rt rn post
  | .st1 nreg va rt rn post => liftSt1 m nreg va rt rn post
  | .stN k va rt rn post => liftStN m k va rt rn post
  | .stSingle k va rt idx rn post => liftStSingle m k va rt idx rn post

end Verif.A64
