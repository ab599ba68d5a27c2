import Verif.RV64.Exec
import Verif.IR.FpOpsProofs

/-!
Specification of the F and D extensions after the RISC-V unprivileged ISA manual: floating-point registers
of 64 bits, single-precision values NaN-boxed, results that are NaN canonical.  The dynamic rounding mode is
round to nearest even: the lifter does not implement writes to `frm`
(/repo/src/rv64/lifter.cc:489-505).  Exception flags are not modelled.  That `Fp.arith`, `Fp.sqrt`, `Fp.fma`,
`Fp.conv`, `Fp.ofInt` are the operations of IEEE 754 is shown in `Verif.IR.FpIeee` and `Verif.IR.FpOps`.
-/

namespace Verif.RV64.Spec

open Verif.RV64 Verif.IR Verif.Fp

/-- Do the upper bits tell that the register holds a single-precision number? -/
def boxed (v : BitVec 64) : Bool := v.extractLsb' 32 32 == 0xffffffff#32

/-- Operand: a register that does not hold a NaN-boxed number counts as the canonical NaN. -/
def opnd (f : FW) (v : BitVec 64) : BitVec f.bits :=
  match f with
  | .s => if boxed v then v.setWidth 32 else 0x7fc00000#32
  | .d => v

/-- Content of a register that holds a result. -/
def box (f : FW) (v : BitVec f.bits) : BitVec 64 :=
  match f with
  | .s => nanBox v
  | .d => v

/-- The canonical NaN: positive, quiet bit set, payload zero. -/
def canonNaN (w : Nat) : BitVec w := signed w false (infMag w + 2 ^ (mantBits w - 1))

example : canonNaN 32 = 0x7fc00000#32 ∧ canonNaN 64 = 0x7ff8000000000000#64 := by decide

def canon {w : Nat} (v : BitVec w) : BitVec w := if isNaN v then canonNaN w else v

/-- Negation changes the sign bit. -/
def neg {w : Nat} (v : BitVec w) : BitVec w := v ^^^ BitVec.intMin w

/-- The rounding mode field: RNE, RTZ, RDN, RUP, RMM; DYN is the mode in `frm`, here RNE. -/
def rmMode : Nat → Option Mode
  | 0 => some .even
  | 1 => some .zero
  | 2 => some .down
  | 3 => some .up
  | 4 => some .away
  | 7 => some .even
  | _ => none

/-- The integer in a register: 32 or 64 bits, signed or unsigned. -/
def intOf (long signed : Bool) (x : BitVec 64) : Int :=
  if long then (if signed then x.toInt else x.toNat)
  else (if signed then (x.setWidth 32).toInt else (x.setWidth 32).toNat)

/-- Least and greatest result of a conversion to integer. -/
def intLo (long signed : Bool) : Int := if signed then (if long then - 2 ^ 63 else - 2 ^ 31) else 0
def intHi (long signed : Bool) : Int :=
  if signed then (if long then 2 ^ 63 - 1 else 2 ^ 31 - 1) else (if long then 2 ^ 64 - 1 else 2 ^ 32 - 1)

/-- Conversion to integer: values out of range are clipped, NaN gives the greatest integer. -/
def cvtInt (long signed : Bool) (mode : Mode) {w : Nat} (v : BitVec w) : Int :=
  match toIntM mode v with
  | some z => max (intLo long signed) (min (intHi long signed) z)
  | none => if !isNaN v && v.msb then intLo long signed else intHi long signed

/-- A 32-bit result is sign-extended to the register, an unsigned one as well. -/
def intReg (long : Bool) (z : Int) : BitVec 64 :=
  if long then BitVec.ofInt 64 z else (BitVec.ofInt 32 z).signExtend 64

/-- One step of an F or D instruction.  Rounding directions other than to nearest even are specified for the
conversions from and to integers only. -/
def fpStep (op : FOp) (f : FW) (i : Frv) (len : Nat) (s : State) : Option State :=
  let a := opnd f (s.fp i.rs1)
  let b := opnd f (s.fp i.rs2)
  let c := opnd f (s.fp i.rs3)
  let put (v : BitVec f.bits) : Option State := some (s.wrF i.rd (box f v) len)
  let putX (v : BitVec 64) : Option State := some (s.wr i.rd v len)
  let even := rmMode i.misc = some .even
  match op with
  | .arith o => if even then put (canon (Fp.arith o a b)) else none
  | .min => put (if isNaN a && isNaN b then canonNaN _ else Ieee.minNumber a b)
  | .max => put (if isNaN a && isNaN b then canonNaN _ else Ieee.maxNumber a b)
  | .madd => if even then put (canon (fma a b c)) else none
  | .msub => if even then put (canon (fma a b (neg c))) else none
  | .nmsub => if even then put (canon (fma (neg a) b c)) else none
  | .nmadd => if even then put (canon (fma (neg a) b (neg c))) else none
  | .sqrt => if even then put (canon (Fp.sqrt a)) else none
  | .eq => putX (bit (Fp.cmp a b = .eq))
  | .lt => putX (bit (Fp.cmp a b = .lt))
  | .le => putX (bit (Fp.cmp a b = .lt ∨ Fp.cmp a b = .eq))
  | .ofInt long signed => (rmMode i.misc).bind fun mode => put (ofIntM mode f.bits (intOf long signed (s.x i.rs1)))
  | .toInt long signed => (rmMode i.misc).bind fun mode => putX (intReg long (cvtInt long signed mode a))
  | .cvt => match f with
    | .s => if even then some (s.wrF i.rd (nanBox (canon (conv 32 (s.fp i.rs1)))) len) else none
    | .d => some (s.wrF i.rd (canon (conv 64 (opnd .s (s.fp i.rs1)))) len)

/-- Single-precision loads, moves and sign injection. -/
def fpMove (i : Frv) (len : Nat) (s : State) : Option State :=
  match i.mnem with
  | .flw => some (s.wrF i.rd (nanBox (s.mem.read (s.x i.rs1 + i.imm.signExtend 64) 4)) len)
  | .fmvwx => some (s.wrF i.rd (nanBox ((s.x i.rs1).setWidth 32)) len)
  | .fsgnjs | .fsgnjns | .fsgnjxs => some (s.wrF i.rd (nanBox
      (sgnj (w := 31) i.mnem (opnd .s (s.fp i.rs1)) (opnd .s (s.fp i.rs2)))) len)
  | _ => none

/-- One step of a hart with the F and D extensions. -/
def execF (i : Frv) (len : Nat) (s : State) : Option State :=
  match exec i len s with
  | some s' => some s'
  | none => match i.mnem with
    | .fp op f => fpStep op f i len s
    | _ => fpMove i len s

/-! The results are those of IEEE 754. -/

theorem canonNaN_nan {w : Nat} (hw : Format w) : isNaN (canonNaN w) = true := by
  rcases hw with rfl | rfl <;> decide

theorem canon_arith {w : Nat} (hw : Format w) (o : Arith) (x y : BitVec w) :
    Ieee.Result o x y (canon (Fp.arith o x y)) := by
  unfold canon
  split
  next h => exact result_nan (arith_ieee hw o x y) h (canonNaN_nan hw)
  · exact arith_ieee hw o x y

theorem canon_sqrt {w : Nat} (hw : Format w) (x : BitVec w) : Ieee.Root x (canon (Fp.sqrt x)) := by
  unfold canon
  split
  next h => exact root_nan (sqrt_ieee hw x) h (canonNaN_nan hw)
  · exact sqrt_ieee hw x

theorem canon_fma {w : Nat} (hw : Format w) (x y z : BitVec w) : Ieee.Fused x y z (canon (fma x y z)) := by
  unfold canon
  split
  next h => exact fused_nan (fma_ieee hw x y z) h (canonNaN_nan hw)
  · exact fma_ieee hw x y z

theorem canon_conv {v w : Nat} (hv : Format v) (x : BitVec w) : Ieee.Conv x (canon (conv v x)) := by
  unfold canon
  split
  next h => exact conv_nan (conv_ieee hv x) h (canonNaN_nan hv)
  · exact conv_ieee hv x

end Verif.RV64.Spec
