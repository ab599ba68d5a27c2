import Verif.X86.SpecState
import Verif.X86.Sse

/-!
Specification of the SSE instructions after the Intel SDM (volume 2): what every lane of the result is, in
integer arithmetic or IEEE 754 arithmetic (`Verif.Fp`).  It uses from the model only the instruction
datatype and sizes.

MXCSR has its default value: round to nearest, exceptions masked, denormals are not flushed.  `none` stands
for a fault (a 128-bit memory operand that is not aligned, where SSE requires alignment), for encodings that
do not exist and for `FXSAVE`, whose image also contains x87 state.  Some operand sizes that do not exist,
such as PMULLB, are specified all the same.
-/

namespace Verif.X86.Spec

open Verif.IR (Mem)
open Verif.X86 Verif.Bits

set_option linter.constructorNameAsVariable false

/-! ### Operands -/

/-- Source operand of `n` bytes: the low part of a register, or memory with an alignment. -/
def S.xsrc (s : S) (n align : Nat) : XOp → Option (BitVec (8 * n))
  | .x r => some ((s.vec r).extractLsb' 0 (8 * n))
  | .gp r => some ((s.gp r).extractLsb' 0 (8 * n))
  | .mem o => if (s.ea o).toNat % align = 0 then some (s.mem.read (s.ea o) n) else none

def S.setX (s : S) (r : Fin 16) (v : BitVec 128) : S :=
  { s with vec := fun x => if x = r then v else s.vec x }

/-- Write all lanes of a register. -/
def S.setXs (s : S) (r : Fin 16) (w : Nat) (f : Nat → BitVec w) : S :=
  s.setX r ((ofLanes w (128 / w) f).setWidth 128)

/-- Write the low part of a register and keep the rest. -/
def S.setLow (s : S) (r : Fin 16) {w : Nat} (v : BitVec w) : S :=
  s.setX r (((s.vec r).extractLsb' w (128 - w) ++ v).setWidth 128)

/-- The result lanes as function of the lanes of both operands. -/
def S.packed (s : S) (z : Sz) (d : Fin 16) (o : XOp) {w : Nat}
    (f : (a b : Nat → BitVec z.bits) → Nat → BitVec w) : Option S := do
  let b ← s.xsrc 16 16 o
  return s.setXs d w (f (fun i => lane z.bits (s.vec d) i) (fun i => lane z.bits b i))

/-- The low lane of the result as function of the low lanes of both operands. -/
def S.scalar (s : S) (z : Sz) (d : Fin 16) (o : XOp) (f : (a b : BitVec z.bits) → BitVec z.bits) : Option S := do
  let b ← s.xsrc z.bytes 1 o
  return s.setLow d (f (lane z.bits (s.vec d) 0) b)

/-- Bits `k` to `k + n - 1` of the immediate. -/
def field (imm : BitVec 64) (k n : Nat) : Nat := (imm.extractLsb' k n).toNat

/-! ### Lanes -/

section
variable {w : Nat}

def elBin (op : VBin) (a b : BitVec w) : BitVec w :=
  match op with
  | .add => BitVec.ofInt w (a.toInt + b.toInt)
  | .sub => BitVec.ofInt w (a.toInt - b.toInt)
  | .mul => BitVec.ofInt w (a.toInt * b.toInt)
  | .and => a &&& b
  | .or => a ||| b
  | .xor => a ^^^ b
  | .f op => Fp.arith op a b

/-- The pairs of neighbours in the `n` lanes of `a` followed by the `n` lanes of `b`. -/
def horizontal (n : Nat) (op : BitVec w → BitVec w → BitVec w) (a b : Nat → BitVec w) (i : Nat) : BitVec w :=
  if 2 * i < n then op (a (2 * i)) (a (2 * i + 1)) else op (b (2 * i - n)) (b (2 * i + 1 - n))

/-- All ones if the condition holds. -/
def maskOf (w : Nat) (c : Bool) : BitVec w := if c then BitVec.allOnes w else 0

/-- Nearest number in a range. -/
def clamp (lo hi z : Int) : Int := if z < lo then lo else if hi < z then hi else z

/-- Saturation to `w` bits. -/
def sat (w : Nat) (sgn : Bool) (z : Int) : BitVec w :=
  BitVec.ofInt w (if sgn then clamp (-2 ^ (w - 1)) (2 ^ (w - 1) - 1) z else clamp 0 (2 ^ w - 1) z)

/-- Shift of an element by the 64-bit count `c`. -/
def elShift (k : Shift) (c : Nat) (a : BitVec w) : BitVec w :=
  match k with
  | .shl => if c < w then BitVec.ofNat w (a.toNat * 2 ^ c) else 0
  | .shr => if c < w then BitVec.ofNat w (a.toNat / 2 ^ c) else 0
  | .sar => BitVec.ofInt w (a.toInt / 2 ^ min c (w - 1))

/-- The predicates of CMPPS. -/
def cmpRel (k : Nat) (r : Fp.Rel) : Bool :=
  match k with
  | 0 => r = .eq
  | 1 => r = .lt
  | 2 => r = .lt ∨ r = .eq
  | 3 => r = .un
  | 4 => ¬ r = .eq
  | 5 => ¬ r = .lt
  | 6 => ¬ (r = .lt ∨ r = .eq)
  | _ => ¬ r = .un

/-- MINPS and MAXPS: the second operand unless the first is smaller (greater). -/
def elMinmax (max : Bool) (a b : BitVec w) : BitVec w :=
  if Fp.cmp a b = (if max then .gt else .lt) then a else b

/-- Conversion to integer with truncation; the indefinite integer if it does not fit. -/
def toSi (v : Nat) (a : BitVec w) : BitVec v :=
  match Fp.toInt a with
  | none => BitVec.intMin v
  | some z => if -2 ^ (v - 1) ≤ z ∧ z < 2 ^ (v - 1) then BitVec.ofInt v z else BitVec.intMin v

end

/-! ### Instructions -/

/-- MOVHPS, MOVLHPS, MOVHPD. -/
def S.movhp (s : S) (d o : XOp) : Option S :=
  match d, o with
  | .mem a, .x r => some (s.store (s.ea a) 8 (lane 64 (s.vec r) 1))
  | .x r, .x q => some (s.setXs r 64 fun i => if i = 0 then lane 64 (s.vec r) 0 else lane 64 (s.vec q) 0)
  | .x r, .mem a => some (s.setXs r 64 fun i => if i = 0 then lane 64 (s.vec r) 0 else s.mem.read (s.ea a) 8)
  | _, _ => none

def S.cvt (s : S) (k : Cvt) (d : Fin 16) (o : XOp) : Option S :=
  match k with
  | .dq2pd => do
    let b ← s.xsrc 8 1 o
    return s.setXs d 64 fun i => Fp.ofInt 64 (lane 32 b i).toInt
  | .dq2ps => do
    let b ← s.xsrc 16 16 o
    return s.setXs d 32 fun i => Fp.ofInt 32 (lane 32 b i).toInt
  | .pd2dq => do
    let b ← s.xsrc 16 16 o
    return s.setXs d 32 fun i => if i < 2 then toSi 32 (lane 64 b i) else 0
  | .ps2dq => do
    let b ← s.xsrc 16 16 o
    return s.setXs d 32 fun i => toSi 32 (lane 32 b i)
  | .pd2ps => do
    let b ← s.xsrc 16 16 o
    return s.setXs d 32 fun i => if i < 2 then Fp.conv 32 (lane 64 b i) else 0
  | .ps2pd => do
    let b ← s.xsrc 8 1 o
    return s.setXs d 64 fun i => Fp.conv 64 (lane 32 b i)
  | .sd2ss => do
    let b ← s.xsrc 8 1 o
    return s.setLow d (Fp.conv 32 b)
  | .ss2sd => do
    let b ← s.xsrc 4 1 o
    return s.setLow d (Fp.conv 64 b)

/-- COMISS etc. -/
def S.comis (s : S) (z : Sz) (d : Fin 16) (o : XOp) : Option S := do
  let b ← s.xsrc z.bytes 1 o
  let r := Fp.cmp (lane z.bits (s.vec d) 0) b
  return { s with fl := fun
    | .zf => some (decide (r = .un ∨ r = .eq))
    | .pf => some (decide (r = .un))
    | .cf => some (decide (r = .un ∨ r = .lt))
    | .of | .af | .sf => some false
    | .df => s.fl .df }

/-- INSERTPS. -/
def S.insertps (s : S) (d : Fin 16) (o : XOp) (imm : BitVec 64) : Option S :=
  let put (v : BitVec 32) : S := s.setXs d 32 fun i =>
    if field imm i 1 = 1 then 0 else if i = field imm 4 2 then v else lane 32 (s.vec d) i
  match o with
  | .x r => some (put (lane 32 (s.vec r) (field imm 6 2)))
  | .mem a => some (put (s.mem.read (s.ea a) 4))
  | .gp _ => none

/-- The effect of an SSE instruction. -/
def S.sse (s : S) (i : Sse) : Option S :=
  match i with
  | .movq z d o => do
    let v ← s.xsrc z.bytes 1 o
    match d with
    | .x r => some (s.setX r (v.setWidth 128))
    | .gp r => some (s.setReg r z v)
    | .mem a => some (s.store (s.ea a) z.bytes v)
  | .movs z d o =>
    match d, o with
    | .x r, .x q => some (s.setLow r (lane z.bits (s.vec q) 0))
    | .x r, .mem a => some (s.setX r ((s.mem.read (s.ea a) z.bytes).setWidth 128))
    | .mem a, .x q => some (s.store (s.ea a) z.bytes (lane z.bits (s.vec q) 0))
    | _, _ => none
  | .movdq al d o => do
    let v ← s.xsrc 16 (if al then 16 else 1) o
    match d, o with
    | .x r, .x _ | .x r, .mem _ => some (s.setX r v)
    | .mem a, .x _ => if al = true ∧ (s.ea a).toNat % 16 ≠ 0 then none else some (s.store (s.ea a) 16 v)
    | _, _ => none
  | .movnt a r => if (s.ea a).toNat % 16 ≠ 0 then none else some (s.store (s.ea a) 16 (s.vec r))
  | .movhlps d r => some (s.setLow d (lane 64 (s.vec r) 1))
  | .movlp d o =>
    match d, o with
    | .x r, .mem a => some (s.setLow r (w := 64) (s.mem.read (s.ea a) 8))
    | .mem a, .x r => some (s.store (s.ea a) 8 (lane 64 (s.vec r) 0))
    | _, _ => none
  | .movhp _ d o => s.movhp d o
  | .bin op horz scalar z d o =>
    if scalar then s.scalar z d o (elBin op)
    else if horz then s.packed z d o (horizontal (128 / z.bits) (elBin op))
    else s.packed z d o fun a b i => elBin op (a i) (b i)
  | .addsub z d o => s.packed z d o fun a b i => Fp.arith (if i % 2 = 0 then .sub else .add) (a i) (b i)
  | .andn z d o => s.packed z d o fun a b i => ~~~ (a i) &&& b i
  | .comis z d o => s.comis z d o
  | .cmp scalar z d o imm =>
    let k := field imm 0 8
    if 8 ≤ k then none
    else if scalar then s.scalar z d o fun a b => maskOf z.bits (cmpRel k (Fp.cmp a b))
    else s.packed z d o fun a b i => maskOf z.bits (cmpRel k (Fp.cmp (a i) (b i)))
  | .fminmax max scalar z d o =>
    if scalar then s.scalar z d o (elMinmax max)
    else s.packed z d o fun a b i => elMinmax max (a i) (b i)
  | .sqrt scalar z d o =>
    if scalar then s.scalar z d o fun _ b => Fp.sqrt b
    else s.packed z d o fun _ b i => Fp.sqrt (b i)
  | .cvt k d o => s.cvt k d o
  | .cvttsi z iz d o => do
    let b ← s.xsrc z.bytes 1 o
    return s.setReg d iz (toSi iz.bits b)
  | .cvtsi z iz d o => do
    let b ← s.xsrc iz.bytes 1 o
    return s.setLow d (Fp.ofInt z.bits b.toInt)
  | .unpck hi z d o =>
    s.packed z d o fun a b i => (if i % 2 = 0 then a else b) (i / 2 + (if hi then 64 / z.bits else 0))
  | .shufpd d o imm => s.packed .q d o fun a b i => if i = 0 then a (field imm 0 1) else b (field imm 1 1)
  | .shufps d o imm => s.packed .d d o fun a b i => (if i < 2 then a else b) (field imm (2 * i) 2)
  | .pshufd d o imm => s.packed .d d o fun _ b i => b (field imm (2 * i) 2)
  | .pshufw hi d o imm => s.packed .w d o fun _ b i =>
    if hi then (if i < 4 then b i else b (4 + field imm (2 * (i - 4)) 2))
    else (if i < 4 then b (field imm (2 * i) 2) else b i)
  | .insertps d o imm => s.insertps d o imm
  | .pinsr z d o imm => do
    let v ← s.xsrc z.bytes 1 o
    return s.setXs d z.bits fun i => if i = field imm 0 8 % (128 / z.bits) then v else lane z.bits (s.vec d) i
  | .pextr z d r imm =>
    let v := lane z.bits (s.vec r) (field imm 0 8 % (128 / z.bits))
    match d with
    | .x _ => none
    | .gp q => some (s.setGp q (v.setWidth 64))
    | .mem a => some (s.store (s.ea a) z.bytes v)
  | .movdup odd z d o =>
    match z with
    | .d => s.packed .d d o fun _ b i => b (i / 2 * 2 + (if odd then 1 else 0))
    | .q => if odd then none else do
      let b ← s.xsrc 8 1 o
      return s.setXs d 64 fun _ => b
    | _ => none
  | .pshift k z d c => do
    let c ← match c with
      | .inl o => (s.xsrc 16 16 o).map fun v => (v.extractLsb' 0 64).toNat
      | .inr imm => some (field imm 0 8)
    return s.setXs d z.bits fun i => elShift k c (lane z.bits (s.vec d) i)
  | .pshiftBytes right d imm =>
    let k := field imm 0 8
    let a := lane 8 (s.vec d)
    some (s.setXs d 8 fun i =>
      if right then (if i + k < 16 then a (i + k) else 0) else (if k ≤ i then a (i - k) else 0))
  | .palignr d o imm => s.packed .b d o fun a b i =>
    let j := i + field imm 0 8
    if j < 16 then b j else if j < 32 then a (j - 16) else 0
  | .pavg z d o => s.packed z d o fun a b i => BitVec.ofNat z.bits (((a i).toNat + (b i).toNat + 1) / 2)
  | .pmulh sgn d o =>
    s.packed .w d o fun a b i => BitVec.ofInt 16 (ival sgn (a i) * ival sgn (b i) / 2 ^ 16)
  | .pmuld sgn d o =>
    s.packed .d d o fun a b i => BitVec.ofInt 64 (ival sgn (a (2 * i)) * ival sgn (b (2 * i)))
  | .pmaddwd d o => s.packed .w d o fun a b i => BitVec.ofInt 32
      ((a (2 * i)).toInt * (b (2 * i)).toInt + (a (2 * i + 1)).toInt * (b (2 * i + 1)).toInt)
  | .padds sub sgn horz z d o =>
    let op (x y : BitVec z.bits) := sat z.bits sgn (if sub then ival sgn x - ival sgn y else ival sgn x + ival sgn y)
    if horz then s.packed z d o (horizontal (128 / z.bits) op) else s.packed z d o fun a b i => op (a i) (b i)
  | .psadbw d o => s.packed .b d o fun a b i =>
    if i % 4 = 0 then
      BitVec.ofNat 16 (((List.range 8).map fun j =>
        (((a (2 * i + j)).toNat : Int) - ((b (2 * i + j)).toNat : Int)).natAbs).sum)
    else 0
  | .pmaddubsw d o => s.packed .b d o fun a b i => sat 16 true
      (((a (2 * i)).toNat : Int) * (b (2 * i)).toInt + ((a (2 * i + 1)).toNat : Int) * (b (2 * i + 1)).toInt)
  | .pack sgn z d o =>
    if z = .w ∨ z = .d then
      s.packed z d o fun a b i => sat (z.bits / 2) sgn
        (if i < 128 / z.bits then a i else b (i - 128 / z.bits)).toInt
    else none
  | .pcmp gt z d o => s.packed z d o fun a b i =>
    maskOf z.bits (if gt then decide ((b i).toInt < (a i).toInt) else decide (a i = b i))
  | .pminmax max sgn z d o => s.packed z d o fun a b i => BitVec.ofInt z.bits
      (if max then Max.max (ival sgn (a i)) (ival sgn (b i)) else Min.min (ival sgn (a i)) (ival sgn (b i)))
  | .pabs z d o => s.packed z d o fun _ b i => BitVec.ofNat z.bits (b i).toInt.natAbs
  | .psign z d o => s.packed z d o fun a b i =>
    BitVec.ofInt z.bits (if (b i).toInt < 0 then - (a i).toInt else if (b i).toInt = 0 then 0 else (a i).toInt)
  | .movmsk z _ d r =>
    some (s.setGp d ((ofLanes 1 (128 / z.bits) fun i => BitVec.ofBool (lane z.bits (s.vec r) i).msb).setWidth 64))
  | .pmovx sgn zf zt d o =>
    if zf.bytes < zt.bytes then do
      let b ← s.xsrc (zf.bytes * zt.cnt) 1 o
      return s.setXs d zt.bits fun i => BitVec.ofInt zt.bits (ival sgn (lane zf.bits b i))
    else none
  | .fxsave _ => none
  | .fxrstor a =>
    if (s.ea a).toNat % 16 ≠ 0 then none
    else some { s with vec := fun r => s.mem.read (s.ea a + BitVec.ofNat 64 (160 + 16 * r.val)) 16 }
  | .prefetch _ => some s
  | .fence => some s

end Verif.X86.Spec
