import Verif.A64.Model
import Verif.A64.SimdSpec
import Verif.A64.FpuSpec

/-!
Specification of the AArch64 instructions after the Arm Architecture Reference Manual, independent of
the lifter: an architectural state with plain bit vectors and a partial step function.  It shares with
the model only the instruction datatype, widths, memory and bit-counting vocabulary.

`step = none` stands for a fault, an encoding that does not exist, behaviour that the manual calls
constrained unpredictable, and instructions left unspecified here (SVC, FPCR, FPSR, MIDR_EL1).
Simplifications: no SP alignment check, no address tags; a store-exclusive is specified for the case
that the exclusive monitor still covers the location, where it succeeds.
A flag is `none` if nothing is known about it (see `forget`).
-/

namespace Verif.A64.Spec

set_option linter.constructorNameAsVariable false

open Verif.IR (Mem)
open Verif.A64

/-! ### Flags and conditions -/

/-- Result and flags N, Z, C, V. -/
structure Nzcv where
  n : Bool
  z : Bool
  c : Bool
  v : Bool
  deriving DecidableEq, Repr

def S.setNzcv (s : S) (f : Nzcv) : S :=
  { s with fl := fun | .n => some f.n | .z => some f.z | .c => some f.c | .v => some f.v }

/-- `AddWithCarry`: the result. -/
def awc {w : Nat} (x y : BitVec w) (c : Bool) : BitVec w := BitVec.ofNat w (x.toNat + y.toNat + c.toNat)

/-- `AddWithCarry`: the flags.  C and V tell whether the result differs from the unsigned and the
signed sum. -/
def awcFlags {w : Nat} (x y : BitVec w) (c : Bool) : Nzcv where
  n := (awc x y c).msb
  z := decide (awc x y c = 0#w)
  c := decide (((awc x y c).toNat : Int) ≠ (x.toNat : Int) + y.toNat + c.toNat)
  v := decide ((awc x y c).toInt ≠ x.toInt + y.toInt + c.toNat)

/-- Flags of the logical instructions. -/
def logicFlags {w : Nat} (r : BitVec w) : Nzcv where
  n := r.msb
  z := decide (r = 0#w)
  c := false
  v := false

/-- `ConditionHolds`. -/
def S.cond (s : S) : Cond → Option Bool
  | .eq => s.fl .z
  | .ne => (s.fl .z).map Bool.not
  | .hs => s.fl .c
  | .lo => (s.fl .c).map Bool.not
  | .mi => s.fl .n
  | .pl => (s.fl .n).map Bool.not
  | .vs => s.fl .v
  | .vc => (s.fl .v).map Bool.not
  | .hi => do return (← s.fl .c) && !(← s.fl .z)
  | .ls => do return !(← s.fl .c) || (← s.fl .z)
  | .ge => do return (← s.fl .n) == (← s.fl .v)
  | .lt => do return (← s.fl .n) != (← s.fl .v)
  | .gt => do return !(← s.fl .z) && (← s.fl .n) == (← s.fl .v)
  | .le => do return (← s.fl .z) || (← s.fl .n) != (← s.fl .v)
  | .al => some true
  | .nv => some true

/-- The flag image in a conditional compare, `nzcv`. -/
def immFlags (f : BitVec 4) : Nzcv where
  n := f.getLsbD 3
  z := f.getLsbD 2
  c := f.getLsbD 1
  v := f.getLsbD 0

/-! ### Operands -/

/-- `ShiftReg`; the amount must be smaller than the width. -/
def shiftVal {w : Nat} (x : BitVec w) (n : Nat) : Sh → BitVec w
  | .lsl => BitVec.ofNat w (x.toNat * 2 ^ n)
  | .lsr => BitVec.ofNat w (x.toNat / 2 ^ n)
  | .asr => BitVec.ofInt w (x.toInt / ((2 ^ n : Nat) : Int))
  | .ror => bits w fun i => x.getLsbD ((i + n) % w)

/-- Value of the low `n` bits, unsigned or signed. -/
def lowVal {w : Nat} (x : BitVec w) (n : Nat) (signed : Bool) : Int :=
  if signed then (x.extractLsb' 0 n).toInt else (x.extractLsb' 0 n).toNat

/-- `ExtendReg`: at most the whole register is extended. -/
def extVal {w : Nat} (x : BitVec w) (e : Ext) (shift : Nat) : BitVec w :=
  BitVec.ofInt w (lowVal x (min (8 * e.bytes) w) e.signed * ((2 ^ shift : Nat) : Int))

def S.rhs (s : S) (w : Nat) : Rhs → Option (BitVec w)
  | .imm v => some (v.extractLsb' 0 w)
  | .shifted rm sh a => if a < w then some (shiftVal (s.reg w rm) a sh) else none
  | .ext rm e l => if l ≤ 4 then some (extVal (s.reg w rm) e l) else none

/-! ### Instructions -/

/-- Result and flags of the two-operand instructions. -/
def binVal {w : Nat} (op : BinOp) (x y : BitVec w) : BitVec w × Option Nzcv :=
  match op with
  | .and => (x &&& y, some (logicFlags (x &&& y)))
  | .or => (x ||| y, none)
  | .xor => (x ^^^ y, none)
  | .add => (awc x y false, some (awcFlags x y false))
  | .sub => (awc x (~~~ y) true, some (awcFlags x (~~~ y) true))

def S.binop (s : S) (op : BinOp) (w : Nat) (setFlags invert : Bool) (rd rn : Reg) (rhs : Rhs) : Option S := do
  let y ← s.rhs w rhs
  let y := if invert then ~~~ y else y
  let r := binVal op (s.reg w rn) y
  if setFlags then
    let f ← r.2
    return (s.setReg rd r.1).setNzcv f
  else return s.setReg rd r.1

/-- Bit `i` of the result of a bit-field instruction with destination `d` and source `x`. -/
def bfBit {w : Nat} (k : Bf) (d x : BitVec w) (lsb width i : Nat) : Bool :=
  match k with
  | .sbfiz => if i < lsb then false else if i < lsb + width then x.getLsbD (i - lsb)
      else x.getLsbD (width - 1)
  | .sbfx => if i < width then x.getLsbD (lsb + i) else x.getLsbD (lsb + width - 1)
  | .bfi => if lsb ≤ i ∧ i < lsb + width then x.getLsbD (i - lsb) else d.getLsbD i
  | .bfxil => if i < width then x.getLsbD (lsb + i) else d.getLsbD i
  | .ubfiz => if lsb ≤ i ∧ i < lsb + width then x.getLsbD (i - lsb) else false
  | .ubfx => if i < width then x.getLsbD (lsb + i) else false

/-- A bit field inside the register. -/
def fieldOk (w lsb width : Nat) : Bool := decide (1 ≤ width ∧ lsb + width ≤ w)

/-- Bytes in reversed order within groups of `k` bytes. -/
def revBytes {w : Nat} (k : Nat) (x : BitVec w) : BitVec w :=
  bits w fun i => x.getLsbD (8 * (k * (i / 8 / k) + (k - 1 - i / 8 % k)) + i % 8)

def unaryVal {w : Nat} (k : Unary) (x : BitVec w) : BitVec w :=
  match k with
  | .rbit => bits w fun i => x.getLsbD (w - 1 - i)
  | .rev16 => revBytes 2 x
  | .rev => revBytes (w / 8) x
  | .rev32 => revBytes 4 x
  | .clz => BitVec.ofNat w (Bits.clz x)
  | .cls => BitVec.ofNat w (Bits.clz (x.extractLsb' 1 (w - 1) ^^^ x.extractLsb' 0 (w - 1)))

def divVal {w : Nat} (signed : Bool) (x y : BitVec w) : BitVec w :=
  if y = 0#w then 0#w
  else if signed then BitVec.ofInt w (x.toInt.tdiv y.toInt)
  else BitVec.ofNat w (x.toNat / y.toNat)

def selVal {w : Nat} (k : Sel) (c : Bool) (n m : BitVec w) : BitVec w :=
  match k with
  | .csel => if c then n else m
  | .csinc => if c then n else m + 1
  | .cinc => if c then n + 1 else n
  | .cset => if c then 1 else 0
  | .csinv => if c then n else ~~~ m
  | .cinv => if c then ~~~ n else n
  | .csetm => if c then BitVec.allOnes w else 0
  | .csneg => if c then n else - m
  | .cneg => if c then - n else n

/-! ### Memory -/

/-- A shift in a register offset is 0 or the logarithm of the access size. -/
def lslOk (size lsl : Nat) : Bool := lsl == 0 || 2 ^ lsl == size

/-- Address of an access of `size` bytes and the new value of the base register, if written back. -/
def S.addr (s : S) (size : Nat) (rn : Reg) (mode : AM) : Option (BitVec 64 × Option (BitVec 64)) :=
  match mode with
  | .literal off => some (s.pc + off, none)
  | mode => if rn = .zr then none else
    let base := s.reg 64 rn
    match mode with
    | .simple => some (base, none)
    | .offImm off => some (base + off, none)
    | .offReg rm lsl =>
      if lslOk size lsl then some (base + BitVec.ofNat 64 ((s.reg 64 rm).toNat * 2 ^ lsl), none) else none
    | .offExt rm signed lsl =>
      if lslOk size lsl then
        some (base + BitVec.ofInt 64 (val signed (s.reg 32 rm) * ((2 ^ lsl : Nat) : Int)), none)
      else none
    | .pre imm => some (base + imm, some (base + imm))
    | .post imm => some (base, some (base + imm))
    | .literal _ => none

def S.writeBack (s : S) (rn : Reg) : Option (BitVec 64) → S
  | none => s
  | some v => s.setReg rn v

/-- Loads and stores with memory ordering and exclusive accesses must be aligned. -/
def alignedOk (a : BitVec 64) (n : Nat) (strict : Bool) : Bool := !strict || a.toNat % n == 0

/-- Write-back to a register that is also transferred is constrained unpredictable. -/
def wbOk (wb : Option (BitVec 64)) (rn : Reg) (rts : List Reg) : Bool :=
  wb.isNone || !rts.contains rn

/-- Value of a loaded datum in a register. -/
def loadVal {n : Nat} (w : Nat) (e : Ext) (v : BitVec n) : BitVec w := BitVec.ofInt w (val e.signed v)

def S.ldr (s : S) (w : Nat) (e : Ext) (mode : AM) (mo : Bool) (rt rn : Reg) : Option S := do
  let (a, wb) ← s.addr e.bytes rn mode
  if 8 * e.bytes ≤ w ∧ wbOk wb rn [rt] ∧ alignedOk a e.bytes mo then
    return (s.setReg rt (loadVal w e (s.mem.read a e.bytes))).writeBack rn wb
  else none

def S.ldp (s : S) (w : Nat) (e : Ext) (mode : AM) (mo : Bool) (rt rt2 rn : Reg) : Option S := do
  let (a, wb) ← s.addr e.bytes rn mode
  if 8 * e.bytes ≤ w ∧ wbOk wb rn [rt, rt2] ∧ rt ≠ rt2 ∧ alignedOk a e.bytes mo then
    let v1 := s.mem.read a e.bytes
    let v2 := s.mem.read (a + BitVec.ofNat 64 e.bytes) e.bytes
    return ((s.setReg rt (loadVal w e v1)).setReg rt2 (loadVal w e v2)).writeBack rn wb
  else none

def S.status (s : S) : Option Reg → S
  | none => s
  | some rs => s.setReg rs 0#32

/-- The status register of a store-exclusive differs from the other registers. -/
def statusOk (excl : Option Reg) (rs : List Reg) : Bool :=
  match excl with
  | none => true
  | some r => !rs.contains r

def S.str (s : S) (w : Nat) (e : Ext) (mode : AM) (mo : Bool) (excl : Option Reg) (rt rn : Reg) : Option S := do
  let (a, wb) ← s.addr e.bytes rn mode
  if 8 * e.bytes ≤ w ∧ wbOk wb rn [rt] ∧ alignedOk a e.bytes (mo || excl.isSome) ∧ statusOk excl [rt, rn] then
    let v : BitVec (8 * e.bytes) := (s.reg w rt).extractLsb' 0 (8 * e.bytes)
    return (({ s with mem := s.mem.write a e.bytes v } : S).status excl).writeBack rn wb
  else none

def S.stp (s : S) (w : Nat) (e : Ext) (mode : AM) (mo : Bool) (excl : Option Reg) (rt rt2 rn : Reg) :
    Option S := do
  let (a, wb) ← s.addr e.bytes rn mode
  if 8 * e.bytes ≤ w ∧ wbOk wb rn [rt, rt2] ∧ alignedOk a e.bytes (mo || excl.isSome) ∧
      statusOk excl [rt, rt2, rn] then
    let v1 : BitVec (8 * e.bytes) := (s.reg w rt).extractLsb' 0 (8 * e.bytes)
    let v2 : BitVec (8 * e.bytes) := (s.reg w rt2).extractLsb' 0 (8 * e.bytes)
    let mem := (s.mem.write a e.bytes v1).write (a + BitVec.ofNat 64 e.bytes) e.bytes v2
    return (({ s with mem := mem } : S).status excl).writeBack rn wb
  else none

def S.ldrFp (s : S) (n : Nat) (mode : AM) (rt : Fin 32) (rn : Reg) : Option S := do
  let (a, wb) ← s.addr n rn mode
  return (s.setVec rt (s.mem.read a n)).writeBack rn wb

def S.ldpFp (s : S) (n : Nat) (mode : AM) (rt rt2 : Fin 32) (rn : Reg) : Option S := do
  let (a, wb) ← s.addr n rn mode
  if rt = rt2 then none else
  return ((s.setVec rt (s.mem.read a n)).setVec rt2
    (s.mem.read (a + BitVec.ofNat 64 n) n)).writeBack rn wb

def S.strFp (s : S) (n : Nat) (mode : AM) (rt : Fin 32) (rn : Reg) : Option S := do
  let (a, wb) ← s.addr n rn mode
  return ({ s with mem := s.mem.write a n (s.scalar rt (8 * n)) } : S).writeBack rn wb

def S.stpFp (s : S) (n : Nat) (mode : AM) (rt rt2 : Fin 32) (rn : Reg) : Option S := do
  let (a, wb) ← s.addr n rn mode
  let mem := (s.mem.write a n (s.scalar rt (8 * n))).write (a + BitVec.ofNat 64 n) n
    (s.scalar rt2 (8 * n))
  return ({ s with mem := mem } : S).writeBack rn wb

/-- `FPCompare`. -/
def fpFlags {w : Nat} (x y : BitVec w) : Nzcv :=
  match Fp.cmp x y with
  | .un => ⟨false, false, true, true⟩
  | .eq => ⟨false, true, true, false⟩
  | .lt => ⟨true, false, false, false⟩
  | .gt => ⟨false, false, true, false⟩

/-- Sizes of FMOV between general-purpose and SIMD&FP registers. -/
def fmovOk : Bool → FSz → Bool
  | true, .h | false, .h | true, .s | false, .d => true
  | _, _ => false

/-- NZCV as a register value. -/
def S.nzcv (s : S) : Option (BitVec 64) := do
  return BitVec.ofNat 64 ((← s.fl .n).toNat * 2 ^ 31 + (← s.fl .z).toNat * 2 ^ 30 +
    (← s.fl .c).toNat * 2 ^ 29 + (← s.fl .v).toNat * 2 ^ 28)

/-- Instructions that continue with the next one: the state apart from the PC.  `s.pc` is the
address of the instruction. -/
def S.plain (s : S) : Instr → Option S
  | .adr rd off => some (s.setReg rd (s.pc + off))
  | .adrp rd off => some (s.setReg rd (BitVec.ofNat 64 (s.pc.toNat / 4096 * 4096) + off))
  | .bin op w32 sf inv rd rn rhs => s.binop op (W w32) sf inv rd rn rhs
  | .movk w32 rd imm lsl =>
    if lsl % 16 = 0 ∧ lsl < W w32 then
      some (s.setReg rd (bits (W w32) fun i =>
        if lsl ≤ i ∧ i < lsl + 16 then imm.getLsbD (i - lsl) else (s.reg (W w32) rd).getLsbD i))
    else none
  | .movImm w32 rd imm => some (s.setReg rd (imm.extractLsb' 0 (W w32)))
  | .movReg w32 rd rm => some (s.setReg rd (s.reg (W w32) rm))
  | .shiftImm sh w32 rd rn a =>
    if a < W w32 then some (s.setReg rd (shiftVal (s.reg (W w32) rn) a sh)) else none
  | .bf k w32 rd rn lsb width =>
    if fieldOk (W w32) lsb width then
      some (s.setReg rd (bits (W w32) (bfBit k (s.reg (W w32) rd) (s.reg (W w32) rn) lsb width)))
    else none
  | .bfc w32 rd lsb width =>
    if fieldOk (W w32) lsb width then
      some (s.setReg rd (bits (W w32) fun i =>
        if lsb ≤ i ∧ i < lsb + width then false else (s.reg (W w32) rd).getLsbD i))
    else none
  | .extend w32 rd rn e =>
    if 8 * e.bytes ≤ W w32 then some (s.setReg rd (extVal (s.reg (W w32) rn) e 0)) else none
  | .extr w32 rd rn rm lsb =>
    if lsb < W w32 then
      some (s.setReg rd (bits (W w32) fun i =>
        if i + lsb < W w32 then (s.reg (W w32) rm).getLsbD (i + lsb)
        else (s.reg (W w32) rn).getLsbD (i + lsb - W w32)))
    else none
  | .hint => some s
  | .dmb _ => some s
  | .msr .tpidr rt => some { s with tpidr := s.reg 64 rt }
  | .msr .nzcv rt => some (s.setNzcv ⟨(s.reg 64 rt).getLsbD 31, (s.reg 64 rt).getLsbD 30,
      (s.reg 64 rt).getLsbD 29, (s.reg 64 rt).getLsbD 28⟩)
  | .mrs .tpidr rt => some (s.setReg rt s.tpidr)
  | .mrs .nzcv rt => do return s.setReg rt (← s.nzcv)
  | .mrs .dczid rt => some (s.setReg rt 4#64)
  | .cfinv => do
    let c ← s.fl .c
    return { s with fl := fun f => if f = .c then some !c else s.fl f }
  | .dczva rt => some { s with mem := fun a =>
      if a.toNat / 64 = (s.reg 64 rt).toNat / 64 then 0 else s.mem a }
  | .div signed w32 rd rn rm =>
    some (s.setReg rd (divVal signed (s.reg (W w32) rn) (s.reg (W w32) rm)))
  | .shiftReg sh w32 rd rn rm =>
    some (s.setReg rd (shiftVal (s.reg (W w32) rn) ((s.reg (W w32) rm).toNat % W w32) sh))
  | .unary k w32 rd rn =>
    if k = .rev32 ∧ w32 = true then none
    else some (s.setReg rd (unaryVal k (s.reg (W w32) rn)))
  | .adc sub w32 sf rd rn rm => do
    let c ← s.fl .c
    let x := s.reg (W w32) rn
    let y := if sub then ~~~ s.reg (W w32) rm else s.reg (W w32) rm
    let s' := s.setReg rd (awc x y c)
    return if sf then s'.setNzcv (awcFlags x y c) else s'
  | .ccmp ccmn w32 rn rhs c nzcv => do
    let x := s.reg (W w32) rn
    let y : BitVec (W w32) := match rhs with
      | .reg rm => s.reg (W w32) rm
      | .imm v => BitVec.ofNat _ v.toNat
    let c ← s.cond c
    return s.setNzcv (if c then (if ccmn then awcFlags x y false else awcFlags x (~~~ y) true)
      else immFlags nzcv)
  | .csel k w32 rd rn rm c => do
    return s.setReg rd (selVal k (← s.cond c) (s.reg (W w32) rn) (s.reg (W w32) rm))
  | .mul w32 rd rn rm =>
    some (s.setReg rd (BitVec.ofNat (W w32) ((s.reg (W w32) rn).toNat * (s.reg (W w32) rm).toNat)))
  | .madd sub w32 rd rn rm ra =>
    let p := (s.reg (W w32) rn).toInt * (s.reg (W w32) rm).toInt
    let a := (s.reg (W w32) ra).toInt
    some (s.setReg rd (BitVec.ofInt (W w32) (if sub then a - p else a + p)))
  | .maddl sub signed rd rn rm ra =>
    let p := val signed (s.reg 32 rn) * val signed (s.reg 32 rm)
    let a := val signed (s.reg 64 ra)
    some (s.setReg rd (BitVec.ofInt 64 (if sub then a - p else a + p)))
  | .mulh signed rd rn rm =>
    some (s.setReg rd (BitVec.ofInt 64 (val signed (s.reg 64 rn) * val signed (s.reg 64 rm) / 2 ^ 64)))
  | .ldr w32 e mode mo rt rn => s.ldr (W w32) e mode mo rt rn
  | .ldp w32 e mode mo rt rt2 rn => s.ldp (W w32) e mode mo rt rt2 rn
  | .str w32 e mode mo excl rt rn => s.str (W w32) e mode mo excl rt rn
  | .stp w32 e mode mo excl rt rt2 rn => s.stp (W w32) e mode mo excl rt rt2 rn
  | .prfm _ mode _ => match mode with
    | .pre _ | .post _ => none
    | _ => some s
  | .ldrFp sz mode rt rn => s.ldrFp sz.bytes mode rt rn
  | .ldpFp sz mode rt rt2 rn => s.ldpFp sz.bytes mode rt rt2 rn
  | .strFp sz mode rt rn => s.strFp sz.bytes mode rt rn
  | .stpFp sz mode rt rt2 rn => s.stpFp sz.bytes mode rt rt2 rn
  | .fcmp sz rn rm => do
    let w ← FSz.bits sz
    let y := match rm with
      | some r => s.scalar r w
      | none => 0
    return s.setNzcv (fpFlags (s.scalar rn w) y)
  | .fccmp sz rn rm c nzcv => do
    let w ← FSz.bits sz
    let c ← s.cond c
    return s.setNzcv (if c then fpFlags (s.scalar rn w) (s.scalar rm w) else immFlags nzcv)
  | .fcsel sz rd rn rm c => do
    let c ← s.cond c
    return s.setVec rd (s.scalar (if c then rn else rm) (8 * sz.bytes))
  | .fmovToGp w32 sz rd rn =>
    if fmovOk w32 sz then some (s.setReg rd (s.scalar rn (8 * sz.bytes))) else none
  | .fmovFromGp w32 sz rd rn =>
    if fmovOk w32 sz then some (s.setVec rd ((s.reg 64 rn).extractLsb' 0 (8 * sz.bytes))) else none
  | .fmovTopToGp w32 rd rn =>
    if w32 then none else some (s.setReg rd ((s.vec rn).extractLsb' 64 64))
  | .fmovGpToTop rd rn =>
    some (s.setVec rd (s.reg 64 rn ++ (s.vec rd).extractLsb' 0 64))
  | .fmovReg sz rd rn => some (s.setVec rd (s.scalar rn (8 * sz.bytes)))
  | .fabs sz rd rn => do
    let w ← FSz.bits sz
    return s.setVec rd (bits w fun i => i != w - 1 && (s.scalar rn w).getLsbD i)
  | .fneg sz rd rn => do
    let w ← FSz.bits sz
    return s.setVec rd (bits w fun i => (i == w - 1) ^^ (s.scalar rn w).getLsbD i)
  | .simd i => s.simd i
  | .fpu i => s.fpu i
  | _ => none

/-- Branches: target if taken, link register. -/
def S.branch (s : S) (len : Nat) : Instr → Option S
  | .bcond c off => do
    return { s with pc := if ← s.cond c then s.pc + off else s.pc + BitVec.ofNat 64 len }
  | .b off => some { s with pc := s.pc + off }
  | .br rn => some { s with pc := s.reg 64 rn }
  | .bl off => some { s.setReg (.x 30) (s.pc + BitVec.ofNat 64 len) with pc := s.pc + off }
  | .blr rn => some { s.setReg (.x 30) (s.pc + BitVec.ofNat 64 len) with pc := s.reg 64 rn }
  | .ret rn => some { s with pc := s.reg 64 rn }
  | .cbz nz w32 rt off =>
    some { s with pc := if (s.reg (W w32) rt == 0) != nz then s.pc + off
      else s.pc + BitVec.ofNat 64 len }
  | .tbz nz w32 rt bit off =>
    if bit < W w32 then
      some { s with pc := if (s.reg (W w32) rt).getLsbD bit == nz then s.pc + off
        else s.pc + BitVec.ofNat 64 len }
    else none
  | _ => none

/-- One instruction of `len` bytes at `s.pc`. -/
def step (i : Instr) (len : Nat) (s : S) : Option S :=
  match s.plain i with
  | some s' => some { s' with pc := s.pc + BitVec.ofNat 64 len }
  | none => s.branch len i

/-- Nothing is known any more about the flags in `fs`. -/
def S.forget (s : S) (fs : Flag → Bool) : S :=
  { s with fl := fun f => if fs f then none else s.fl f }

/-! ### Relation to the state of the lifted code -/

/-- `m` represents `s`; `slide` is the difference between run-time and link-time addresses. -/
structure Rel (slide : BitVec 64) (m : St) (s : S) : Prop where
  gp : ∀ r : Fin 31, m.gp ⟨r.val, by omega⟩ = some (s.x r)
  sp : m.gp 31 = some s.sp
  vec : ∀ r, m.vec r = some (s.vec r)
  tpidr : m.tpidr = some s.tpidr
  mem : m.mem = s.mem.toV
  pc : m.pc.val slide = some s.pc
  fl : ∀ f b, s.fl f = some b → m.fl f = some (BitVec.ofBool b)

/-- The code emitted for `i` takes every representation of `s` to a representation of `s'`, whatever
the load address. -/
def Simulates (cfg : Cfg) (slide : BitVec 64) (i : Instr) (len : Nat) (s s' : S) : Prop :=
  ∀ (start : BitVec 64) (m : St), Rel slide m s → s.pc = start + slide →
    ∃ m', lift cfg slide i start len m = some { st := m' } ∧ Rel slide m' s'

end Verif.A64.Spec
