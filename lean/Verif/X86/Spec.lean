import Verif.X86.Model
import Verif.X86.SseSpec

/-!
Specification of the general-purpose x86-64 instructions after the Intel SDM (volume 2), independent
of the lifter: an architectural state with plain bit vectors and a partial step function.  It shares
with the model only the instruction datatype, sizes and bit-counting vocabulary.

A flag that the SDM leaves undefined is `none`, and an instruction whose result depends on an
undefined flag has no specified result (`step = none`).  `step = none` also stands for a fault.
-/

namespace Verif.X86.Spec

set_option linter.constructorNameAsVariable false

open Verif.IR (Mem)
open Verif.X86

/-! ### Flags -/

/-- Parity flag: even number of ones in the low byte. -/
def parity {w : Nat} (r : BitVec w) : Bool := decide (Bits.popcount (r.setWidth 8) % 2 = 0)

/-- ZF, SF and PF from a result; the other status flags as given. -/
def S.resFl (s : S) {w : Nat} (r : BitVec w) (cf of af : Option Bool) : S :=
  { s with fl := fun
    | .cf => cf
    | .of => of
    | .af => af
    | .zf => some (decide (r = 0#w))
    | .sf => some r.msb
    | .pf => some (parity r)
    | .df => s.fl .df }

/-- All status flags as given. -/
def S.setFl (s : S) (of sf zf af pf cf : Option Bool) : S :=
  { s with fl := fun
    | .of => of | .sf => sf | .zf => zf | .af => af | .pf => pf | .cf => cf | .df => s.fl .df }

/-- Not a `w`-bit signed number. -/
def sOver (w : Nat) (x : Int) : Bool := decide (x < -2 ^ (w - 1) ∨ 2 ^ (w - 1) ≤ x)

def addCf {w : Nat} (a b : BitVec w) (c : Bool) : Bool := decide (2 ^ w ≤ a.toNat + b.toNat + c.toNat)
def addOf {w : Nat} (a b : BitVec w) (c : Bool) : Bool := sOver w (a.toInt + b.toInt + c.toInt)
def addAf {w : Nat} (a b : BitVec w) (c : Bool) : Bool :=
  decide (16 ≤ a.toNat % 16 + b.toNat % 16 + c.toNat)
def subCf {w : Nat} (a b : BitVec w) (c : Bool) : Bool := decide (a.toNat < b.toNat + c.toNat)
def subOf {w : Nat} (a b : BitVec w) (c : Bool) : Bool := sOver w (a.toInt - b.toInt - c.toInt)
def subAf {w : Nat} (a b : BitVec w) (c : Bool) : Bool :=
  decide (a.toNat % 16 < b.toNat % 16 + c.toNat)

/-- `a + b + c` with flags. -/
def S.addFl (s : S) {w : Nat} (a b : BitVec w) (c : Bool) : S :=
  s.resFl (a + b + BitVec.ofNat w c.toNat) (some (addCf a b c)) (some (addOf a b c))
    (some (addAf a b c))

/-- `a - b - c` with flags. -/
def S.subFl (s : S) {w : Nat} (a b : BitVec w) (c : Bool) : S :=
  s.resFl (a - b - BitVec.ofNat w c.toNat) (some (subCf a b c)) (some (subOf a b c))
    (some (subAf a b c))

/-- The conditions of Jcc, SETcc, CMOVcc. -/
def S.cond (s : S) : Cond → Option Bool
  | .o => s.fl .of
  | .no => (s.fl .of).map Bool.not
  | .c => s.fl .cf
  | .nc => (s.fl .cf).map Bool.not
  | .z => s.fl .zf
  | .nz => (s.fl .zf).map Bool.not
  | .be => do return (← s.fl .cf) || (← s.fl .zf)
  | .a => do return !(← s.fl .cf) && !(← s.fl .zf)
  | .s => s.fl .sf
  | .ns => (s.fl .sf).map Bool.not
  | .p => s.fl .pf
  | .np => (s.fl .pf).map Bool.not
  | .l => do return (← s.fl .sf) != (← s.fl .of)
  | .ge => do return (← s.fl .sf) == (← s.fl .of)
  | .le => do return (← s.fl .zf) || ((← s.fl .sf) != (← s.fl .of))
  | .g => do return !(← s.fl .zf) && ((← s.fl .sf) == (← s.fl .of))

/-- RFLAGS as pushed by PUSHF in user mode: bit 1 and IF are set, all other system flags clear. -/
def S.rflags (s : S) : Option (BitVec 64) := do
  let cf ← s.fl .cf
  let pf ← s.fl .pf
  let af ← s.fl .af
  let zf ← s.fl .zf
  let sf ← s.fl .sf
  let df ← s.fl .df
  let of ← s.fl .of
  return BitVec.ofBool of ++ BitVec.ofBool df ++ 1#1 ++ 0#1 ++ BitVec.ofBool sf ++ BitVec.ofBool zf
    ++ 0#1 ++ BitVec.ofBool af ++ 0#1 ++ BitVec.ofBool pf ++ 1#1 ++ BitVec.ofBool cf
    |>.setWidth 64

/-- Loading flags from an image of at least 12 bits (POPF). -/
def S.setRflags (s : S) {w : Nat} (v : BitVec w) : S :=
  { s with fl := fun
    | .cf => some (v.getLsbD 0)
    | .pf => some (v.getLsbD 2)
    | .af => some (v.getLsbD 4)
    | .zf => some (v.getLsbD 6)
    | .sf => some (v.getLsbD 7)
    | .df => some (v.getLsbD 10)
    | .of => some (v.getLsbD 11) }

/-! ### Arithmetic -/

def stepArith (s : S) (k : Arith) (z : Sz) (d r : Op) : Option S := do
  let a ← s.read z d
  let b ← s.read z r
  match k with
  | .add => (← s.write z d (a + b)).addFl a b false
  | .adc =>
    let c ← s.fl .cf
    (← s.write z d (a + b + BitVec.ofNat _ c.toNat)).addFl a b c
  | .sub => (← s.write z d (a - b)).subFl a b false
  | .sbb =>
    let c ← s.fl .cf
    (← s.write z d (a - b - BitVec.ofNat _ c.toNat)).subFl a b c
  | .cmp => s.subFl a b false
  | .xadd =>
    -- TEMP := SRC + DEST; SRC := DEST; DEST := TEMP
    let s1 ← s.writeAt s z r a
    (← s1.writeAt s z d (a + b)).addFl a b false

/-- Write an operand if the condition holds. -/
def S.writeIf (s : S) (c : Bool) (z : Sz) (d : Op) (v : BitVec z.bits) : Option S :=
  if c then s.write z d v else some s

def stepLogic (s : S) (k : Logic) (z : Sz) (d r : Op) : Option S := do
  let a ← s.read z d
  let b ← s.read z r
  let v := match k with
    | .and | .test => a &&& b
    | .or => a ||| b
    | .xor => a ^^^ b
  let s ← s.writeIf (k ≠ .test) z d v
  s.resFl v (some false) (some false) none

/-- CMPXCHG: compare the accumulator with the destination; store the source if equal, otherwise load
the destination into the accumulator and write it back. -/
def stepCmpxchg (s : S) (z : Sz) (d r : Op) : Option S := do
  let acc := s.reg rax z
  let a ← s.read z d
  let b ← s.read z r
  let s := s.subFl acc a false
  if acc = a then s.write z d b
  else (s.setReg rax z a).writeAt s z d a

/-! ### Shifts -/

/-- Masked shift count. -/
def count (z : Sz) (c : BitVec 8) : Nat := if z = .q then c.toNat % 64 else c.toNat % 32

/-- With a count of 0 the flags keep their values, and the destination its value; as with all 32-bit operations, the upper half of a
32-bit destination register is cleared. -/
def stepShift (s : S) (k : Shift) (z : Sz) (d cnt : Op) : Option S := do
  let a ← s.read z d
  let c := count z (← s.read .b cnt)
  if c = 0 then s.write z d a else
  let v := match k with
    | .shl => a <<< c
    | .shr => a >>> c
    | .sar => a.sshiftRight c
  -- the last bit shifted out
  let cf := match k with
    | .shl => if c < z.bits then some (a.getLsbD (z.bits - c)) else none
    | .shr => if c < z.bits then some (a.getLsbD (c - 1)) else none
    | .sar => some ((a.sshiftRight (c - 1)).getLsbD 0)
  let of := if c = 1 then match k with
      | .shl => some (v.msb ^^ a.msb)
      | .shr => some a.msb
      | .sar => some false
    else none
  return (← s.write z d v).resFl v cf of none

/-- SHLD, SHRD for counts up to the operand size (otherwise undefined); with a count of 0 there is no operation. -/
def stepShiftd (s : S) (left : Bool) (z : Sz) (d r cnt : Op) : Option S := do
  let a ← s.read z d
  let b ← s.read z r
  let c := count z (← s.read .b cnt)
  if c = 0 then some s else if z.bits < c then none else
  let v := if left then a <<< c ||| b >>> (z.bits - c) else a >>> c ||| b <<< (z.bits - c)
  let cf := if left then a.getLsbD (z.bits - c) else a.getLsbD (c - 1)
  let of := if c = 1 then some (v.msb ^^ a.msb) else none
  return (← s.write z d v).resFl v (some cf) of none

def stepRotate (s : S) (left : Bool) (z : Sz) (d cnt : Op) : Option S := do
  let a ← s.read z d
  let c := count z (← s.read .b cnt)
  if c = 0 then s.write z d a else
  let v := if left then a.rotateLeft c else a.rotateRight c
  let s ← s.write z d v
  let cf := if left then v.getLsbD 0 else v.msb
  let of := if c = 1 then
      some (if left then v.msb ^^ cf else v.msb ^^ v.getLsbD (z.bits - 2))
    else none
  return { s with fl := fun
    | .cf => some cf
    | .of => of
    | f => s.fl f }

/-! ### Multiplication and division -/

/-- Writing a double-width result to AX, DX:AX, EDX:EAX or RDX:RAX, given as an integer. -/
def S.setPair (s : S) (z : Sz) (x : Int) : S :=
  match z with
  | .b => s.setReg rax .w (BitVec.ofInt 16 x)
  | z => (s.setReg rax z (BitVec.ofInt _ x)).setReg rdx z (BitVec.ofInt _ (x / 2 ^ z.bits))

/-- The number a bit vector stands for. -/
def num (signed : Bool) {w : Nat} (x : BitVec w) : Int := if signed then x.toInt else x.toNat

/-- Whether `x` fits `w` bits. -/
def fits (signed : Bool) (w : Nat) (x : Int) : Bool :=
  if signed then !sOver w x else decide (0 ≤ x ∧ x < 2 ^ w)

def stepMul1 (s : S) (signed : Bool) (z : Sz) (r : Op) : Option S := do
  let b ← s.read z r
  let p := num signed b * num signed (s.reg rax z)
  let o := !fits signed z.bits p
  return (s.setPair z p).setFl (some o) none none none none (some o)

def stepImul2 (s : S) (z : Sz) (d r t : Op) : Option S := do
  let p := num true (← s.read z r) * num true (← s.read z t)
  let o := !fits true z.bits p
  return (← s.write z d (BitVec.ofInt _ p)).setFl (some o) none none none none (some o)

/-- The dividend: AX, DX:AX, EDX:EAX or RDX:RAX. -/
def S.dividend (s : S) (signed : Bool) : Sz → Int
  | .b => num signed (s.reg rax .w)
  | z => num signed (s.reg rdx z) * 2 ^ z.bits + (s.reg rax z).toNat

/-- The remainder is in AH, DX, EDX or RDX. -/
def S.setRem (s : S) : (z : Sz) → BitVec z.bits → S
  | .b, v => s.setRegH 0 v
  | z, v => s.setReg rdx z v

def stepDiv (s : S) (signed : Bool) (z : Sz) (r : Op) : Option S := do
  let v := num signed (← s.read z r)
  let x := s.dividend signed z
  -- #DE
  if v = 0 ∨ fits signed z.bits (x.tdiv v) = false then none else
  let q := BitVec.ofInt z.bits (x.tdiv v)
  let m := x.tmod v
  let s := (s.setReg rax z q).setRem z (BitVec.ofInt _ m)
  return s.setFl none none none none none none

/-! ### Bit operations -/

def stepBitscan (s : S) (trailing cnt : Bool) (z : Sz) (d r : Op) : Option S := do
  let a ← s.read z r
  let idx := if trailing then Bits.ctz a else if cnt then Bits.clz a else z.bits - 1 - Bits.clz a
  if cnt then
    -- TZCNT, LZCNT
    return (← s.write z d (BitVec.ofNat _ idx)).setFl none none (some (decide (idx = 0))) none none
      (some (decide (a = 0)))
  else
    -- BSF, BSR: a zero source leaves the destination unchanged
    let s ← s.writeIf (a ≠ 0) z d (BitVec.ofNat _ idx)
    return s.setFl none none (some (decide (a = 0))) none none none

/-- The word holding the addressed bit: for a memory operand with a register index, the operand
address is displaced by the signed index divided by the operand size. -/
def bitAddr (s : S) (z : Sz) (o : MemOp) (r : Op) (i : BitVec z.bits) : BitVec 64 :=
  match r with
  | .imm _ => s.ea o
  | _ => s.ea o + BitVec.ofInt 64 (i.toInt / z.bits * z.bytes)

/-- The value of the word after the operation on its bit `n`. -/
def bitUpd (k : BitOp) {w : Nat} (a : BitVec w) (n : Nat) : BitVec w :=
  match k with
  | .bt => a
  | .btc => a ^^^ BitVec.ofNat _ (2 ^ n)
  | .btr => a &&& ~~~ BitVec.ofNat _ (2 ^ n)
  | .bts => a ||| BitVec.ofNat _ (2 ^ n)

def stepBittest (s : S) (k : BitOp) (z : Sz) (d r : Op) : Option S :=
  if z = .b then none else do
  let i ← s.read z r
  let n := i.toNat % z.bits
  match d with
  | .mem o =>
    let ad := bitAddr s z o r i
    let a : BitVec z.bits := s.mem.read ad z.bytes
    let s := if k = .bt then s else s.store ad z.bytes (bitUpd k a n)
    return s.setFl none none (s.fl .zf) none none (some (a.getLsbD n))
  | d =>
    let a ← s.read z d
    let s ← s.writeIf (k ≠ .bt) z d (bitUpd k a n)
    return s.setFl none none (s.fl .zf) none none (some (a.getLsbD n))

/-! ### Stack -/

def S.push (s : S) (z : Sz) (v : BitVec z.bits) : S :=
  let sp := s.gp rsp - BitVec.ofNat 64 z.bytes
  (s.store sp z.bytes v).setGp rsp sp

def S.pop (s : S) (z : Sz) : BitVec z.bits × S :=
  (s.mem.read (s.gp rsp) z.bytes, s.setGp rsp (s.gp rsp + BitVec.ofNat 64 z.bytes))

/-! ### String instructions -/

/-- Address in a string register with the given address size. -/
def S.ptr (s : S) (a32 : Bool) (r : Fin 16) : BitVec 64 :=
  if a32 then (s.reg r .d).setWidth 64 else s.gp r

/-- Advance a string register by one element in the direction given by DF. -/
def S.advance (s : S) (a32 : Bool) (r : Fin 16) (z : Sz) (df : Bool) : S :=
  let p := s.ptr a32 r
  let p := if df then p - BitVec.ofNat 64 z.bytes else p + BitVec.ofNat 64 z.bytes
  if a32 then s.setReg r .d (p.extractLsb' 0 32) else s.setGp r p

/-- One execution of a string instruction without prefix. -/
def strStep (s : S) (k : Str) (z : Sz) (a32 : Bool) (seg : Seg) : Option S := do
  let df ← s.fl .df
  let src := s.segBase seg + s.ptr a32 rsi
  let dst := s.ptr a32 rdi
  let ax := s.reg rax z
  match k with
  | .lods => some ((s.setReg rax z (s.mem.read src z.bytes)).advance a32 rsi z df)
  | .stos => some ((s.store dst z.bytes ax).advance a32 rdi z df)
  | .movs =>
    some (((s.store dst z.bytes (s.mem.read src z.bytes)).advance a32 rdi z df).advance a32 rsi z df)
  | .scas =>
    some ((s.subFl ax (s.mem.read dst z.bytes) false).advance a32 rdi z df)
  | .cmps =>
    let a : BitVec z.bits := s.mem.read src z.bytes
    let b : BitVec z.bits := s.mem.read dst z.bytes
    some (((s.subFl a b false).advance a32 rdi z df).advance a32 rsi z df)

/-- The comparing instructions stop when ZF is clear (REPZ) or set (REPNZ). -/
def repStop (s : S) (k : Str) (rep : Rep) : Option Bool :=
  match k, rep with
  | .scas, .rep => (s.fl .zf).map Bool.not
  | .cmps, .rep => (s.fl .zf).map Bool.not
  | .scas, .repnz => s.fl .zf
  | .cmps, .repnz => s.fl .zf
  | _, _ => some false

/-- `REP`, `REPZ`, `REPNZ`: the SDM's loop, for at most `fuel` iterations. -/
def repStep (k : Str) (z : Sz) (rep : Rep) (a32 : Bool) (seg : Seg) : Nat → S → Option S
  | fuel, s =>
    let c := s.ptr a32 rcx
    if c = 0 then some s else
    match fuel with
    | 0 => none
    | fuel + 1 => do
      let s ← strStep s k z a32 seg
      let s := if a32 then s.setReg rcx .d ((c - 1).extractLsb' 0 32) else s.setGp rcx (c - 1)
      let stop ← repStop s k rep
      if stop then some s else repStep k z rep a32 seg fuel s

/-- A string instruction with its prefix; REPNZ is only defined for the comparing ones. -/
def stepStr (s : S) (k : Str) (z : Sz) (rep : Rep) (a32 : Bool) (seg : Seg) : Option S :=
  match rep with
  | .none => strStep s k z a32 seg
  | rep => if rep = .repnz ∧ k.isCmp = false then none else repStep k z rep a32 seg (s.ptr a32 rcx).toNat s

/-- The condition of LOOP, LOOPZ, LOOPNZ besides the counter. -/
def loopGo (s : S) : LoopKind → Option Bool
  | .loop => some true
  | .loopz => s.fl .zf
  | .loopnz => (s.fl .zf).map Bool.not

/-- Bytes of a bit vector in reverse order. -/
def byteRev {n : Nat} (x : BitVec (8 * n)) : BitVec (8 * n) :=
  Bits.ofLanes 8 n (fun i => Bits.lane 8 x (n - 1 - i))

/-- The counter of LOOP and JCXZ: ECX or RCX, by address size (Intel SDM volume 2). -/
def cxSz : Bool → Sz
  | true => .d
  | false => .q

/-- What CBW, CWDE and CDQE extend: AL, AX, EAX (Intel SDM volume 2). -/
def extSz : Sz → Sz
  | .q => .d
  | .d => .w
  | .w | .b => .b

/-- The effect of an instruction; `s.ip` already is the address of the next instruction. -/
def exec (s : S) : Instr → Option S
  | .nop => some s
  | .sse i => s.sse i
  | .mov z sz d r => do s.write z d ((← s.read sz r).signExtend z.bits)
  | .movzx z sz d r => do s.write z d ((← s.read sz r).setWidth z.bits)
  | .movbe z d r => do s.write z d (byteRev (← s.read z r))
  | .bswap z d => do s.write z d (byteRev (← s.read z d))
  | .arith k z _ d r => stepArith s k z d r
  | .cmpxchg z _ d r => stepCmpxchg s z d r
  | .xchg z d r => do
    let a ← s.read z d
    let b ← s.read z r
    (← s.writeAt s z d b).writeAt s z r a
  | .logic k z _ d r => stepLogic s k z d r
  | .not z _ d => do s.write z d (~~~ (← s.read z d))
  | .neg z _ d => do
    let a ← s.read z d
    return (← s.write z d (-a)).subFl 0 a false
  | .incdec dec z _ d => do
    let a ← s.read z d
    let one : BitVec z.bits := BitVec.ofNat _ 1
    if dec then
      return (← s.write z d (a - one)).resFl (a - one) (s.fl .cf) (some (subOf a one false))
        (some (subAf a one false))
    else
      return (← s.write z d (a + one)).resFl (a + one) (s.fl .cf) (some (addOf a one false))
        (some (addAf a one false))
  | .shift k z d c => stepShift s k z d c
  | .shiftd left z d r c => stepShiftd s left z d r c
  | .rotate left z d c => stepRotate s left z d c
  | .mul1 signed z r => stepMul1 s signed z r
  | .imul2 z d r t => stepImul2 s z d r t
  | .div signed z r _ => stepDiv s signed z r
  | .lea z d o => s.write z d ((s.offset o).setWidth z.bits)
  | .xlat a32 seg =>
    let off := s.gp rbx + (s.reg rax .b).setWidth 64
    let off := if a32 then (off.extractLsb' 0 32).setWidth 64 else off
    some (s.setReg rax .b (s.mem (s.segBase seg + off)))
  | .cmov c z d r => do
    let a ← s.read z d
    let b ← s.read z r
    s.write z d (if ← s.cond c then b else a)
  | .setcc c d => do s.write .b d (BitVec.ofNat 8 (← s.cond c).toNat)
  | .cext z => some (s.setReg rax z ((s.reg rax (extSz z)).signExtend z.bits))
  | .csep z => some (s.setReg rdx z (if (s.reg rax z).msb then BitVec.allOnes _ else 0))
  | .bitscan trailing cnt z d r => stepBitscan s trailing cnt z d r
  | .popcnt z d r => do
    let a ← s.read z r
    return (← s.write z d (BitVec.ofNat _ (Bits.popcount a))).setFl (some false) (some false)
      (some (decide (a = 0))) (some false) (some false) (some false)
  | .bittest k z _ d r => stepBittest s k z d r
  | .jmpRel off => some { s with ip := s.ip + off }
  | .jmp r => do return { s with ip := ← s.read .q r }
  | .jcc c off => do return { s with ip := if ← s.cond c then s.ip + off else s.ip }
  | .jcxz a32 off => some { s with ip := if s.reg rcx (cxSz a32) = 0 then s.ip + off else s.ip }
  | .loop k a32 off => do
    let c := s.reg rcx (cxSz a32) - BitVec.ofNat _ 1
    let go ← loopGo s k
    return { s.setReg rcx (cxSz a32) c with ip := if c ≠ 0 ∧ go = true then s.ip + off else s.ip }
  | .callRel off => some { s.push .q s.ip with ip := s.ip + off }
  | .call r => do
    let t ← s.read .q r
    return { s.push .q s.ip with ip := t }
  | .ret pop =>
    let (t, s) := s.pop .q
    some { s.setGp rsp (s.gp rsp + pop.getD 0) with ip := t }
  | .push z r => do return s.push z (← s.read z r)
  | .pop z d =>
    let (v, s) := s.pop z
    s.write z d v
  | .pushf z => do return s.push z ((← s.rflags).setWidth z.bits)
  | .popf z =>
    let (v, s) := s.pop z
    some (s.setRflags v)
  | .leave =>
    let (v, s) := (s.setGp rsp (s.gp rbp)).pop .q
    some (s.setGp rbp v)
  | .lahf => do return s.setRegH 0 ((← ({ s with fl := fun
      | .df => some false
      | .of => some false
      | f => s.fl f }).rflags).setWidth 8)
  | .sahf =>
    let s' := s.setRflags (s.regH 0)
    some { s' with fl := fun
      | .df => s.fl .df
      | .of => s.fl .of
      | f => s'.fl f }
  | .clc => some { s with fl := fun f => if f = .cf then some false else s.fl f }
  | .stc => some { s with fl := fun f => if f = .cf then some true else s.fl f }
  | .cmc => some { s with fl := fun f => if f = .cf then (s.fl .cf).map Bool.not else s.fl f }
  | .cld => some { s with fl := fun f => if f = .df then some false else s.fl f }
  | .std => some { s with fl := fun f => if f = .df then some true else s.fl f }
  | .str k z rep a32 seg => stepStr s k z rep a32 seg
  | .cpuid | .rdtsc | .ctl _ _ => none
  | .syscall => none
  | .unknown => none

/-- Executing an instruction of `len` bytes at `s.ip`. -/
def step (i : Instr) (len : Nat) (s : S) : Option S :=
  exec { s with ip := s.ip + BitVec.ofNat 64 len } i

/-- Forget flags: nothing is claimed about them. -/
def S.forget (s : S) (fs : Flag → Bool) : S :=
  { s with fl := fun f => if fs f then none else s.fl f }

/-- The state of the lifted code represents the architectural state: registers, segment bases,
XMM registers, memory, program counter, and every flag that is architecturally defined. -/
structure Rel (slide : BitVec 64) (m : St) (s : S) : Prop where
  gp : ∀ r, m.gp r = some (s.gp r)
  vec : ∀ r, m.vec r = some (s.vec r)
  fs : m.fs = some s.fs
  gs : m.gs = some s.gs
  mem : m.mem = s.mem.toV
  pc : m.pc.val slide = some s.ip
  fl : ∀ f b, s.fl f = some b → m.getF f = some (BitVec.ofBool b)

/-- Memory operands for which the lifter has code: RIP-relative operands have no FS/GS prefix and no
32-bit address size, and FS/GS is not combined with a 32-bit address size.  (There is no encoding of
a RIP-relative operand with an index.) -/
def MemOp.plain (o : MemOp) : Bool :=
  (o.base != .ip || (o.seg == .none && !o.a32 && o.idx.isNone)) && (!o.a32 || o.seg == .none)

def Op.plain : Op → Bool
  | .mem o => MemOp.plain o
  | _ => true

/-- The lifted code of the instruction `i` takes every representation of the state `s` to a
representation of `s'`, wherever the code was linked (`start`) and loaded (`slide`). -/
def Simulates (cfg : Cfg) (slide : BitVec 64) (i : Instr) (len : Nat) (s s' : S) : Prop :=
  ∀ (start : BitVec 64) (m : St), Rel slide m s → s.ip = start + slide →
    ∃ m', lift cfg slide i start len m = some { st := m' } ∧ Rel slide m' s'

/-- A LOCK prefix is used with an aligned memory destination. -/
def LockOk (s : S) (z : Sz) (lock : Bool) (d : Op) : Prop :=
  lock = true → ∃ o, d = .mem o ∧ (s.ea o).toNat % z.bytes = 0

end Verif.X86.Spec
