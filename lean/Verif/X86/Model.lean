import Verif.X86.Sse

/-!
Model of the general-purpose part of the x86-64 lifter, /repo/src/x86-64/lifter.cc, lifter-gp.cc,
lifter-flags.cc, lifter-operand.cc, with generator and generated code composed (DESIGN.md section 3).

Simplifications.  Registers are flat (C11, C12) and flags are computed when they are set (C13).
Pointers are their addresses.  `cfg.use_native_segment_base` is off; that and
`cfg.global_base_value` are treated in `Verif.X86.Address`.  A failing assertion and ill-typed IR are undefined behaviour
(`none`), like a misaligned or poison address.  Not modelled here: instruction markers and overrides (see `Lift/Override`),
x87 arithmetic; fences and prefetches are with the SSE instructions; the decoder (fadec, not in /repo) delivers operands whose sizes fit the
instruction, so that one size per instruction suffices where the operands must have the same size.
-/

namespace Verif.X86

set_option linter.constructorNameAsVariable false

open Verif.IR

/-- Instructions that store or load the control and status words of the floating-point units. -/
inductive Ctl where
  | fstcw | fldcw | fstsw | stmxcsr | ldmxcsr
  deriving DecidableEq, Repr

/-- Decoded instructions (`FDI_*` with operands).  `a32` tells an address size of 4 bytes. -/
inductive Instr where
  | nop
  | mov (z sz : Sz) (d s : Op)
  | movzx (z sz : Sz) (d s : Op)
  | movbe (z : Sz) (d s : Op)
  | bswap (z : Sz) (d : Op)
  | arith (k : Arith) (z : Sz) (lock : Bool) (d s : Op)
  | cmpxchg (z : Sz) (lock : Bool) (d s : Op)
  | xchg (z : Sz) (d s : Op)
  | logic (k : Logic) (z : Sz) (lock : Bool) (d s : Op)
  | not (z : Sz) (lock : Bool) (d : Op)
  | neg (z : Sz) (lock : Bool) (d : Op)
  | incdec (dec : Bool) (z : Sz) (lock : Bool) (d : Op)
  | shift (k : Shift) (z : Sz) (d c : Op)
  | shiftd (left : Bool) (z : Sz) (d s c : Op)
  | rotate (left : Bool) (z : Sz) (d c : Op)
  | mul1 (signed : Bool) (z : Sz) (s : Op)
  | imul2 (z : Sz) (d s t : Op)
  | div (signed : Bool) (z : Sz) (s : Op) (high : High)
  | lea (z : Sz) (d : Op) (m : MemOp)
  | xlat (a32 : Bool) (seg : Seg)
  | cmov (c : Cond) (z : Sz) (d s : Op)
  | setcc (c : Cond) (d : Op)
  | cext (z : Sz)
  | csep (z : Sz)
  | bitscan (trailing count : Bool) (z : Sz) (d s : Op)
  | popcnt (z : Sz) (d s : Op)
  | bittest (k : BitOp) (z : Sz) (lock : Bool) (d s : Op)
  | jmpRel (off : BitVec 64)
  | jmp (s : Op)
  | jcc (c : Cond) (off : BitVec 64)
  | jcxz (a32 : Bool) (off : BitVec 64)
  | loop (k : LoopKind) (a32 : Bool) (off : BitVec 64)
  | callRel (off : BitVec 64)
  | call (s : Op)
  | ret (pop : Option (BitVec 64))
  | push (z : Sz) (s : Op)
  | pop (z : Sz) (d : Op)
  | pushf (z : Sz)
  | popf (z : Sz)
  | leave
  | lahf | sahf | clc | stc | cmc | cld | std
  | str (k : Str) (z : Sz) (rep : Rep) (a32 : Bool) (seg : Seg)
  | sse (i : Sse)
  | cpuid | rdtsc
  | ctl (k : Ctl) (o : Op)
  | syscall
  | unknown
  deriving DecidableEq, Repr

/-- Configuration, /repo/src/config.h. -/
structure Cfg where
  callFunction : Option (St → Option St) := none
  syscall : Option (St → Option St) := none
  /-- `cpuinfo_function`: takes EAX and ECX and returns two words, `{i64, i64}`; it does not touch the
  CPU struct (simplification: it has no effects). -/
  cpuinfo : Option (Val 32 → Val 32 → Val 64 × Val 64) := none
  /-- What `llvm.readcyclecounter` returns. -/
  cycles : Val 64 := none
  clobberFlags : Bool := false
  overflowIntrinsics : Bool := false

/-- Result of executing the code emitted for one instruction. -/
structure Out where
  st : St
  lifted : Bool := true
  returned : Bool := false

/-! ### Flags -/

def isZero {w : Nat} (v : Val w) : Val 1 := icmp .eq v (some 0#w)
def isNeg {w : Nat} (v : Val w) : Val 1 := icmp .slt v (some 0#w)
/-- `Transform::X86AuxFlag`, /repo/src/regfile.cc:145-189. -/
def auxFlag {w : Nat} (res lhs rhs : Val w) : Val 1 :=
  icmp .ne (IR.and (IR.xor (IR.xor lhs rhs) res) (some 16#w)) (some 0#w)
/-- `Transform::AddOverflowFlag`, /repo/src/regfile.cc:145-189. -/
def addOverflow {w : Nat} (res lhs rhs : Val w) : Val 1 :=
  icmp .slt (IR.and (IR.not (IR.xor lhs rhs)) (IR.xor res lhs)) (some 0#w)

/-- `FlagCalcZ`, /repo/src/x86-64/lifter-private.h:97-99. -/
def flagZ (m : St) {w : Nat} (v : Val w) : St := m.setF .zf (isZero v)

/-- `FlagCalcSAPLogic`, /repo/src/x86-64/lifter-flags.cc:44-48. -/
def flagSap (m : St) {w : Nat} (res : Val w) : St :=
  ((m.setF .sf (isNeg res)).setPf (trunc 8 res)).setF .af none

/-- `FlagCalcAdd`, /repo/src/x86-64/lifter-flags.cc:50-66. -/
def flagAdd (cfg : Cfg) (m : St) {w : Nat} (res lhs rhs : Val w) (skipCarry : Bool := false) : St :=
  let m := (((m.setF .zf (isZero res)).setF .sf (isNeg res)).setPf (trunc 8 res)).setF .af
    (auxFlag res lhs rhs)
  let m := if skipCarry then m else m.setF .cf (icmp .ult res lhs)
  if cfg.overflowIntrinsics then
    m.setF .of (bin (fun a b => BitVec.ofBool (a.saddOverflow b)) lhs rhs)
  else m.setF .of (addOverflow res lhs rhs)

/-- `FlagCalcSub`, /repo/src/x86-64/lifter-flags.cc:68-85. -/
def flagSub (m : St) {w : Nat} (res lhs rhs : Val w) (skipCarry : Bool := false)
    (altZf : Bool := false) : St :=
  let sf := icmp .slt res (some 0#w)
  let m := m.setF .zf (if altZf then icmp .eq lhs rhs else isZero res)
  let m := ((m.setF .sf sf).setPf (trunc 8 res)).setF .af (auxFlag res lhs rhs)
  let m := if skipCarry then m else m.setF .cf (icmp .ult lhs rhs)
  m.setF .of (icmp .ne sf (icmp .slt lhs rhs))

/-- `FlagCond`, /repo/src/x86-64/lifter-flags.cc:87-102. -/
def flagCond (m : St) : Cond → Val 1
  | .o => m.getF .of
  | .no => IR.not (m.getF .of)
  | .c => m.getF .cf
  | .nc => IR.not (m.getF .cf)
  | .z => m.getF .zf
  | .nz => IR.not (m.getF .zf)
  | .be => IR.or (m.getF .cf) (m.getF .zf)
  | .a => IR.not (IR.or (m.getF .cf) (m.getF .zf))
  | .s => m.getF .sf
  | .ns => IR.not (m.getF .sf)
  | .p => m.getF .pf
  | .np => IR.not (m.getF .pf)
  | .l => icmp .ne (m.getF .sf) (m.getF .of)
  | .ge => IR.not (icmp .ne (m.getF .sf) (m.getF .of))
  | .le => IR.or (m.getF .zf) (icmp .ne (m.getF .sf) (m.getF .of))
  | .g => IR.not (IR.or (m.getF .zf) (icmp .ne (m.getF .sf) (m.getF .of)))

/-- `RFLAGS_INDICES`, /repo/src/x86-64/lifter-flags.cc:104-107. -/
def rflagsIndices : List (Flag × Nat) :=
  [(.cf, 0), (.pf, 2), (.af, 4), (.zf, 6), (.sf, 7), (.df, 10), (.of, 11)]

/-- `FlagAsReg`, /repo/src/x86-64/lifter-flags.cc:109-117. -/
def flagAsReg (m : St) (z : Sz) : Val z.bits :=
  trunc z.bits (rflagsIndices.foldl (fun res kv =>
    IR.or res (IR.shl (zext 64 (m.getF kv.1)) (some (BitVec.ofNat 64 kv.2)))) (some 0x202#64))

/-- `FlagFromReg`, /repo/src/x86-64/lifter-flags.cc:119-133 (the indices are increasing, so the
`break` skips all later flags). -/
def flagFromReg (m : St) {w : Nat} (v : Val w) : St :=
  rflagsIndices.foldl (fun m kv =>
    if w ≤ kv.2 then m
    else
      let bit := trunc 1 (IR.lshr v (some (BitVec.ofNat w kv.2)))
      match kv.1 with
      | .pf => m.setPf (zext 8 (IR.not bit))
      | f => m.setF f bit) m

/-! ### Instructions, /repo/src/x86-64/lifter-gp.cc -/

variable (cfg : Cfg) (slide : BitVec 64)

/-- `LiftMovgp`, 44-51: also MOVSX. -/
def liftMov (m : St) (z sz : Sz) (d s : Op) : Option St := do
  let v ← opLoad slide m sz s
  opStore slide m z d (sext z.bits v)

/-- `LiftMovzx`, 53-61.  Writing a 32-bit or 64-bit register zero-extends. -/
def liftMovzx (m : St) (z sz : Sz) (d s : Op) : Option St := do
  let v ← opLoad slide m sz s
  match z, d with
  | .d, .reg r => return m.setGp r (zext 64 v)
  | .q, .reg r => return m.setGp r (zext 64 v)
  | z, d => opStore slide m z d (zext z.bits v)

/-- `LiftMovbe`, 589-592. -/
def liftMovbe (m : St) (z : Sz) (d s : Op) : Option St := do
  let v ← opLoad slide m z s
  opStore slide m z d (bswap v)

/-- `LiftArith`, 64-92. -/
def liftArith (m : St) (k : Arith) (z : Sz) (lock : Bool) (d s : Op) : Option St := do
  let op2 ← opLoad slide m z s
  let op2 := if k = .adc ∨ k = .sbb then IR.add op2 (zext z.bits (m.getF .cf)) else op2
  let sub : Bool := k = .sub ∨ k = .sbb ∨ k = .cmp
  let f := fun a : Val z.bits => if sub then IR.sub a op2 else IR.add a op2
  let (op1, m) ← rmwLoad slide m z lock d f
  let res := f op1
  let m ← opStoreIf slide m (k ≠ .cmp ∧ lock = false) z d res
  let m ← opStoreIf slide m (k = .xadd) z s op1
  return if sub then flagSub m res op1 op2 false (k = .cmp) else flagAdd cfg m res op1 op2

/-- `LiftCmpxchg`, 94-119. -/
def liftCmpxchg (m : St) (z : Sz) (lock : Bool) (d s : Op) : Option St := do
  let acc := m.get rax z
  let src ← opLoad slide m z s
  if lock then
    let (dst, m) ← atomicRmw slide m z d (fun old => select (icmp .eq old acc) src old)
    let m := flagSub m (IR.sub acc dst) acc dst
    let m := m.setF .zf (icmp .eq dst acc)
    return m.store rax z dst
  else
    let dst ← opLoad slide m z d
    let m := flagSub m (IR.sub acc dst) acc dst
    let m ← opStore slide m z d (select (m.getF .zf) src dst)
    return m.store rax z dst

/-- `LiftXchg`, 121-133. -/
def liftXchg (m : St) (z : Sz) (d s : Op) : Option St := do
  let op2 ← opLoad slide m z s
  match d with
  | .mem _ =>
    let (op1, m) ← atomicRmw slide m z d (fun _ => op2)
    opStore slide m z s op1
  | _ =>
    let op1 ← opLoad slide m z d
    let m ← opStore slide m z d op2
    opStore slide m z s op1

/-- Same general-purpose register (`reg().ri`) in both operands. -/
def sameReg : Op → Op → Bool
  | .reg r, .reg s => r = s
  | _, _ => false

/-- `LiftAndOrXor`, 135-165.  (The `XOR r,r` case applies to sizes of at least 4 bytes, where there
are no high-byte registers.) -/
def liftLogic (m : St) (k : Logic) (z : Sz) (lock : Bool) (d s : Op) : Option St :=
  if k = .xor ∧ sameReg d s = true ∧ 4 ≤ z.bytes then do
    let m ← opStore slide m z d (some 0)
    let m := flagSap m (some 0#64)
    return ((m.setF .zf (some 1#1)).setF .cf (some 0#1)).setF .of (some 0#1)
  else do
    let op2 ← opLoad slide m z s
    let f := fun a : Val z.bits => match k with
      | .and | .test => IR.and a op2
      | .or => IR.or a op2
      | .xor => IR.xor a op2
    let (op1, m) ← rmwLoad slide m z lock d f
    let res := f op1
    let m ← opStoreIf slide m (k ≠ .test ∧ lock = false) z d res
    let m := flagSap (flagZ m res) res
    return (m.setF .cf (some 0#1)).setF .of (some 0#1)

/-- `LiftNot`, 167-176. -/
def liftNot (m : St) (z : Sz) (lock : Bool) (d : Op) : Option St :=
  if lock then
    (atomicRmw slide m z d (fun a => IR.xor a (some (BitVec.allOnes z.bits)))).map (·.2)
  else do
    let v ← opLoad slide m z d
    opStore slide m z d (IR.not v)

/-- `LiftNeg`, 178-185: asserts that there is no lock prefix. -/
def liftNeg (m : St) (z : Sz) (lock : Bool) (d : Op) : Option St :=
  if lock then none else do
    let op1 ← opLoad slide m z d
    let res := IR.neg op1
    let m := flagSub m res (some 0#z.bits) op1
    opStore slide m z d res

/-- `LiftIncDec`, 187-209. -/
def liftIncDec (m : St) (dec : Bool) (z : Sz) (lock : Bool) (d : Op) : Option St := do
  let op2 : Val z.bits := some 1#z.bits
  let f := fun a : Val z.bits => if dec then IR.sub a op2 else IR.add a op2
  let (op1, m) ← rmwLoad slide m z lock d f
  let m ← opStoreIf slide m (lock = false) z d (f op1)
  return if dec then flagSub m (f op1) op1 op2 true else flagAdd cfg m (f op1) op1 op2 true

/-- Width of the shifts in `LiftShift`: at least 32 bits. -/
abbrev exBits (z : Sz) : Nat := max z.bits 32

/-- Mask of a shift count: 0x3f for 64-bit operands and 0x1f otherwise. -/
def countMask (z : Sz) : Nat := if z = .q then 0x3f else 0x1f

/-- `LiftShift`, 211-248. -/
def liftShift (m : St) (k : Shift) (z : Sz) (d c : Op) : Option St := do
  let src ← opLoad slide m z d
  let srcEx := if k = .sar then sext (exBits z) src else zext (exBits z) src
  let count ← opLoad slide m .b c
  let shift := IR.and (zext (exBits z) count) (some (BitVec.ofNat _ (countMask z)))
  let resEx := match k with
    | .shl => IR.shl srcEx shift
    | .shr => IR.lshr srcEx shift
    | .sar => IR.ashr srcEx shift
  let res := trunc z.bits resEx
  let m ← opStore slide m z d res
  let cfBig := match k with
    | .shl => IR.lshr srcEx (IR.sub (some (BitVec.ofNat _ z.bits)) shift)
    | _ => IR.lshr srcEx (IR.sub shift (some 1))
  let m := flagSap (flagZ m res) res
  let m := m.setF .cf (trunc 1 cfBig)
  return m.setF .of (icmp .slt (IR.xor src res) (some 0))

/-- `LiftShiftdouble`, 250-279. -/
def liftShiftd (m : St) (left : Bool) (z : Sz) (d s c : Op) : Option St := do
  let src1 ← opLoad slide m z d
  let src2 ← opLoad slide m z s
  let count ← opLoad slide m .b c
  let shift := IR.and (zext z.bits count) (some (BitVec.ofNat _ (countMask z)))
  let res := if left then fshl src1 src2 shift else fshr src2 src1 shift
  let m ← opStore slide m z d res
  let m := flagSap (flagZ m res) res
  return m.undef [.of, .cf]

/-- `LiftRotate`, 281-305. -/
def liftRotate (m : St) (left : Bool) (z : Sz) (d c : Op) : Option St := do
  let src ← opLoad slide m z d
  let count ← opLoad slide m .b c
  let shift := IR.and (zext z.bits count) (some (BitVec.ofNat _ (countMask z)))
  let res := if left then fshl src src shift else fshr src src shift
  let m ← opStore slide m z d res
  return m.undef [.of, .cf]

/-- Extension of the operands in `LiftMul`, `LiftDiv`. -/
def extOp (signed : Bool) {w : Nat} (v : Nat) (x : Val w) : Val v :=
  if signed then sext v x else zext v x

/-- The flags of `LiftMul`, 350-363. -/
def mulFlags (m : St) (signed : Bool) {w : Nat} (op1 op2 : Val w) : St :=
  let extRes := IR.mul (extOp signed (w * 2) op1) (extOp signed (w * 2) op2)
  let overflow :=
    if cfg.overflowIntrinsics then
      bin (fun a b => BitVec.ofBool (if signed then a.smulOverflow b else a.umulOverflow b)) op1 op2
    else icmp .ne extRes (extOp signed (w * 2) (IR.mul op1 op2))
  ((m.setF .of overflow).setF .cf overflow).undef [.sf, .zf, .af, .pf]

/-- The result of the one-operand `LiftMul`, 330-347. -/
def mulStore (m : St) : (z : Sz) → Val (z.bits * 2) → St
  | .b, res => m.store rax .w res
  | z, res =>
    let a := trunc z.bits res
    let d := trunc z.bits (lshr res (some (BitVec.ofNat _ z.bits)))
    (m.store rax z a).store rdx z d

/-- `LiftMul` with one operand, 307-364. -/
def liftMul1 (m : St) (signed : Bool) (z : Sz) (s : Op) : Option St := do
  let op1 ← opLoad slide m z s
  let op2 := m.get rax z
  let extRes := IR.mul (extOp signed (z.bits * 2) op1) (extOp signed (z.bits * 2) op2)
  return mulFlags cfg (mulStore m z extRes) signed op1 op2

/-- `LiftMul` with two or three operands, 307-364. -/
def liftImul2 (m : St) (z : Sz) (d s t : Op) : Option St := do
  let op1 ← opLoad slide m z s
  let op2 ← opLoad slide m z t
  let m ← opStore slide m z d (IR.mul op1 op2)
  return mulFlags cfg m true op1 op2

/-- Quotient and remainder in `LiftDiv`. -/
def divRem (signed : Bool) {w : Nat} (a b : Val w) : Option (Val w × Val w) := do
  let q ← if signed then sdiv a b else udiv a b
  let r ← if signed then srem a b else urem a b
  return (q, r)

/-- The decision in `LiftDiv`, 380-401, to divide only the lower half; `none` is the null pointer
dereference for a shift by a variable amount (393). -/
def divShort (signed : Bool) (z : Sz) : High → Option Bool
  | .unknown => some false
  | .null => some (!signed)
  | .ashr k => if signed then k.map (fun k => decide (k = z.bits - 1)) else some false

/-- `LiftDiv` for 8-bit operands, 403-412. -/
def div8 (m : St) (signed : Bool) (s : Op) : Option St := do
  let dividend := m.get rax .w
  let divisor ← opLoad slide m .b s
  let (q, r) ← divRem signed dividend (extOp signed (Sz.bits .w) divisor)
  return (m.store rax .b (trunc (Sz.bits .b) q)).storeH rax (trunc 8 r)

/-- `LiftDiv` dividing only the lower half. -/
def divLow (m : St) (signed : Bool) (z : Sz) (s : Op) : Option St := do
  let divisor ← opLoad slide m z s
  let (q, r) ← divRem signed (m.get rax z) divisor
  return (m.store rax z q).store rdx z r

/-- `LiftDiv` in double width. -/
def divFull (m : St) (signed : Bool) (z : Sz) (s : Op) : Option St := do
  let divisor ← opLoad slide m z s
  let hi := IR.shl (zext (z.bits * 2) (m.get rdx z)) (some (BitVec.ofNat _ z.bits))
  let dividend := IR.or (zext (z.bits * 2) (m.get rax z)) hi
  let (q, r) ← divRem signed dividend (extOp signed (z.bits * 2) divisor)
  return (m.store rax z (trunc z.bits q)).store rdx z (trunc z.bits r)

/-- The quotient and remainder of `LiftDiv`. -/
def divCore (m : St) (signed : Bool) (z : Sz) (s : Op) (high : High) : Option St :=
  if z = .b then div8 slide m signed s
  else match divShort signed z high with
    | none => none
    | some true => divLow slide m signed z s
    | some false => divFull slide m signed z s

/-- `LiftDiv`, 366-426. -/
def liftDiv (m : St) (signed : Bool) (z : Sz) (s : Op) (high : High) : Option St := do
  let m ← divCore slide m signed z s high
  return m.undef [.of, .sf, .zf, .af, .pf, .cf]

/-- Sum of offset, scaled index and base in width `w`, `LiftLea` 437-452. -/
def leaSum (m : St) (w : Nat) (o : MemOp) : Val w :=
  IR.add (match o.base with | .reg r => trunc w (m.gp r) | _ => some 0)
    (IR.add (match o.idx with
        | none => some 0
        | some (r, k) => IR.shl (trunc w (m.gp r)) (some (BitVec.ofNat w k.val)))
      (some (o.off.setWidth w)))

/-- `LiftLea`, 428-459. -/
def liftLea (m : St) (z : Sz) (d : Op) (o : MemOp) : Option St :=
  let res : Val 64 :=
    if o.base = .ip then m.ipRel slide o.off
    else if o.a32 then zext 64 (leaSum m 32 o)
    else leaSum m 64 o
  opStore slide m z d (trunc z.bits res)

/-- The destination of POP, lifter.cc: always 64 bits, which is a type mismatch for a 16-bit
register. -/
def popStore (m : St) (z : Sz) (d : Op) (v : Val 64) : Option St :=
  match z, d with
  | .q, d => opStore slide m .q d v
  | _, .mem _ => opStore slide m .q d v
  | _, _ => none

/-- `LiftXlat`, 461-474. -/
def liftXlat (m : St) (a32 : Bool) : Option St := do
  let al := m.get rax .b
  let bx := if a32 then zext 64 (m.get rbx .d) else m.gp rbx
  let v ← load m (IR.add bx (zext 64 al)) 1 1
  return m.store rax .b v

/-- `LiftCmovcc`, 476-481. -/
def liftCmov (m : St) (c : Cond) (z : Sz) (d s : Op) : Option St := do
  let op1 ← opLoad slide m z d
  let op2 ← opLoad slide m z s
  opStore slide m z d (select (flagCond m c) op2 op1)

/-- `LiftSetcc`, 483-485. -/
def liftSetcc (m : St) (c : Cond) (d : Op) : Option St :=
  opStore slide m .b d (zext (Sz.bits .b) (flagCond m c))

/-- Half of an operand size. -/
def Sz.half : Sz → Sz
  | .b => .b | .w => .b | .d => .w | .q => .d

/-- `LiftCext`, 487-491. -/
def liftCext (m : St) (z : Sz) : St := m.store rax z (sext z.bits (m.get rax z.half))

/-- `LiftCsep`, 493-497. -/
def liftCsep (m : St) (z : Sz) : St :=
  m.store rdx z (IR.ashr (m.get rax z) (some (BitVec.ofNat _ (z.bits - 1))))

/-- The destination of `LiftBitscan`, 507-517. -/
def bitscanStore (m : St) (eq : Val 1) : (z : Sz) → Op → Val z.bits → Option St
  | .d, .reg r, res => some (m.setGp r (select eq (m.gp r) (zext 64 res)))
  | z, d, res => do
    let dst ← opLoad slide m z d
    opStore slide m z d (select eq dst res)

/-- `LiftBitscan`, 499-522: BSF/TZCNT (`trailing`) and BSR/LZCNT. -/
def liftBitscan (m : St) (trailing : Bool) (z : Sz) (d s : Op) : Option St := do
  let src ← opLoad slide m z s
  let res := if trailing then cttz true src
    else IR.sub (some (BitVec.ofNat _ (z.bits - 1))) (ctlz true src)
  let eq := icmp .eq src (some 0)
  let m ← bitscanStore slide m eq z d res
  return (m.setF .zf eq).undef [.of, .sf, .af, .pf, .cf]

/-- `LiftPopcnt`, 524-534. -/
def liftPopcnt (m : St) (z : Sz) (d s : Op) : Option St := do
  let src ← opLoad slide m z s
  let m ← opStore slide m z d (ctpop src)
  let m := flagZ m src
  return ((((m.setF .of (some 0)).setF .sf (some 0)).setF .af (some 0)).setPf (some 1)).setF .cf (some 0)

/-- log2 of the number of bits. -/
def Sz.lg : Sz → Nat
  | .b => 3 | .w => 4 | .d => 5 | .q => 6

/-- The bit index of `LiftBittest`, 540-544: immediates are 8-bit. -/
def btIndex (m : St) (z : Sz) : Op → Option (Val z.bits)
  | .imm v => (opLoad slide m .b (.imm v)).map (fun v => zext z.bits v)
  | s => opLoad slide m z s

/-- The address of the memory word of `LiftBittest`, 546-554. -/
def btAddr (m : St) (z : Sz) (o : MemOp) (s : Op) (index : Val z.bits) : Option (Val 64) := do
  let a ← opAddr slide m o
  match s with
  | .reg _ => some (IR.add a (IR.mul
      (sext 64 (IR.ashr index (some (BitVec.ofNat _ z.lg)))) (some (BitVec.ofNat 64 z.bytes))))
  | _ => some a

/-- The new value in `LiftBittest`, 559-575. -/
def btOp (k : BitOp) {w : Nat} (mask v : Val w) : Val w :=
  match k with
  | .bt | .bts => IR.or v mask
  | .btc => IR.xor v mask
  | .btr => IR.and v (IR.not mask)

/-- Store unless the instruction is BT. -/
def btStore (m : St) (c : Bool) (z : Sz) (a : Val 64) (v : Val z.bits) : Option St :=
  if c then store m a z.bytes z.bytes v else some m

/-- The access of `LiftBittest` to the bit base: old value and new state.  The memory accesses have
natural alignment. -/
def btAccess (m : St) (k : BitOp) (z : Sz) (lock : Bool) (d s : Op) (index mask : Val z.bits) :
    Option (Val z.bits × St) :=
  match d with
  | .mem o => do
    let a ← btAddr slide m z o s index
    let v ← load m a z.bytes z.bytes
    let m ← btStore m (lock || k ≠ .bt) z a (btOp k mask v)
    some (v, m)
  | d => do
    if lock then none else
    let v ← opLoad slide m z d
    let m ← opStoreIf slide m (k ≠ .bt) z d (btOp k mask v)
    some (v, m)

/-- `LiftBittest`, 536-587. -/
def liftBittest (m : St) (k : BitOp) (z : Sz) (lock : Bool) (d s : Op) : Option St :=
  if z = .b then none else do
  let index ← btIndex slide m z s
  let mask := IR.shl (some (BitVec.ofNat z.bits 1))
    (IR.and index (some (BitVec.ofNat _ (z.bits - 1))))
  let (val, m) ← btAccess slide m k z lock d s index mask
  return (m.setF .cf (icmp .ne (IR.and val mask) (some 0))).undef [.of, .sf, .af, .pf]

/-- `LiftJmp`, `LiftJcc`, `LiftJcxz`, 600-617: `pc` is set to `end`, so that the target is an offset
from it. -/
def stopPc (start : BitVec 64) (len : Nat) : BitVec 64 := start + BitVec.ofNat 64 len

/-- `RCX` or `ECX`. -/
def asz (a32 : Bool) : Sz := if a32 then .d else .q

/-- `LiftLoop`, 619-635. -/
def liftLoop (m : St) (k : LoopKind) (a32 : Bool) (tgt next : BitVec 64) : St :=
  let cx := IR.sub (m.get rcx (asz a32)) (some 1)
  let m := m.store rcx (asz a32) cx
  let cond := icmp .ne cx (some 0)
  let cond := match k with
    | .loop => cond
    | .loopz => IR.and cond (m.getF .zf)
    | .loopnz => IR.and cond (IR.not (m.getF .zf))
  { m with pc := .cond cond tgt next }

/-- The flags undefined by `call_ret_clobber_flags`, 638-640, 665-667. -/
def clobber (m : St) : St :=
  if cfg.clobberFlags then m.undef [.of, .sf, .zf, .af, .pf, .cf] else m

/-- `LiftCall`, 637-661. -/
def liftCall (m : St) (tgt : St → Option (Val 64)) (next : BitVec 64) : Option St := do
  let m := clobber cfg m
  let newRip ← tgt m
  let m ← stackPush m .q (m.ipRel slide)
  let m := { m with pc := .value newRip }
  match cfg.callFunction with
  | none => return m
  | some f => do
    let m ← f m
    return { m with pc := .check (m.pc.get slide 0) next }

/-- `LiftRet`, 663-682. -/
def liftRet (m : St) (pop : Option (BitVec 64)) : Option Out := do
  let m := clobber cfg m
  let (v, m) ← stackPop m
  let m := { m with pc := .value v }
  let m := match pop with
    | some n => m.setGp rsp (IR.add (m.gp rsp) (some n))
    | none => m
  return { st := m, returned := cfg.callFunction.isSome }

/-- `LiftSyscall`, 684-690. -/
def liftSyscall (m : St) : Option St :=
  let m := (m.setGp rcx (m.ipRel slide)).setGp 11 (flagAsReg m .q)
  match cfg.syscall with
  | none => some m
  | some f => f m

/-- `LiftCpuid`, 692-713. -/
def liftCpuid (m : St) : St :=
  let (eax, ecx, edx, ebx) : Val 64 × Val 64 × Val 64 × Val 64 := match cfg.cpuinfo with
    | none => (some 0#64, some 0#64, some 0#64, some 0#64)
    | some f =>
      let (ecxeax, ebxedx) := f (m.get rax .d) (m.get rcx .d)
      (IR.and ecxeax (some 0xffffffff#64), lshr ecxeax (some 32#64),
        IR.and ebxedx (some 0xffffffff#64), lshr ebxedx (some 32#64))
  (((m.setGp rax eax).setGp rcx ecx).setGp rdx edx).setGp rbx ebx

/-- `LiftRdtsc`, 715-724; `RegFile::Set` extends the 32-bit value with zeros
(/repo/src/regfile.cc:569-573). -/
def liftRdtsc (m : St) : St :=
  (m.setGp rax (zext 64 (trunc 32 cfg.cycles))).setGp rdx (lshr cfg.cycles (some 32#64))

/-- `LiftFstcw`, `LiftFstsw`, `LiftStmxcsr`, /repo/src/x86-64/lifter-sse.cc:91-101; FLDCW and LDMXCSR
are no-ops, /repo/src/x86-64/lifter.cc:214-217. -/
def liftCtl (m : St) (k : Ctl) (o : Op) : Option St :=
  match k with
  | .fstcw => opStore slide m .w o (some 0x37f#16)
  | .fstsw => opStore slide m .w o (some 0#16)
  | .stmxcsr => opStore slide m .d o (some 0x1f80#32)
  | .fldcw | .ldmxcsr => some m

/-! String instructions -/

/-- One iteration: the load, the store, and the compared values of `LiftLods` etc., 838-938, at the
addresses `si` and `di`.  Default (natural) alignment. -/
def strBody (k : Str) (z : Sz) (ax : Val z.bits) (m : St) (si di : Val 64) :
    Option (St × Val z.bits × Val z.bits) :=
  match k with
  | .lods => do
    let v ← load m si z.bytes z.bytes
    some (m, v, v)
  | .stos => do
    let m ← store m di z.bytes z.bytes ax
    some (m, ax, ax)
  | .movs => do
    let v ← load m si z.bytes z.bytes
    let m ← store m di z.bytes z.bytes v
    some (m, v, v)
  | .scas => do
    let v ← load m di z.bytes z.bytes
    some (m, ax, v)
  | .cmps => do
    let a ← load m si z.bytes z.bytes
    let b ← load m di z.bytes z.bytes
    some (m, a, b)

def Str.hasDi : Str → Bool | .lods => false | _ => true
def Str.hasSi : Str → Bool | .stos => false | .scas => false | _ => true
def Str.isCmp : Str → Bool | .scas => true | .cmps => true | _ => false

/-- `RepInfo::mode`, `RepBegin` 729-735. -/
inductive RepMode where
  | no | rep | repz | repnz
  deriving DecidableEq, Repr

def repMode (k : Str) : Rep → RepMode
  | .rep => if k.isCmp then .repz else .rep
  | .repnz => if k.isCmp then .repnz else .no
  | .none => .no

/-- The condition for another iteration besides the count, `RepEnd` 812-815. -/
def repCond (mode : RepMode) (cond : Val 1) {w : Nat} (a b : Val w) : Val 1 :=
  match mode with
  | .repz => IR.and cond (icmp .eq a b)
  | .repnz => IR.and cond (icmp .ne a b)
  | _ => cond

/-- The loop emitted by `RepBegin`/`RepEnd`, 753-822.  `fuel` bounds the number of iterations
(`none` if it does not suffice); the loop is entered with a nonzero count. -/
def repLoop (k : Str) (z : Sz) (mode : RepMode) (ax : Val z.bits) (adj : Val 64) :
    Nat → St → Val 64 → Val 64 → Val 64 → Option (St × Val 64 × Val 64 × Val 64 × Val z.bits × Val z.bits)
  | 0, _, _, _, _ => none
  | fuel + 1, m, si, di, count => do
    let (m, a, b) ← strBody k z ax m si di
    let si := IR.add si (IR.mul adj (some (BitVec.ofNat 64 z.bytes)))
    let di := IR.add di (IR.mul adj (some (BitVec.ofNat 64 z.bytes)))
    let count := IR.sub count (some 1)
    let c ← repCond mode (icmp .ne count (some 0)) a b
    if c = 1#1 then repLoop k z mode ax adj fuel m si di count else some (m, si, di, count, a, b)

/-- The flags set by the comparing instructions after the loop, `RepEnd` 806-822, if the loop was
entered; the parity flag is stored as the byte of its negation. -/
def repFlags (m : St) {w : Nat} (a b : Val w) : St :=
  let m1 := flagSub m (IR.sub a b) a b
  m1.setF .pf (IR.not (m1.getF .pf))

/-- `LiftLods`, `LiftStos`, `LiftMovs`, `LiftScas`, `LiftCmps`, 838-938, with `RepBegin`, `RepEnd`. -/
def liftStr (m : St) (k : Str) (z : Sz) (rep : Rep) : Option St :=
  if k = .stos ∧ rep = .rep ∧ z = .b then
    -- REP STOSB: memset, 856-888
    match m.gp rcx, m.gp rdi, m.getF .df with
    | some cx, some di, some df =>
      let base := if df = 1#1 then di + (1 - cx) else di
      let di' := if df = 1#1 then base - 1 else di + cx
      let al := m.get rax .b
      some ({ m with mem := fun x => if (x - base).toNat < cx.toNat then al else m.mem x }.setGp rdi
        (some di') |>.setGp rcx (some 0))
    | _, _, _ => none
  else
    let ax := m.get rax z
    let adj := select (m.getF .df) (some (-1#64)) (some 1#64)
    let si := m.gp rsi
    let di := m.gp rdi
    match repMode k rep with
    | .no => do
      let (m, a, b) ← strBody k z ax m si di
      let m := if k.hasDi then m.setGp rdi (IR.add di (IR.mul adj (some (BitVec.ofNat 64 z.bytes)))) else m
      let m := if k.hasSi then m.setGp rsi (IR.add si (IR.mul adj (some (BitVec.ofNat 64 z.bytes)))) else m
      let m := if k.isCmp then flagSub m (IR.sub a b) a b else m
      return if k = .lods then m.store rax z a else m
    | mode =>
      match m.gp rcx with
      | none => none
      | some count =>
        if count = 0 then
          -- the flags, RAX and the pointers keep their values; PF is re-encoded
          some (if k.isCmp then m.setF .pf (IR.not (m.getF .pf)) else m)
        else do
          let (m, si, di, count, a, b) ← repLoop k z mode ax adj count.toNat m si di (some count)
          let m := if k.isCmp then repFlags m a b else m
          let m := if k.hasDi then m.setGp rdi di else m
          let m := if k.hasSi then m.setGp rsi si else m
          let m := m.setGp rcx count
          return if k = .lods then m.store rax z a else m

/-- `Lifter::Lift`, /repo/src/x86-64/lifter.cc:48-330 (general-purpose instructions). -/
def lift (i : Instr) (start : BitVec 64) (len : Nat) (m : St) : Option Out :=
  let next := stopPc start len
  let m := { m with pc := .const next }
  let ok (x : Option St) : Option Out := x.map (fun m => { st := m })
  match i with
  | .unknown => some { st := { m with pc := .value (some start) }, lifted := false }
  | .nop => ok (some m)
  | .sse i => ok (i.lift slide m)
  | .mov z sz d s => ok (liftMov slide m z sz d s)
  | .movzx z sz d s => ok (liftMovzx slide m z sz d s)
  | .movbe z d s => ok (liftMovbe slide m z d s)
  | .bswap z d => ok (liftMovbe slide m z d d)
  | .arith k z lock d s => ok (liftArith cfg slide m k z lock d s)
  | .cmpxchg z lock d s => ok (liftCmpxchg slide m z lock d s)
  | .xchg z d s => ok (liftXchg slide m z d s)
  | .logic k z lock d s => ok (liftLogic slide m k z lock d s)
  | .not z lock d => ok (liftNot slide m z lock d)
  | .neg z lock d => ok (liftNeg slide m z lock d)
  | .incdec dec z lock d => ok (liftIncDec cfg slide m dec z lock d)
  | .shift k z d c => ok (liftShift slide m k z d c)
  | .shiftd left z d s c => ok (liftShiftd slide m left z d s c)
  | .rotate left z d c => ok (liftRotate slide m left z d c)
  | .mul1 signed z s => ok (liftMul1 cfg slide m signed z s)
  | .imul2 z d s t => ok (liftImul2 cfg slide m z d s t)
  | .div signed z s high => ok (liftDiv slide m signed z s high)
  | .lea z d o => ok (liftLea slide m z d o)
  | .xlat a32 _ => ok (liftXlat m a32)
  | .cmov c z d s => ok (liftCmov slide m c z d s)
  | .setcc c d => ok (liftSetcc slide m c d)
  | .cext z => ok (some (liftCext m z))
  | .csep z => ok (some (liftCsep m z))
  | .bitscan trailing _ z d s => ok (liftBitscan slide m trailing z d s)
  | .popcnt z d s => ok (liftPopcnt slide m z d s)
  | .bittest k z lock d s => ok (liftBittest slide m k z lock d s)
  | .jmpRel off => ok (some { m with pc := .const (next + off) })
  | .jmp s => ok ((opLoad slide m .q s true).map (fun v => { m with pc := .value v }))
  | .jcc c off => ok (some { m with pc := .cond (flagCond m c) (next + off) next })
  | .jcxz a32 off =>
    ok (some { m with pc := .cond (icmp .eq (m.get rcx (asz a32)) (some 0)) (next + off) next })
  | .loop k a32 off => ok (some (liftLoop m k a32 (next + off) next))
  | .callRel off => ok (liftCall cfg slide m (fun m => some (m.ipRel slide off)) next)
  | .call s => ok (liftCall cfg slide m (fun m => opLoad slide m .q s true) next)
  | .ret pop => liftRet cfg m pop
  | .push z s => ok (do stackPush m z (← opLoad slide m z s))
  | .pop z d => ok (do
      let (v, m) ← stackPop m
      popStore slide m z d v)
  | .pushf z => ok (stackPush m z (flagAsReg m z))
  | .popf _ => ok (do
      let (v, m) ← stackPop m
      return flagFromReg m v)
  | .leave => ok (do
      let (v, m) ← stackPop m rbp
      return m.store rbp .q v)
  | .lahf => ok (some (m.storeH rax (flagAsReg m .b)))
  | .sahf => ok (some (flagFromReg m (m.getH rax)))
  | .clc => ok (some (m.setF .cf (some 0#1)))
  | .stc => ok (some (m.setF .cf (some 1#1)))
  | .cmc => ok (some (m.setF .cf (IR.not (m.getF .cf))))
  | .cld => ok (some (m.setF .df (some 0#1)))
  | .std => ok (some (m.setF .df (some 1#1)))
  | .str k z rep _ _ => ok (liftStr m k z rep)
  | .cpuid => ok (some (liftCpuid cfg m))
  | .rdtsc => ok (some (liftRdtsc cfg m))
  | .ctl k o => ok (liftCtl slide m k o)
  | .syscall => ok (liftSyscall cfg slide m)

end Verif.X86
