import Verif.A64.Fpu

/-!
Model of the AArch64 lifter, /repo/src/a64/main.cc, with generator and generated code composed
(see DESIGN.md section 3).  Line numbers without file refer to /repo/src/a64/main.cc.

Not modelled here: `instr_marker` and instruction overrides (54-68, see `Lift/Override`), memory fences (which have no effect in a
sequential execution).  SIMD instructions are in `Verif.A64.Simd`, floating-point arithmetic, rounding and
conversions in `Verif.A64.Fpu`.  Registers are flat (C11); the exclusive monitor
is not modelled by the code (677-684).
-/

namespace Verif.A64

open Verif.IR

/-- `farmdec::Shift`. -/
inductive Sh where
  | lsl | lsr | asr | ror
  deriving DecidableEq, Repr

/-- `farmdec::ExtendType`. -/
inductive Ext where
  | uxtb | uxth | uxtw | uxtx | sxtb | sxth | sxtw | sxtx
  deriving DecidableEq, Repr

/-- Number of bytes extended, `1 << (ext & 3)`. -/
abbrev Ext.bytes : Ext → Nat
  | .uxtb | .sxtb => 1
  | .uxth | .sxth => 2
  | .uxtw | .sxtw => 4
  | .uxtx | .sxtx => 8

def Ext.signed : Ext → Bool
  | .sxtb | .sxth | .sxtw | .sxtx => true
  | _ => false

/-- `farmdec::Cond`, in the order of the encoding. -/
inductive Cond where
  | eq | ne | hs | lo | mi | pl | vs | vc | hi | ls | ge | lt | gt | le | al | nv
  deriving DecidableEq, Repr

/-- Binary operations of `LiftBinOp`. -/
inductive BinOp where
  | and | or | xor | add | sub
  deriving DecidableEq, Repr

/-- Second operand of `LiftBinOp` (`BinOpKind`). -/
inductive Rhs where
  | imm (v : BitVec 64)
  | shifted (rm : Reg) (sh : Sh) (amount : Nat)
  | ext (rm : Reg) (e : Ext) (lsl : Nat)
  deriving DecidableEq, Repr

/-- Bit field instructions with a source. -/
inductive Bf where
  | sbfiz | sbfx | bfi | bfxil | ubfiz | ubfx
  deriving DecidableEq, Repr

inductive Unary where
  | rbit | rev16 | rev | rev32 | clz | cls
  deriving DecidableEq, Repr

/-- Conditional selects. -/
inductive Sel where
  | csel | csinc | cinc | cset | csinv | cinv | csetm | csneg | cneg
  deriving DecidableEq, Repr

/-- System registers with an implementation, 268-349. -/
inductive Sys where
  | tpidr | nzcv | fpcr | fpsr | dczid | midr | other
  deriving DecidableEq, Repr

/-- `farmdec::AddrMode` with its operands. -/
inductive AM where
  | simple
  | offImm (off : BitVec 64)
  | offReg (rm : Reg) (lsl : Nat)
  | offExt (rm : Reg) (signed : Bool) (lsl : Nat)
  | pre (imm : BitVec 64)
  | post (imm : BitVec 64)
  | literal (off : BitVec 64)
  deriving DecidableEq, Repr

/-- Second operand of conditional compares. -/
inductive CRhs where
  | reg (rm : Reg)
  | imm (v : BitVec 5)
  deriving DecidableEq, Repr

/-- Decoded instructions (`farmdec::Inst`).  Aliases that the lifter treats alike are one
constructor: CMP is `bin .sub` with flags and the zero register as destination, NGC is `adc` with the
zero register as source, and so on.  `mo` tells that a memory ordering is set. -/
inductive Instr where
  | adr (rd : Reg) (off : BitVec 64)
  | adrp (rd : Reg) (off : BitVec 64)
  | bin (op : BinOp) (w32 setFlags invert : Bool) (rd rn : Reg) (rhs : Rhs)
  | movk (w32 : Bool) (rd : Reg) (imm : BitVec 16) (lsl : Nat)
  | movImm (w32 : Bool) (rd : Reg) (imm : BitVec 64)
  | movReg (w32 : Bool) (rd rm : Reg)
  | shiftImm (sh : Sh) (w32 : Bool) (rd rn : Reg) (amount : Nat)
  | bf (k : Bf) (w32 : Bool) (rd rn : Reg) (lsb width : Nat)
  | bfc (w32 : Bool) (rd : Reg) (lsb width : Nat)
  | extend (w32 : Bool) (rd rn : Reg) (e : Ext)
  | extr (w32 : Bool) (rd rn rm : Reg) (lsb : Nat)
  | bcond (c : Cond) (off : BitVec 64)
  | svc
  | hint
  | dmb (crm : Nat)
  | msr (sys : Sys) (rt : Reg)
  | mrs (sys : Sys) (rt : Reg)
  | cfinv
  | dczva (rt : Reg)
  | b (off : BitVec 64)
  | br (rn : Reg)
  | bl (off : BitVec 64)
  | blr (rn : Reg)
  | ret (rn : Reg)
  | cbz (nz w32 : Bool) (rt : Reg) (off : BitVec 64)
  | tbz (nz w32 : Bool) (rt : Reg) (bit : Nat) (off : BitVec 64)
  | div (signed w32 : Bool) (rd rn rm : Reg)
  | shiftReg (sh : Sh) (w32 : Bool) (rd rn rm : Reg)
  | unary (k : Unary) (w32 : Bool) (rd rn : Reg)
  | adc (sub w32 setFlags : Bool) (rd rn rm : Reg)
  | ccmp (ccmn w32 : Bool) (rn : Reg) (rhs : CRhs) (c : Cond) (nzcv : BitVec 4)
  | csel (k : Sel) (w32 : Bool) (rd rn rm : Reg) (c : Cond)
  | mul (w32 : Bool) (rd rn rm : Reg)
  | madd (sub w32 : Bool) (rd rn rm ra : Reg)
  | maddl (sub signed : Bool) (rd rn rm ra : Reg)
  | mulh (signed : Bool) (rd rn rm : Reg)
  | ldr (w32 : Bool) (e : Ext) (mode : AM) (mo : Bool) (rt rn : Reg)
  | ldp (w32 : Bool) (e : Ext) (mode : AM) (mo : Bool) (rt rt2 rn : Reg)
  | str (w32 : Bool) (e : Ext) (mode : AM) (mo : Bool) (excl : Option Reg) (rt rn : Reg)
  | stp (w32 : Bool) (e : Ext) (mode : AM) (mo : Bool) (excl : Option Reg) (rt rt2 rn : Reg)
  | prfm (prfop : Nat) (mode : AM) (rn : Reg)
  | ldrFp (sz : FSz) (mode : AM) (rt : Fin 32) (rn : Reg)
  | ldpFp (sz : FSz) (mode : AM) (rt rt2 : Fin 32) (rn : Reg)
  | strFp (sz : FSz) (mode : AM) (rt : Fin 32) (rn : Reg)
  | stpFp (sz : FSz) (mode : AM) (rt rt2 : Fin 32) (rn : Reg)
  | fcmp (sz : FSz) (rn : Fin 32) (rm : Option (Fin 32))
  | fccmp (sz : FSz) (rn rm : Fin 32) (c : Cond) (nzcv : BitVec 4)
  | fcsel (sz : FSz) (rd rn rm : Fin 32) (c : Cond)
  | fmovToGp (w32 : Bool) (sz : FSz) (rd : Reg) (rn : Fin 32)
  | fmovFromGp (w32 : Bool) (sz : FSz) (rd : Fin 32) (rn : Reg)
  | fmovTopToGp (w32 : Bool) (rd : Reg) (rn : Fin 32)
  | fmovGpToTop (rd : Fin 32) (rn : Reg)
  | fmovReg (sz : FSz) (rd rn : Fin 32)
  | fabs (sz : FSz) (rd rn : Fin 32)
  | fneg (sz : FSz) (rd rn : Fin 32)
  | simd (i : Simd)
  | fpu (i : Fpu)
  | unknown
  deriving DecidableEq, Repr

/-- Configuration, /repo/src/config.h. -/
structure Cfg where
  callFunction : Option (St → Option St) := none
  syscall : Option (St → Option St) := none
  clobberFlags : Bool := false
  overflowIntrinsics : Bool := false

/-- Result of executing the code emitted for one instruction. -/
structure Out where
  st : St
  lifted : Bool := true
  returned : Bool := false

/-! ### Flags -/

/-- `FlagCalcAdd`, 944-956.  The transforms are those of /repo/src/regfile.cc:145-189. -/
def flagAdd (cfg : Cfg) (m : St) {w : Nat} (res lhs rhs : Val w) : St :=
  let m := ((m.setF .z (icmp .eq res (some 0))).setF .n (icmp .slt res (some 0))).setF .c
    (icmp .ult res lhs)
  if cfg.overflowIntrinsics then
    m.setF .v (IR.bin (fun a b => BitVec.ofBool (a.saddOverflow b)) lhs rhs)
  else m.setF .v (icmp .slt (IR.and (IR.not (IR.xor lhs rhs)) (IR.xor res lhs)) (some 0))

/-- `FlagCalcSub`, 958-965. -/
def flagSub (m : St) {w : Nat} (res lhs rhs : Val w) : St :=
  let sf := icmp .slt res (some 0)
  (((m.setF .z (icmp .eq lhs rhs)).setF .n sf).setF .c (icmp .uge lhs rhs)).setF .v
    (icmp .ne sf (icmp .slt lhs rhs))

/-- `FlagCalcLogic`, 967-972. -/
def flagLogic (m : St) {w : Nat} (res : Val w) : St :=
  (((m.setF .z (icmp .eq res (some 0))).setF .n (icmp .slt res (some 0))).setF .c
    (some 0#1)).setF .v (some 0#1)

/-- `FlagCalcFP`, 1401-1410. -/
def flagFp (m : St) {w : Nat} (lhs rhs : Val w) : St :=
  let less := fcmpOlt lhs rhs
  (((m.setF .n less).setF .z (fcmpOeq lhs rhs)).setF .c (IR.not less)).setF .v (fcmpUno lhs rhs)

/-- The positive condition in `IsTrue`, 1088-1106. -/
def condBase (m : St) : Cond → Val 1
  | .eq | .ne => m.fl .z
  | .hs | .lo => m.fl .c
  | .mi | .pl => m.fl .n
  | .vs | .vc => m.fl .v
  | .hi | .ls => IR.and (m.fl .c) (IR.not (m.fl .z))
  | .ge | .lt => icmp .eq (m.fl .n) (m.fl .v)
  | .gt | .le => IR.and (IR.not (m.fl .z)) (icmp .eq (m.fl .n) (m.fl .v))
  | .al | .nv => some 1#1

/-- `cond & 1` for the conditions that may be inverted. -/
def Cond.odd : Cond → Bool
  | .ne | .lo | .pl | .vc | .ls | .lt | .le => true
  | _ => false

/-- `IsTrue`, 1084-1108. -/
def isTrue (m : St) (c : Cond) : Val 1 := if c.odd then IR.not (condBase m c) else condBase m c

/-! ### Shifts, extensions and bit fields -/

/-- `Shift`, 1003-1018; `none` is the failed assertion. -/
def shift {w : Nat} (v : Val w) (sh : Sh) (amount : Nat) : Option (Val w) :=
  if w ≤ amount then none
  else if amount = 0 then some v
  else some (match sh with
    | .lsl => IR.shl v (some (BitVec.ofNat w amount))
    | .lsr => IR.lshr v (some (BitVec.ofNat w amount))
    | .asr => IR.ashr v (some (BitVec.ofNat w amount))
    | .ror => IR.fshr v v (some (BitVec.ofNat w amount)))

/-- `Extend`, 1020-1039, from width `w` to width `o`; `none` if a truncation or extension would not
be valid IR. -/
def extend {w : Nat} (v : Val w) (o : Nat) (e : Ext) (lsl : Nat) : Option (Val o) :=
  if 8 * e.bytes ≤ w ∧ 8 * e.bytes ≤ o then
    let t := trunc (8 * e.bytes) v
    shift (if e.signed then sext o t else zext o t) .lsl lsl
  else none

/-- `ones`, 1222-1224. -/
def ones (n : Nat) : BitVec 64 := if 64 ≤ n then BitVec.allOnes 64 else (1#64 <<< n) - 1#64

/-- `Extract`, 1232-1236. -/
def extract {w : Nat} (v : Val w) (lsb width : Nat) : Val w :=
  IR.and (IR.lshr v (some (BitVec.ofNat w lsb))) (some ((ones width).setWidth w))

/-- `MoveField`, 1242-1247. -/
def moveField {w : Nat} (v : Val w) (lsb width : Nat) : Val w :=
  IR.shl (IR.and v (some ((ones width).setWidth w))) (some (BitVec.ofNat w lsb))

/-- The sign extension in SBFIZ and SBFX, 132-162: `pos` is the position of the sign bit. -/
def signFill {w : Nat} (field : Val w) (pos : Nat) : Val w :=
  let mask : BitVec w := (BitVec.allOnes 64 <<< pos).setWidth w
  select (icmp .ne (IR.and field (some mask)) (some 0)) (IR.or field (some mask)) field

/-! ### Instructions -/

variable (cfg : Cfg) (slide : BitVec 64)

/-- Second operand of `LiftBinOp`, 1268-1272. -/
def rhsVal (m : St) (w : Nat) : Rhs → Option (Val w)
  | .imm v => some (some (v.setWidth w))
  | .shifted rm sh a => shift (m.get w rm) sh a
  | .ext rm e l => extend (m.get w rm) w e l

def BinOp.eval {w : Nat} : BinOp → Val w → Val w → Val w
  | .and => IR.and
  | .or => IR.or
  | .xor => IR.xor
  | .add => IR.add
  | .sub => IR.sub

/-- Flags set by `LiftBinOp`, 1278-1286; `none` is the failed assertion. -/
def binFlags (m : St) (op : BinOp) {w : Nat} (val lhs rhs : Val w) : Option St :=
  match op with
  | .add => some (flagAdd cfg m val lhs rhs)
  | .sub => some (flagSub m val lhs rhs)
  | .and => some (flagLogic m val)
  | _ => none

/-- `LiftBinOp`, 1265-1287. -/
def liftBin (m : St) (op : BinOp) (w : Nat) (setFlags invert : Bool) (rd rn : Reg) (rhs : Rhs) :
    Option St :=
  (rhsVal m w rhs).bind fun r =>
    let lhs := m.get w rn
    let r := if invert then IR.not r else r
    let val := op.eval lhs r
    if setFlags then binFlags cfg (m.set rd val) op val lhs r else some (m.set rd val)

/-- MOVK, 114-122. -/
def liftMovk (m : St) (w : Nat) (rd : Reg) (imm : BitVec 16) (lsl : Nat) : St :=
  let clr : BitVec 64 := ~~~ (0xffff#64 <<< lsl)
  let sh : BitVec 64 := imm.setWidth 64 <<< lsl
  m.set rd (IR.or (IR.and (m.get w rd) (some (clr.setWidth w))) (some (sh.setWidth w)))

/-- Bit field instructions, 132-203. -/
def liftBf (m : St) (k : Bf) (w : Nat) (rd rn : Reg) (lsb width : Nat) : St :=
  let src := m.get w rn
  match k with
  | .sbfiz => m.set rd (signFill (moveField src lsb width) (lsb + width - 1))
  | .sbfx => m.set rd (signFill (extract src lsb width) (width - 1))
  | .bfi =>
    let clr : BitVec 64 := ~~~ (ones width <<< lsb)
    m.set rd (IR.or (moveField src lsb width) (IR.and (m.get w rd) (some (clr.setWidth w))))
  | .bfxil =>
    let clr : BitVec 64 := ~~~ ones width
    m.set rd (IR.or (extract src lsb width) (IR.and (m.get w rd) (some (clr.setWidth w))))
  | .ubfiz => m.set rd (moveField src lsb width)
  | .ubfx => m.set rd (extract src lsb width)

/-- BFC, 166-170. -/
def liftBfc (m : St) (w : Nat) (rd : Reg) (lsb width : Nat) : St :=
  let clr : BitVec 64 := ~~~ (ones width <<< lsb)
  m.set rd (IR.and (m.get w rd) (some (clr.setWidth w)))

/-- EXTR, 207-219. -/
def liftExtr (m : St) (w : Nat) (rd rn rm : Reg) (lsb : Nat) : St :=
  let high := IR.shl (zext (w * 2) (m.get w rn)) (some (BitVec.ofNat _ w))
  let long := IR.or high (zext (w * 2) (m.get w rm))
  let long := IR.lshr long (some (BitVec.ofNat _ lsb))
  let long := IR.and long (some ((ones w).setWidth (w * 2)))
  m.set rd (trunc w long)

/-- MSR, 268-291; the outer `none` is the label `unhandled`. -/
def liftMsr (m : St) (sys : Sys) (rt : Reg) : Option St :=
  let v := m.get 64 rt
  let bit (k : Nat) : Val 1 := trunc 1 (IR.lshr v (some (BitVec.ofNat 64 k)))
  match sys with
  | .tpidr => some { m with tpidr := v }
  | .nzcv => some ((((m.setF .n (bit 31)).setF .z (bit 30)).setF .c (bit 29)).setF .v (bit 28))
  | .fpcr => some m
  | .fpsr => some m
  | _ => none

/-- MRS, 309-351. -/
def liftMrs (m : St) (sys : Sys) (rt : Reg) : Option St :=
  let put (acc : Val 64) (f : Flag) (k : Nat) : Val 64 :=
    IR.or acc (IR.shl (zext 64 (m.fl f)) (some (BitVec.ofNat 64 k)))
  match sys with
  | .tpidr => some (m.set rt m.tpidr)
  | .nzcv => some (m.set rt (put (put (put (put (some 0) .n 31) .z 30) .c 29) .v 28))
  | .fpcr => some (m.set rt (some 0#64))
  | .fpsr => some (m.set rt (some 0#64))
  | .dczid => some (m.set rt (some 4#64))
  | .midr => some (m.set rt (some (0xf#64 <<< 16)))
  | .other => none

/-- DC ZVA, 296-307: `memset` of 64 bytes with alignment 64; a poison address is undefined
behaviour. -/
def liftDczva (m : St) (rt : Reg) : Option St :=
  match IR.and (m.get 64 rt) (some (~~~ 0x3f#64)) with
  | none => none
  | some a => some { m with mem := fun x => if (x - a).toNat < 64 then some 0#8 else m.mem x }

/-- `CallExternalFunction`, /repo/src/lifter-base.cc:46-57. -/
def callExt (f : St → Option St) (m : St) : Option St :=
  (f { m with pc := .value (m.pc.val slide) }).map fun m' => { m' with pc := .value (m'.pc.val slide) }

/-- `SetFlagUndef({OF, SF, ZF, CF})` under `call_ret_clobber_flags`, 360-361, 381-382. -/
def clobber (m : St) : St := if cfg.clobberFlags then { m with fl := fun _ => none } else m

/-- Target of BL and BLR, 366-369: read after the link register was written. -/
def callTarget (m : St) (start : BitVec 64) : Reg ⊕ BitVec 64 → Pc
  | .inl rn => .value (m.get 64 rn)
  | .inr off => .const (start + off)

/-- BL and BLR, 358-379; `pc` is `start`. -/
def liftCall (m : St) (start : BitVec 64) (len : Nat) (tgt : Reg ⊕ BitVec 64) : Option St :=
  let m := clobber cfg m
  let m := m.set (.x 30) (m.pc.get slide (BitVec.ofNat 64 len))
  let m := { m with pc := callTarget m start tgt }
  match cfg.callFunction with
  | none => some m
  | some f => (callExt slide f m).map fun m =>
      { m with pc := .check (m.pc.val slide) (start + BitVec.ofNat 64 len) }

/-- RET, 380-391. -/
def liftRet (m : St) (rn : Reg) : Out :=
  let m := clobber cfg m
  { st := { m with pc := .value (m.get 64 rn) }, returned := cfg.callFunction.isSome }

/-- UDIV, 412-425. -/
def liftUdiv (m : St) (w : Nat) (rd rn rm : Reg) : Option St :=
  let lhs := m.get w rn
  let rhs := m.get w rm
  let isZero := icmp .eq rhs (some 0)
  let safe := select isZero (some 1) rhs
  (IR.udiv lhs safe).map fun q => m.set rd (select isZero (some 0) q)

/-- SDIV, 426-443. -/
def liftSdiv (m : St) (w : Nat) (rd rn rm : Reg) : Option St :=
  let lhs := m.get w rn
  let rhs := m.get w rm
  let isZero := icmp .eq rhs (some 0)
  let safe := select isZero (some 1) rhs
  let isMin := IR.and (icmp .eq lhs (some (BitVec.intMin w))) (icmp .eq rhs (some (BitVec.ofInt w (-1))))
  let safe := select isMin (some 1) safe
  (IR.sdiv lhs safe).map fun q =>
    m.set rd (select isZero (some 0) (select isMin (some (BitVec.intMin w)) q))

/-- LSLV, LSRV, ASRV, RORV, 444-469. -/
def liftShiftReg (m : St) (sh : Sh) (w : Nat) (rd rn rm : Reg) : St :=
  let lhs := m.get w rn
  let amount := IR.and (m.get w rm) (some (if w = 32 then 0x1f else 0x3f))
  m.set rd (match sh with
    | .lsl => IR.shl lhs amount
    | .lsr => IR.lshr lhs amount
    | .asr => IR.ashr lhs amount
    | .ror => IR.fshr lhs lhs amount)

/-- `llvm.bswap` on the `n` lanes of `8 * k` bits of a vector. -/
def bswapLanes (k n : Nat) (v : Val (8 * k * n)) : Val (8 * k * n) :=
  un (fun x => Bits.ofLanes (8 * k) n fun i =>
    Bits.ofLanes 8 k fun j => Bits.lane 8 (Bits.lane (8 * k) x i) (k - 1 - j)) v

/-- RBIT to CLS, 470-505. -/
def unaryVal (k : Unary) : (w32 : Bool) → Val (W w32) → Val (W w32)
  | true, v => match k with
    | .rbit => bitreverse v
    | .rev16 => bswapLanes 2 2 v
    | .rev => bswap (n := 4) v
    | .rev32 => bswapLanes 4 1 v
    | .clz => ctlz false v
    | .cls => IR.sub (ctlz false (IR.xor v (IR.ashr v (some 0x1f)))) (some 1)
  | false, v => match k with
    | .rbit => bitreverse v
    | .rev16 => bswapLanes 2 4 v
    | .rev => bswap (n := 8) v
    | .rev32 => bswapLanes 4 2 v
    | .clz => ctlz false v
    | .cls => IR.sub (ctlz false (IR.xor v (IR.ashr v (some 0x3f)))) (some 1)

/-- ADC, SBC, NGC, 538-557. -/
def liftAdc (m : St) (sub : Bool) (w : Nat) (setFlags : Bool) (rd rn rm : Reg) : St :=
  let lhs := m.get w rn
  let cf := if sub then IR.not (m.fl .c) else m.fl .c
  let rhs := IR.add (m.get w rm) (zext w cf)
  let val := if sub then IR.sub lhs rhs else IR.add lhs rhs
  let m := m.set rd val
  if setFlags then (if sub then flagSub m val lhs rhs else flagAdd cfg m val lhs rhs) else m

/-- End of `LiftCCmp`, 1299-1302: `m0` is the state before the comparison. -/
def ccmpSel (m0 m : St) (c : Cond) (nzcv : BitVec 4) : St :=
  let holds := isTrue m0 c
  let sel (f : Flag) (k : Nat) : Val 1 := select holds (m.fl f) (some (BitVec.ofBool (nzcv.getLsbD k)))
  (((m.setF .n (sel .n 3)).setF .z (sel .z 2)).setF .c (sel .c 1)).setF .v (sel .v 0)

/-- `LiftCCmp` on integers, 558-571, 1290-1303. -/
def liftCcmp (m : St) (ccmn : Bool) (w : Nat) (rn : Reg) (rhs : CRhs) (c : Cond) (nzcv : BitVec 4) : St :=
  let lhs := m.get w rn
  let rhs : Val w := match rhs with
    | .reg rm => m.get w rm
    | .imm v => some (v.setWidth w)
  ccmpSel m (if ccmn then flagAdd cfg m (IR.add lhs rhs) lhs rhs
    else flagSub m (IR.sub lhs rhs) lhs rhs) c nzcv

/-- CSEL to CNEG, 572-620. -/
def liftCsel (m : St) (k : Sel) (w : Nat) (rd rn rm : Reg) (c : Cond) : St :=
  let n := m.get w rn
  let r := m.get w rm
  let c := isTrue m c
  m.set rd (match k with
    | .csel => select c n r
    | .csinc => select c n (IR.add r (some 1))
    | .cinc => select c (IR.add n (some 1)) n
    | .cset => zext w c
    | .csinv => select c n (IR.not r)
    | .cinv => select c (IR.not n) n
    | .csetm => select c (some (BitVec.ofInt w (-1))) (some 0)
    | .csneg => select c n (IR.neg r)
    | .cneg => select c (IR.neg n) n)

/-- `MulAddSub`, 1251-1261. -/
def mulAddSub (sub signed : Bool) {v w : Nat} (base : Val v) (lhs rhs : Val w) : Val (w * 2) :=
  let prod := IR.mul (if signed then sext (w * 2) lhs else zext (w * 2) lhs)
    (if signed then sext (w * 2) rhs else zext (w * 2) rhs)
  let base := if signed then sext (w * 2) base else zext (w * 2) base
  if sub then IR.sub base prod else IR.add base prod

/-! ### Memory -/

/-- Offset of the modes with a register, 1154-1219: an index unless the shift is zero. -/
def idxOff (size lsl : Nat) (off : Val 64) : Val 64 :=
  if lsl = 0 ∧ size ≠ 1 then off else IR.mul off (some (BitVec.ofNat 64 size))

/-- `Addr`, 1128-1219: address and state after write-back. -/
def addr (m : St) (size : Nat) (rn : Reg) : AM → Val 64 × St
  | .simple => (m.get 64 rn, m)
  | .offImm off => (IR.add (m.get 64 rn) (some off), m)
  | .offReg rm lsl => (IR.add (m.get 64 rn) (idxOff size lsl (m.get 64 rm)), m)
  | .offExt rm signed lsl =>
    let off := if signed then sext 64 (m.get 32 rm) else zext 64 (m.get 32 rm)
    (IR.add (m.get 64 rn) (idxOff size lsl off), m)
  | .pre imm =>
    let m := m.set rn (IR.add (m.get 64 rn) (some imm))
    (m.get 64 rn, m)
  | .post imm => (m.get 64 rn, m.set rn (IR.add (m.get 64 rn) (some imm)))
  | .literal off => (m.pc.get slide off, m)

/-- Alignment of an access: natural if there is a memory ordering, 1308-1312, 1328-1336. -/
def alignOf (n : Nat) (mo : Bool) : Nat := if mo then n else 1

/-- `Load` into a general-purpose register, 1306-1316. -/
def loadGp (m : St) (rt : Reg) (w : Nat) (e : Ext) (mo : Bool) (a : Val 64) : Option St :=
  (load m a e.bytes (alignOf e.bytes mo)).bind fun v => (extend v w e 0).map fun v => m.set rt v

/-- Value stored by `LiftLoadStore`: `CreateTruncOrBitCast` to the memory type. -/
def storeGp (m : St) (rt : Reg) (w : Nat) (e : Ext) (mo : Bool) (a : Val 64) : Option St :=
  if 8 * e.bytes ≤ w then
    store m a e.bytes (alignOf e.bytes mo) (trunc (8 * e.bytes) (m.get w rt))
  else none

/-- Address of the second element of a pair. -/
def second (a : Val 64) (n : Nat) : Val 64 := IR.add a (some (BitVec.ofNat 64 n))

/-- LDR, LDXR, 685-699, 1341-1398. -/
def liftLdr (m : St) (w : Nat) (e : Ext) (mode : AM) (mo : Bool) (rt rn : Reg) : Option St :=
  loadGp (addr slide m e.bytes rn mode).2 rt w e mo (addr slide m e.bytes rn mode).1

/-- LDP, LDXP: the second register first. -/
def liftLdp (m : St) (w : Nat) (e : Ext) (mode : AM) (mo : Bool) (rt rt2 rn : Reg) : Option St :=
  let a := addr slide m e.bytes rn mode
  (loadGp a.2 rt2 w e mo (second a.1 e.bytes)).bind fun m => loadGp m rt w e mo a.1

/-- STXR and STXP write 0 (success) to the status register, 689-692. -/
def setStatus (m : St) (w : Nat) : Option Reg → St
  | none => m
  | some rs => m.set rs (some 0#w)

/-- STR, STXR. -/
def liftStr (m : St) (w : Nat) (e : Ext) (mode : AM) (mo : Bool) (excl : Option Reg) (rt rn : Reg) :
    Option St :=
  let a := addr slide m e.bytes rn mode
  (storeGp a.2 rt w e mo a.1).map fun m => setStatus m w excl

/-- STP, STXP: the second register first. -/
def liftStp (m : St) (w : Nat) (e : Ext) (mode : AM) (mo : Bool) (excl : Option Reg)
    (rt rt2 rn : Reg) : Option St :=
  let a := addr slide m e.bytes rn mode
  (storeGp a.2 rt2 w e mo (second a.1 e.bytes)).bind fun m =>
    (storeGp m rt w e mo a.1).map fun m => setStatus m w excl

/-- SIMD&FP loads and stores, 727-732, 1319-1325, 1380-1396 (no memory ordering). -/
def liftLdrFp (m : St) (n : Nat) (mode : AM) (rt : Fin 32) (rn : Reg) : Option St :=
  let a := addr slide m n rn mode
  (load a.2 a.1 n 1).map fun v => a.2.setV rt v

def liftLdpFp (m : St) (n : Nat) (mode : AM) (rt rt2 : Fin 32) (rn : Reg) : Option St :=
  let a := addr slide m n rn mode
  (load a.2 (second a.1 n) n 1).bind fun v2 =>
    let m := a.2.setV rt2 v2
    (load m a.1 n 1).map fun v => m.setV rt v

def liftStrFp (m : St) (n : Nat) (mode : AM) (rt : Fin 32) (rn : Reg) : Option St :=
  let a := addr slide m n rn mode
  store a.2 a.1 n 1 (a.2.getV rt (8 * n))

def liftStpFp (m : St) (n : Nat) (mode : AM) (rt rt2 : Fin 32) (rn : Reg) : Option St :=
  let a := addr slide m n rn mode
  (store a.2 (second a.1 n) n 1 (a.2.getV rt2 (8 * n))).bind fun m =>
    store m a.1 n 1 (m.getV rt (8 * n))

/-- FCMP, FCMPE, 846-861 (`none`: comparison with zero). -/
def liftFcmp (m : St) (w : Nat) (rn : Fin 32) (rm : Option (Fin 32)) : St :=
  flagFp m (m.getV rn w) (match rm with | some r => m.getV r w | none => some 0)

/-- DMB values with a case, 249-260. -/
def dmbOk (crm : Nat) : Bool := crm % 4 != 0

/-- `Lifter::Lift`, 51-910.  `none` is undefined behaviour or a failed assertion. -/
def lift (i : Instr) (start : BitVec 64) (len : Nat) (m : St) : Option Out :=
  let stop := start + BitVec.ofNat 64 len
  let m := { m with pc := .const start }
  let ok (x : Option St) : Option Out := x.map fun m => { st := { m with pc := .const stop } }
  let unhandled : Option Out := some { st := { m with pc := .value (some start) }, lifted := false }
  match i with
  | .adr rd off => ok (some (m.set rd (m.pc.get slide off)))
  | .adrp rd off => ok (some (m.set rd
      (IR.add (IR.and (m.pc.get slide 0) (some (~~~ 4095#64))) (some off))))
  | .bin op w32 sf inv rd rn rhs => ok (liftBin cfg m op (W w32) sf inv rd rn rhs)
  | .movk w32 rd imm lsl => ok (some (liftMovk m (W w32) rd imm lsl))
  | .movImm w32 rd imm => ok (some (m.set rd (some (imm.setWidth (W w32)))))
  | .movReg w32 rd rm => ok (some (m.set rd (m.get (W w32) rm)))
  | .shiftImm sh w32 rd rn a => ok ((shift (m.get (W w32) rn) sh a).map fun v => m.set rd v)
  | .bf k w32 rd rn lsb width => ok (some (liftBf m k (W w32) rd rn lsb width))
  | .bfc w32 rd lsb width => ok (some (liftBfc m (W w32) rd lsb width))
  | .extend w32 rd rn e => ok ((extend (m.get (W w32) rn) (W w32) e 0).map fun v => m.set rd v)
  | .extr w32 rd rn rm lsb => ok (some (liftExtr m (W w32) rd rn rm lsb))
  | .bcond c off => some { st := { m with pc := .cond (isTrue m c) (start + off) stop } }
  | .svc =>
    let m := { m with pc := .value (some stop) }
    match cfg.syscall with
    | none => some { st := m }
    | some f => (callExt slide f m).map fun m => { st := m }
  | .hint => ok (some m)
  | .dmb crm => if dmbOk crm then ok (some m) else none
  | .msr sys rt => match liftMsr m sys rt with
    | some m => ok (some m)
    | none => unhandled
  | .mrs sys rt => match liftMrs m sys rt with
    | some m => ok (some m)
    | none => unhandled
  | .cfinv => ok (some (m.setF .c (IR.not (m.fl .c))))
  | .dczva rt => ok (liftDczva m rt)
  | .b off => some { st := { m with pc := .const (start + off) } }
  | .br rn => some { st := { m with pc := .value (m.get 64 rn) } }
  | .bl off => (liftCall cfg slide m start len (.inr off)).map fun m => { st := m }
  | .blr rn => (liftCall cfg slide m start len (.inl rn)).map fun m => { st := m }
  | .ret rn => some (liftRet cfg m rn)
  | .cbz nz w32 rt off =>
    let c := icmp (if nz then .ne else .eq) (m.get (W w32) rt) (some 0)
    some { st := { m with pc := .cond c (start + off) stop } }
  | .tbz nz w32 rt bit off =>
    if bit < W w32 then
      let v := IR.and (m.get (W w32) rt) (some ((1#64 <<< bit).setWidth (W w32)))
      let c := icmp (if nz then .ne else .eq) v (some 0)
      some { st := { m with pc := .cond c (start + off) stop } }
    else none
  | .div signed w32 rd rn rm =>
    ok (if signed then liftSdiv m (W w32) rd rn rm else liftUdiv m (W w32) rd rn rm)
  | .shiftReg sh w32 rd rn rm => ok (some (liftShiftReg m sh (W w32) rd rn rm))
  | .unary k w32 rd rn => ok (some (m.set rd (unaryVal k w32 (m.get (W w32) rn))))
  | .adc sub w32 sf rd rn rm => ok (some (liftAdc cfg m sub (W w32) sf rd rn rm))
  | .ccmp ccmn w32 rn rhs c nzcv => ok (some (liftCcmp cfg m ccmn (W w32) rn rhs c nzcv))
  | .csel k w32 rd rn rm c => ok (some (liftCsel m k (W w32) rd rn rm c))
  | .mul w32 rd rn rm => ok (some (m.set rd (IR.mul (m.get (W w32) rn) (m.get (W w32) rm))))
  | .madd sub w32 rd rn rm ra =>
    let prod := IR.mul (m.get (W w32) rn) (m.get (W w32) rm)
    let base := m.get (W w32) ra
    ok (some (m.set rd (if sub then IR.sub base prod else IR.add base prod)))
  | .maddl sub signed rd rn rm ra =>
    ok (some (m.set rd (mulAddSub sub signed (m.get 64 ra) (m.get 32 rn) (m.get 32 rm))))
  | .mulh signed rd rn rm =>
    let long := mulAddSub false signed (some 0#64) (m.get 64 rn) (m.get 64 rm)
    ok (some (m.set rd (trunc 64 (IR.lshr long (some (BitVec.ofNat _ 64))))))
  | .ldr w32 e mode mo rt rn => ok (liftLdr slide m (W w32) e mode mo rt rn)
  | .ldp w32 e mode mo rt rt2 rn => ok (liftLdp slide m (W w32) e mode mo rt rt2 rn)
  | .str w32 e mode mo excl rt rn => ok (liftStr slide m (W w32) e mode mo excl rt rn)
  | .stp w32 e mode mo excl rt rt2 rn => ok (liftStp slide m (W w32) e mode mo excl rt rt2 rn)
  | .prfm prfop mode rn => if prfop / 8 % 4 = 3 then none else ok (some (addr slide m 1 rn mode).2)
  | .ldrFp sz mode rt rn => ok (liftLdrFp slide m sz.bytes mode rt rn)
  | .ldpFp sz mode rt rt2 rn => ok (liftLdpFp slide m sz.bytes mode rt rt2 rn)
  | .strFp sz mode rt rn => ok (liftStrFp slide m sz.bytes mode rt rn)
  | .stpFp sz mode rt rt2 rn => ok (liftStpFp slide m sz.bytes mode rt rt2 rn)
  | .fcmp sz rn rm => ok (sz.fpBits.map fun w => liftFcmp m w rn rm)
  | .fccmp sz rn rm c nzcv => ok (sz.fpBits.map fun w =>
      ccmpSel m (liftFcmp m w rn (some rm)) c nzcv)
  | .fcsel sz rd rn rm c =>
    ok (some (m.setV rd (select (isTrue m c) (m.getV rn (8 * sz.bytes)) (m.getV rm (8 * sz.bytes)))))
  | .fmovToGp _ sz rd rn => ok (some (m.set rd (m.getV rn (8 * sz.bytes))))
  | .fmovFromGp w32 _ rd rn => ok (some (m.setV rd (m.get (W w32) rn)))
  | .fmovTopToGp _ rd rn => ok (some (m.set rd (trunc 64 (IR.lshr (m.vec rn) (some 64#128)))))
  | .fmovGpToTop rd rn => ok (some (m.insTop rd (m.get 64 rn)))
  | .fmovReg sz rd rn => ok (some (m.setV rd (m.getV rn (8 * sz.bytes))))
  | .fabs sz rd rn => ok (sz.fpBits.map fun w => m.setV rd (IR.fabs (m.getV rn w)))
  | .fneg sz rd rn => ok (sz.fpBits.map fun w => m.setV rd (IR.fneg (m.getV rn w)))
  | .simd i => if i.handled then ok (i.lift m) else unhandled
  | .fpu i => if i.handled then ok (i.lift m) else unhandled
  | .unknown => unhandled

end Verif.A64
