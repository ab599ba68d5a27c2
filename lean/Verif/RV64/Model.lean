import Verif.IR.Mem
import Verif.IR.Pc
import Verif.IR.FpOps

/-!
Model of the RV64 lifter, /repo/src/rv64/lifter.cc, with generator and generated code composed
(see DESIGN.md section 3).

Not modelled here: `instr_marker` and instruction overrides (/repo/src/rv64/lifter.cc:368-381, see
`Lift/Override`).  Registers
are flat (C11); `cfg.global_base_value` is treated in `Verif.X86.Address`.
-/

namespace Verif.RV64

open Verif.IR

/-- The suffixes `S` and `D` of floating-point mnemonics. -/
inductive FW where
  | s | d
  deriving DecidableEq, Repr

/-- Width of the format. -/
def FW.bits : FW → Nat
  | .s => 32
  | .d => 64

/-- Floating-point mnemonics without the suffix `S` or `D`: `FRV_FADDS`, ...; `FRV_FCVTSL`, `..SW`,
`..SLU`, `..SWU` are `ofInt`, `FRV_FCVTLS`, `..WS`, `..LUS`, `..WUS` are `toInt`; `FRV_FCVTSD` is `cvt`
with suffix `S`, `FRV_FCVTDS` is `cvt` with suffix `D`. -/
inductive FOp where
  | arith (op : Fp.Arith)
  | min | max
  | madd | msub | nmsub | nmadd
  | sqrt
  | eq | lt | le
  | ofInt (long signed : Bool)
  | toInt (long signed : Bool)
  | cvt
  deriving DecidableEq, Repr

/-- Mnemonics of the modelled instructions (`FRV_*`).  `unknown` stands for any mnemonic that the
`switch` does not handle. -/
inductive Mnem where
  | jal | jalr | beq | bne | blt | bltu | bge | bgeu | ecall
  | lui | auipc
  | lb | lbu | lh | lhu | lw | lwu | ld | sb | sh | sw | sd
  | addi | add | addiw | addw | sub | subw | andi | and | ori | or | xori | xor
  | slli | sll | slliw | sllw | srli | srl | srliw | srlw | srai | sra | sraiw | sraw
  | slt | slti | sltu | sltiu
  | mul | mulw | mulh | mulhsu | mulhu
  | div | divu | divw | divuw | rem | remu | remw | remuw
  | csr
  | lrw | lrd | scw | scd | fence
  | amoswapw | amoswapd | amoaddw | amoaddd | amoandw | amoandd | amoorw | amoord
  | amoxorw | amoxord | amomaxw | amomaxd | amomaxuw | amomaxud
  | amominw | amomind | amominuw | amominud
  | flw | fsw | fld | fsd | fmvxw | fmvwx | fmvxd | fmvdx
  | fsgnjs | fsgnjns | fsgnjxs | fsgnjd | fsgnjnd | fsgnjxd | fclasss | fclassd
  | adduw | sh1add | sh2add | sh3add | sh1adduw | sh2adduw | sh3adduw | slliuw
  | andn | clz | clzw | cpop | cpopw | ctz | ctzw | max | maxu | min | minu | orcb | orn | rev8
  | rol | rolw | ror | rorw | rori | roriw | sextb | sexth | xnor | zexth
  | clmul | clmulh | clmulr
  | bclr | bclri | bext | bexti | binv | binvi | bset | bseti
  | fp (op : FOp) (f : FW)
  | unknown
  deriving DecidableEq, Repr

/-- `FrvInst`: decoded instruction.  `imm` is the `int32_t` immediate, `misc` the rounding mode of
floating-point instructions. -/
structure Frv where
  mnem : Mnem
  rd : Nat
  rs1 : Nat
  rs2 : Nat
  imm : BitVec 32
  rs3 : Nat
  misc : Nat

/-- `FRV_REG_INV`, the decoder's marker for an absent register operand (any number that is not a
register; frvdec.h is not in /repo). -/
def regInv : Nat := 0x80

/-- Run-time machine state seen by the lifted code: integer and floating-point registers, memory,
and the lifter's PC. -/
structure St where
  gp : Nat → Val 64
  fp : Nat → Val 64
  mem : VMem
  pc : Pc

/-- Lifter configuration used here: the external call and system call functions, as arbitrary
(possibly undefined) state transformers; /repo/src/config.h. -/
structure Cfg where
  callFunction : Option (St → Option St) := none
  syscall : Option (St → Option St) := none

/-- Result of executing the code emitted for one instruction.  `lifted` is the result of `Lift`;
`returned` tells that the emitted code returned from the function (`ForceReturn`). -/
structure Out where
  st : St
  lifted : Bool := true
  returned : Bool := false

/-- Sign-extended immediate, `irb.getInt64(rvi->imm)`. -/
def Frv.imm64 (i : Frv) : BitVec 64 := i.imm.signExtend 64

def upd {α : Type} (f : Nat → α) (r : Nat) (v : α) : Nat → α := fun x => if x = r then v else f x

/-- `LoadGp`, /repo/src/rv64/lifter.cc:45-49. -/
def loadGp (s : St) (r : Nat) (w : Nat) : Val w := if r = 0 then some 0#w else trunc w (s.gp r)

/-- `LoadUw`, /repo/src/rv64/lifter.cc:50-52. -/
def loadUw (s : St) (r : Nat) : Val 64 := zext 64 (loadGp s r 32)

/-- `LoadFp`, /repo/src/rv64/lifter.cc:53-55: low bits of the register. -/
def loadFp (s : St) (r : Nat) (w : Nat) : Val w := trunc w (s.fp r)

/-- `StoreGp`, /repo/src/rv64/lifter.cc:56-62. -/
def storeGp (s : St) (r : Nat) {w : Nat} (v : Val w) : St :=
  if r = 0 then s else { s with gp := upd s.gp r (sext 64 v) }

/-- `StoreFp`, /repo/src/rv64/lifter.cc:63-65: `RegFile::Set` of a narrow value zero-extends it to
the register (/repo/src/regfile.cc:569-573, 330-463). -/
def storeFp (s : St) (r : Nat) {w : Nat} (v : Val w) : St :=
  { s with fp := upd s.fp r (zext 64 v) }

/-- `Addr`, /repo/src/rv64/lifter.cc:66-80.  All branches compute base plus immediate. -/
def addr (s : St) (i : Frv) : Val 64 := IR.add (loadGp s i.rs1 64) (some i.imm64)

/-- Load of an `8*n`-bit integer with the natural alignment `irb.CreateLoad` assumes; undefined
behaviour for a misaligned or poison address. -/
def loadN (s : St) (a : Val 64) (n : Nat) : Option (Val (8 * n)) :=
  match a with
  | none => none
  | some a => if a.toNat % n = 0 then some (s.mem.read a n) else none

/-- Store of an `8*n`-bit integer, same conditions. -/
def storeN (s : St) (a : Val 64) (n : Nat) (v : Val (8 * n)) : Option St :=
  match a with
  | none => none
  | some a => if a.toNat % n = 0 then some { s with mem := s.mem.write a n v } else none

/-- `LiftBinOpR`, /repo/src/rv64/lifter.cc:82-86. -/
def liftBinOpR (s : St) (i : Frv) (w : Nat) (op : Val w → Val w → Val w) : St :=
  storeGp s i.rd (op (loadGp s i.rs1 w) (loadGp s i.rs2 w))

/-- `LiftBinOpI`, /repo/src/rv64/lifter.cc:87-91: `getIntN` of the sign-extended immediate. -/
def liftBinOpI (s : St) (i : Frv) (w : Nat) (op : Val w → Val w → Val w) : St :=
  storeGp s i.rd (op (loadGp s i.rs1 w) (some (i.imm64.setWidth w)))

/-- `LiftShift`, /repo/src/rv64/lifter.cc:92-98. -/
def liftShift (s : St) (i : Frv) (w : Nat) (op : Val w → Val w → Val w) (shiftop : Val w) : St :=
  storeGp s i.rd (op (loadGp s i.rs1 w) (IR.and shiftop (some (BitVec.ofNat w (w - 1)))))

/-- `LiftMulh`, /repo/src/rv64/lifter.cc:99-106. -/
def liftMulh (s : St) (i : Frv) (ext1 ext2 : Val 64 → Val 128) : St :=
  storeGp s i.rd (trunc 64 (lshr (IR.mul (ext1 (loadGp s i.rs1 64)) (ext2 (loadGp s i.rs2 64)))
    (some 64#128)))

/-- `LiftLoad`, /repo/src/rv64/lifter.cc:107-111. -/
def liftLoad (s : St) (i : Frv) (n : Nat) (ext : Val (8 * n) → Val 64) : Option St :=
  (loadN s (addr s i) n).map (fun v => storeGp s i.rd (ext v))

/-- `LiftLoadFp`, /repo/src/rv64/lifter.cc:112-115. -/
def liftLoadFp (s : St) (i : Frv) (n : Nat) : Option St :=
  (loadN s (addr s i) n).map (fun v => storeFp s i.rd v)

/-- `LiftStore`, /repo/src/rv64/lifter.cc:116-118. -/
def liftStore (s : St) (i : Frv) (n : Nat) : Option St :=
  storeN s (addr s i) n (loadGp s i.rs2 (8 * n))

/-- `LiftStoreFp`, /repo/src/rv64/lifter.cc:119-121. -/
def liftStoreFp (s : St) (i : Frv) (n : Nat) : Option St :=
  storeN s (addr s i) n (loadFp s i.rs2 (8 * n))

/-- `LiftBranch`, /repo/src/rv64/lifter.cc:122-126. -/
def liftBranch (s : St) (i : Frv) (start stop : BitVec 64) (p : Pred) : St :=
  { s with pc := .cond (icmp p (loadGp s i.rs1 64) (loadGp s i.rs2 64)) (start + i.imm64) stop }

/-- The four division operations. -/
inductive DivOp where
  | udiv | urem | sdiv | srem
  deriving DecidableEq

def DivOp.eval {w : Nat} : DivOp → Val w → Val w → Option (Val w)
  | .udiv => IR.udiv
  | .urem => IR.urem
  | .sdiv => IR.sdiv
  | .srem => IR.srem

/-- `LiftDivRem`, /repo/src/rv64/lifter.cc:127-172.  The conditional branch to `spc_block` or
`div_block` is the outer `match`; branching on poison is undefined behaviour. -/
def liftDivRem (s : St) (i : Frv) (w : Nat) (op : DivOp) : Option St :=
  let zero : Val w := some 0#w
  let minusone : Val w := some (BitVec.ofInt w (-1))
  let dividend := loadGp s i.rs1 w
  let divisor := loadGp s i.rs2 w
  let isZero := icmp .eq divisor zero
  let isMinusone := icmp .eq divisor minusone
  let isSpc := match op with
    | .sdiv | .srem => IR.or isZero isMinusone
    | _ => isZero
  match isSpc with
  | none => none
  | some c =>
    if c = 1#1 then
      let spcRes := match op with
        | .udiv => minusone
        | .urem => dividend
        | .sdiv => select isMinusone dividend minusone
        | .srem => select isMinusone zero dividend
      some (storeGp s i.rd spcRes)
    else
      (op.eval dividend divisor).map (fun v => storeGp s i.rd v)

/-- The `atomicrmw` operations used, LLVM LangRef. -/
inductive RmwOp where
  | xchg | add | and | or | xor | max | umax | min | umin
  deriving DecidableEq

def RmwOp.eval {w : Nat} : RmwOp → Val w → Val w → Val w
  | .xchg, _, v => v
  | .add, o, v => IR.add o v
  | .and, o, v => IR.and o v
  | .or, o, v => IR.or o v
  | .xor, o, v => IR.xor o v
  | .max, o, v => smax o v
  | .umax, o, v => IR.umax o v
  | .min, o, v => smin o v
  | .umin, o, v => IR.umin o v

/-- `LiftAmo`, /repo/src/rv64/lifter.cc:174-188, in a sequential execution; the assertion on `imm`
is a failure outcome. -/
def liftAmo (s : St) (i : Frv) (n : Nat) (op : RmwOp) : Option St :=
  if i.imm.toNat ≤ 3 then
    let val := loadGp s i.rs2 (8 * n)
    let ptr := loadGp s i.rs1 64
    (loadN s ptr n).bind (fun old =>
      (storeN s ptr n (op.eval old val)).map (fun s => storeGp s i.rd old))
  else none

/-- Memory orderings, /repo/src/rv64/lifter.cc:175-182. -/
inductive Ordering where
  | monotonic | release | acquire | seqCst
  deriving DecidableEq

def amoOrdering (imm : Nat) : Option Ordering :=
  match imm with
  | 0 => some .monotonic
  | 1 => some .release
  | 2 => some .acquire
  | 3 => some .seqCst
  | _ => none

/-- `LiftFpArith`, /repo/src/rv64/lifter.cc:189-194; a failing assertion is a failure outcome. -/
def liftFpArith (s : St) (i : Frv) (op : Fp.Arith) (w : Nat) : Option St :=
  if i.misc = 7 then some (storeFp s i.rd (fbin op (loadFp s i.rs1 w) (loadFp s i.rs2 w))) else none

/-- `LiftFcvtIToF`, /repo/src/rv64/lifter.cc:195-202; the rounding mode is ignored. -/
def liftFcvtIToF (s : St) (i : Frv) (dw sw : Nat) (signed : Bool) : St :=
  let v := loadGp s i.rs1 sw
  storeFp s i.rd (if signed then sitofp dw v else uitofp dw v)

/-- The switch over the rounding mode in `LiftFcvtFToI`, /repo/src/rv64/lifter.cc:206-218. -/
def fcvtRound (misc : Nat) {w : Nat} (v : Val w) : Option (Val w) :=
  match misc with
  | 1 => some v
  | 2 => some (frint .down v)
  | 3 => some (frint .up v)
  | 4 => some (frint .away v)
  | 7 => some v
  | _ => none

/-- `LiftFcvtFToI`, /repo/src/rv64/lifter.cc:203-220. -/
def liftFcvtFToI (s : St) (i : Frv) (dw sw : Nat) (signed : Bool) : Option St :=
  (fcvtRound i.misc (loadFp s i.rs1 sw)).map fun v =>
    storeGp s i.rd (if signed then fptosi dw v else fptoui dw v)

/-- `LiftFcmp`, /repo/src/rv64/lifter.cc:227-230. -/
def liftFcmp (s : St) (i : Frv) (p : Fp.Rel → Bool) (w : Nat) : St :=
  storeGp s i.rd (zext 64 (fcmp p (loadFp s i.rs1 w) (loadFp s i.rs2 w)))

/-- `LiftFminmax`, /repo/src/rv64/lifter.cc:244-247. -/
def liftFminmax (s : St) (i : Frv) (w : Nat) (f : Val w → Val w → Val w) : St :=
  storeFp s i.rd (f (loadFp s i.rs1 w) (loadFp s i.rs2 w))

/-- `LiftFmadd`, /repo/src/rv64/lifter.cc:282-289. -/
def liftFmadd (s : St) (i : Frv) (sub negprod : Bool) (w : Nat) : St :=
  let op := fbin .mul (loadFp s i.rs1 w) (loadFp s i.rs2 w)
  let op := if negprod then fneg op else op
  storeFp s i.rd (fbin (if sub then .sub else .add) op (loadFp s i.rs3 w))

/-- Floating-point arithmetic, conversions and comparisons, /repo/src/rv64/lifter.cc:537-544, 547-560,
565-567, 572-579, 582-593, 597-602. -/
def liftFp (s : St) (i : Frv) (op : FOp) (f : FW) : Option St :=
  match op with
  | .arith o => liftFpArith s i o f.bits
  | .min => some (liftFminmax s i f.bits minnum)
  | .max => some (liftFminmax s i f.bits maxnum)
  | .madd => some (liftFmadd s i false false f.bits)
  | .msub => some (liftFmadd s i true false f.bits)
  | .nmsub => some (liftFmadd s i false true f.bits)
  | .nmadd => some (liftFmadd s i true true f.bits)
  | .sqrt => some (storeFp s i.rd (fsqrt (loadFp s i.rs1 f.bits)))
  | .eq => some (liftFcmp s i (fun r => r == .eq) f.bits)
  | .lt => some (liftFcmp s i (fun r => r == .lt) f.bits)
  | .le => some (liftFcmp s i (fun r => r == .lt || r == .eq) f.bits)
  | .ofInt long signed => some (liftFcvtIToF s i f.bits (if long then 64 else 32) signed)
  | .toInt long signed => liftFcvtFToI s i (if long then 64 else 32) f.bits signed
  | .cvt => match f with
    | .s => some (storeFp s i.rd (fpconv 32 (loadFp s i.rs1 64)))
    | .d => some (storeFp s i.rd (fpconv 64 (loadFp s i.rs1 32)))

/-- `LiftFsgn`, /repo/src/rv64/lifter.cc:231-244 (only bit operations). -/
def liftFsgn (s : St) (i : Frv) (w : Nat) (keep zero : Bool) : St :=
  let absOp := loadFp s i.rs1 w
  let signOp := loadFp s i.rs2 w
  let absOp := if !keep && zero then IR.and absOp (some (BitVec.ofNat w (2 ^ (w - 1) - 1)))
    else if !keep && !zero then IR.or absOp (some (BitVec.ofNat w (2 ^ (w - 1)))) else absOp
  let signOp := IR.and signOp (some (BitVec.ofNat w (2 ^ (w - 1))))
  storeFp s i.rd (IR.xor absOp signOp)

/-- `LiftFclass`, /repo/src/rv64/lifter.cc:248-280. -/
def liftFclass (s : St) (i : Frv) (w expmsk mantmsk nanidx : Nat) : St :=
  let v := loadFp s i.rs1 w
  let sign := IR.and v (some (BitVec.ofNat w (2 ^ (w - 1))))
  let exp := IR.and v (some (BitVec.ofNat w expmsk))
  let expzero := icmp .eq exp (some 0#w)
  let expmax := icmp .eq exp (some (BitVec.ofNat w expmsk))
  let mant := IR.and v (some (BitVec.ofNat w mantmsk))
  let mantnotzero := icmp .ne mant (some 0#w)
  let mze := IR.or (zext w mantnotzero) (some 4#w)
  let mme := IR.or (zext w expmax) (some 6#w)
  let res := select expzero mze mme
  let resneg := IR.xor res (some 7#w)
  let res := select (icmp .eq sign (some 0#w)) res resneg
  let signaling := IR.or (lshr mant (some (BitVec.ofNat w nanidx))) (some 8#w)
  let isnan := IR.and expmax mantnotzero
  let res := select isnan signaling res
  storeGp s i.rd res

/-- `LiftShNAdd`, /repo/src/rv64/lifter.cc:290-294. -/
def liftShNAdd (s : St) (i : Frv) (n : Nat) (word : Bool) : St :=
  let shifted := shl (if word then loadUw s i.rs1 else loadGp s i.rs1 64) (some (BitVec.ofNat 64 n))
  storeGp s i.rd (IR.add (loadGp s i.rs2 64) shifted)

/-- `LiftUnaryIntrinsic` and `LiftCountZerosIntrinsic`, /repo/src/rv64/lifter.cc:295-302. -/
def liftUnary (s : St) (i : Frv) (w : Nat) (f : Val w → Val w) : St :=
  storeGp s i.rd (f (loadGp s i.rs1 w))

/-- `LiftRotateIntrinsic`, /repo/src/rv64/lifter.cc:307-311. -/
def liftRotate (s : St) (i : Frv) (w : Nat) (f : Val w → Val w → Val w → Val w)
    (shiftop : Val w) : St :=
  let rs1 := loadGp s i.rs1 w
  storeGp s i.rd (sext 64 (f rs1 rs1 shiftop))

/-- `LiftBitInstruction`, /repo/src/rv64/lifter.cc:312-320. -/
def liftBit (s : St) (i : Frv) (op : Val 64 → Val 64 → Val 64) (index : Val 64) (invert : Bool) : St :=
  let index := IR.and index (some 63#64)
  let rhs := shl (some 1#64) index
  let rhs := if invert then IR.not rhs else rhs
  storeGp s i.rd (op (loadGp s i.rs1 64) rhs)

/-- `LiftBitExtract`, /repo/src/rv64/lifter.cc:321-325. -/
def liftBitExtract (s : St) (i : Frv) (index : Val 64) : St :=
  let index := IR.and index (some 63#64)
  storeGp s i.rd (IR.and (lshr (loadGp s i.rs1 64) index) (some 1#64))

/-- `LiftOrcb`, /repo/src/rv64/lifter.cc:326-333: compare with zero and sign-extend per byte lane. -/
def liftOrcb (s : St) (i : Frv) : St :=
  let res := un (fun x => Bits.ofLanes 8 8 (fun k =>
    (BitVec.ofBool (Bits.lane 8 x k != 0#8)).signExtend 8)) (loadGp s i.rs1 64)
  storeGp s i.rd res

/-- The `xor_operand` of `LiftCLMul`, /repo/src/rv64/lifter.cc:345-350. -/
def clmulOperand (m : Mnem) (rs1 : Val 64) (k : Nat) : Val 64 :=
  match m with
  | .clmulh => lshr rs1 (some (BitVec.ofNat 64 (64 - k)))
  | .clmulr => lshr rs1 (some (BitVec.ofNat 64 (63 - k)))
  | _ => shl rs1 (some (BitVec.ofNat 64 k))

/-- Loop bounds of `LiftCLMul`, /repo/src/rv64/lifter.cc:339-340. -/
def clmulStart (m : Mnem) : Nat := if m = .clmulh then 1 else 0
def clmulEnd (m : Mnem) : Nat := if m = .clmulr then 63 else 64

/-- `LiftCLMul`, /repo/src/rv64/lifter.cc:334-355. -/
def liftCLMul (s : St) (i : Frv) : St :=
  let rs1 := loadGp s i.rs1 64
  let rs2 := loadGp s i.rs2 64
  let res := (List.range' (clmulStart i.mnem) (clmulEnd i.mnem - clmulStart i.mnem)).foldl
    (fun res k =>
      let condition := icmp .eq (IR.and (some (BitVec.ofNat 64 (2 ^ k))) rs2) (some 0#64)
      IR.xor res (select condition (some 0#64) (clmulOperand i.mnem rs1 k)))
    (some 0#64)
  storeGp s i.rd res

/-- `CallExternalFunction`, /repo/src/lifter-base.cc:46-57: the callee gets the registers and the
current PC value and may change everything; afterwards the PC is an opaque value. -/
def callExt (slide : BitVec 64) (f : St → Option St) (s : St) : Option St :=
  (f { s with pc := .value (s.pc.val slide) }).map (fun s' => { s' with pc := .value (s'.pc.val slide) })

/-- Link register test `rd == 1 || rd == 5`, /repo/src/rv64/lifter.cc:402-403. -/
def isLink (r : Nat) : Bool := r == 1 || r == 5

/-- The first part of the JAL/JALR case, /repo/src/rv64/lifter.cc:391-399: target and link
register.  The PC was set to `start` before. -/
def jalState (slide : BitVec 64) (i : Frv) (start : BitVec 64) (len : Nat) (s : St) : St :=
  let s := { s with pc := .const start }
  let retAddr := s.pc.get slide (BitVec.ofNat 64 len)
  let s := if i.rs1 ≠ regInv then
      { s with pc := .value (IR.add (loadGp s i.rs1 64) (some i.imm64)) }
    else { s with pc := .const (start + i.imm64) }
  storeGp s i.rd retAddr

/-- The rest of the JAL/JALR case, /repo/src/rv64/lifter.cc:400-413. -/
def jalFinish (cfg : Cfg) (slide : BitVec 64) (i : Frv) (stop : BitVec 64) (s : St) : Option Out :=
  match cfg.callFunction with
  | none => some { st := s }
  | some f =>
    let rdl := isLink i.rd
    let rs1l := isLink i.rs1
    if !rdl && rs1l then some { st := s, returned := true }
    else if rdl && (!rs1l || i.rs1 == i.rd) then
      (callExt slide f s).map (fun s => { st := { s with pc := .check (s.pc.val slide) stop } })
    else some { st := s }

/-- The JAL/JALR case, /repo/src/rv64/lifter.cc:389-413. -/
def liftJal (cfg : Cfg) (slide : BitVec 64) (i : Frv) (start stop : BitVec 64) (len : Nat)
    (s : St) : Option Out :=
  jalFinish cfg slide i stop (jalState slide i start len s)

/-- The ECALL case, /repo/src/rv64/lifter.cc:418-429. -/
def liftEcall (cfg : Cfg) (slide : BitVec 64) (i : Frv) (start stop : BitVec 64) (s : St) :
    Option Out :=
  if i.imm = 0#32 then
    let s := { s with pc := .value (some stop) }
    match cfg.syscall with
    | none => some { st := s }
    | some f => (callExt slide f s).map (fun s => { st := s })
  else some { st := { s with pc := .value (some start) }, lifted := false }

/-- The straight-line cases of the `switch`, /repo/src/rv64/lifter.cc:431-645. `none` is undefined
behaviour; the inner `none` is the `unhandled` label. -/
def liftPlain (slide : BitVec 64) (i : Frv) (s : St) : Option (Option St) :=
  let ok (s : St) : Option (Option St) := some (some s)
  let okM (s : Option St) : Option (Option St) := s.map some
  match i.mnem with
  | .lui => ok (storeGp s i.rd (some i.imm64))
  | .auipc => ok (storeGp s i.rd (s.pc.get slide i.imm64))
  | .lb => okM (liftLoad s i 1 (sext 64))
  | .lbu => okM (liftLoad s i 1 (zext 64))
  | .lh => okM (liftLoad s i 2 (sext 64))
  | .lhu => okM (liftLoad s i 2 (zext 64))
  | .lw => okM (liftLoad s i 4 (sext 64))
  | .lwu => okM (liftLoad s i 4 (zext 64))
  | .ld => okM (liftLoad s i 8 (sext 64))
  | .sb => okM (liftStore s i 1)
  | .sh => okM (liftStore s i 2)
  | .sw => okM (liftStore s i 4)
  | .sd => okM (liftStore s i 8)
  | .addi => ok (liftBinOpI s i 64 IR.add)
  | .add => ok (liftBinOpR s i 64 IR.add)
  | .addiw => ok (liftBinOpI s i 32 IR.add)
  | .addw => ok (liftBinOpR s i 32 IR.add)
  | .sub => ok (liftBinOpR s i 64 IR.sub)
  | .subw => ok (liftBinOpR s i 32 IR.sub)
  | .andi => ok (liftBinOpI s i 64 IR.and)
  | .and => ok (liftBinOpR s i 64 IR.and)
  | .ori => ok (liftBinOpI s i 64 IR.or)
  | .or => ok (liftBinOpR s i 64 IR.or)
  | .xori => ok (liftBinOpI s i 64 IR.xor)
  | .xor => ok (liftBinOpR s i 64 IR.xor)
  | .slli => ok (liftShift s i 64 shl (some i.imm64))
  | .sll => ok (liftShift s i 64 shl (loadGp s i.rs2 64))
  | .slliw => ok (liftShift s i 32 shl (some i.imm))
  | .sllw => ok (liftShift s i 32 shl (loadGp s i.rs2 32))
  | .srli => ok (liftShift s i 64 lshr (some i.imm64))
  | .srl => ok (liftShift s i 64 lshr (loadGp s i.rs2 64))
  | .srliw => ok (liftShift s i 32 lshr (some i.imm))
  | .srlw => ok (liftShift s i 32 lshr (loadGp s i.rs2 32))
  | .srai => ok (liftShift s i 64 ashr (some i.imm64))
  | .sra => ok (liftShift s i 64 ashr (loadGp s i.rs2 64))
  | .sraiw => ok (liftShift s i 32 ashr (some i.imm))
  | .sraw => ok (liftShift s i 32 ashr (loadGp s i.rs2 32))
  | .slt => ok (storeGp s i.rd (zext 64 (icmp .slt (loadGp s i.rs1 64) (loadGp s i.rs2 64))))
  | .slti => ok (storeGp s i.rd (zext 64 (icmp .slt (loadGp s i.rs1 64) (some i.imm64))))
  | .sltu => ok (storeGp s i.rd (zext 64 (icmp .ult (loadGp s i.rs1 64) (loadGp s i.rs2 64))))
  | .sltiu => ok (storeGp s i.rd (zext 64 (icmp .ult (loadGp s i.rs1 64) (some i.imm64))))
  | .mul => ok (liftBinOpR s i 64 IR.mul)
  | .mulw => ok (liftBinOpR s i 32 IR.mul)
  | .mulh => ok (liftMulh s i (sext 128) (sext 128))
  | .mulhsu => ok (liftMulh s i (sext 128) (zext 128))
  | .mulhu => ok (liftMulh s i (zext 128) (zext 128))
  | .div => okM (liftDivRem s i 64 .sdiv)
  | .divu => okM (liftDivRem s i 64 .udiv)
  | .divw => okM (liftDivRem s i 32 .sdiv)
  | .divuw => okM (liftDivRem s i 32 .udiv)
  | .rem => okM (liftDivRem s i 64 .srem)
  | .remu => okM (liftDivRem s i 64 .urem)
  | .remw => okM (liftDivRem s i 32 .srem)
  | .remuw => okM (liftDivRem s i 32 .urem)
  | .csr => if i.imm = 1#32 ∨ i.imm = 2#32 ∨ i.imm = 3#32 then ok (storeGp s i.rd (some 0#32))
      else some none
  | .lrw => okM ((loadN s (loadGp s i.rs1 64) 4).map (fun v => storeGp s i.rd v))
  | .lrd => okM ((loadN s (loadGp s i.rs1 64) 8).map (fun v => storeGp s i.rd v))
  | .scw => let s := storeGp s i.rd (some 0#32)
      okM (storeN s (loadGp s i.rs1 64) 4 (loadGp s i.rs2 32))
  | .scd => let s := storeGp s i.rd (some 0#32)
      okM (storeN s (loadGp s i.rs1 64) 8 (loadGp s i.rs2 64))
  | .fence => ok s
  | .amoswapw => okM (liftAmo s i 4 .xchg)
  | .amoswapd => okM (liftAmo s i 8 .xchg)
  | .amoaddw => okM (liftAmo s i 4 .add)
  | .amoaddd => okM (liftAmo s i 8 .add)
  | .amoandw => okM (liftAmo s i 4 .and)
  | .amoandd => okM (liftAmo s i 8 .and)
  | .amoorw => okM (liftAmo s i 4 .or)
  | .amoord => okM (liftAmo s i 8 .or)
  | .amoxorw => okM (liftAmo s i 4 .xor)
  | .amoxord => okM (liftAmo s i 8 .xor)
  | .amomaxw => okM (liftAmo s i 4 .max)
  | .amomaxd => okM (liftAmo s i 8 .max)
  | .amomaxuw => okM (liftAmo s i 4 .umax)
  | .amomaxud => okM (liftAmo s i 8 .umax)
  | .amominw => okM (liftAmo s i 4 .min)
  | .amomind => okM (liftAmo s i 8 .min)
  | .amominuw => okM (liftAmo s i 4 .umin)
  | .amominud => okM (liftAmo s i 8 .umin)
  | .flw => okM (liftLoadFp s i 4)
  | .fsw => okM (liftStoreFp s i 4)
  | .fld => okM (liftLoadFp s i 8)
  | .fsd => okM (liftStoreFp s i 8)
  | .fmvxw => ok (storeGp s i.rd (loadFp s i.rs1 32))
  | .fmvwx => ok (storeFp s i.rd (loadGp s i.rs1 32))
  | .fmvxd => ok (storeGp s i.rd (loadFp s i.rs1 64))
  | .fmvdx => ok (storeFp s i.rd (loadGp s i.rs1 64))
  | .fsgnjs => ok (liftFsgn s i 32 false true)
  | .fsgnjns => ok (liftFsgn s i 32 false false)
  | .fsgnjxs => ok (liftFsgn s i 32 true false)
  | .fsgnjd => ok (liftFsgn s i 64 false true)
  | .fsgnjnd => ok (liftFsgn s i 64 false false)
  | .fsgnjxd => ok (liftFsgn s i 64 true false)
  | .fclasss => ok (liftFclass s i 32 0x7f800000 0x007fffff 22)
  | .fclassd => ok (liftFclass s i 64 0x7ff0000000000000 0x000fffffffffffff 51)
  | .adduw => ok (storeGp s i.rd (IR.add (loadGp s i.rs2 64) (loadUw s i.rs1)))
  | .sh1add => ok (liftShNAdd s i 1 false)
  | .sh2add => ok (liftShNAdd s i 2 false)
  | .sh3add => ok (liftShNAdd s i 3 false)
  | .sh1adduw => ok (liftShNAdd s i 1 true)
  | .sh2adduw => ok (liftShNAdd s i 2 true)
  | .sh3adduw => ok (liftShNAdd s i 3 true)
  | .slliuw => ok (storeGp s i.rd (shl (loadUw s i.rs1) (some i.imm64)))
  | .andn => ok (storeGp s i.rd (IR.and (loadGp s i.rs1 64) (IR.not (loadGp s i.rs2 64))))
  | .clz => ok (liftUnary s i 64 (ctlz false))
  | .clzw => ok (liftUnary s i 32 (ctlz false))
  | .cpop => ok (liftUnary s i 64 ctpop)
  | .cpopw => ok (liftUnary s i 32 ctpop)
  | .ctz => ok (liftUnary s i 64 (cttz false))
  | .ctzw => ok (liftUnary s i 32 (cttz false))
  | .max => ok (liftBinOpR s i 64 smax)
  | .maxu => ok (liftBinOpR s i 64 umax)
  | .min => ok (liftBinOpR s i 64 smin)
  | .minu => ok (liftBinOpR s i 64 umin)
  | .orcb => ok (liftOrcb s i)
  | .orn => ok (storeGp s i.rd (IR.or (loadGp s i.rs1 64) (IR.not (loadGp s i.rs2 64))))
  | .rev8 => ok (liftUnary s i 64 (bswap (n := 8)))
  | .rol => ok (liftRotate s i 64 fshl (loadGp s i.rs2 64))
  | .rolw => ok (liftRotate s i 32 fshl (loadGp s i.rs2 32))
  | .ror => ok (liftRotate s i 64 fshr (loadGp s i.rs2 64))
  | .rorw => ok (liftRotate s i 32 fshr (loadGp s i.rs2 32))
  | .rori => ok (liftRotate s i 64 fshr (some i.imm64))
  | .roriw => ok (liftRotate s i 32 fshr (some i.imm))
  | .sextb => ok (storeGp s i.rd (loadGp s i.rs1 8))
  | .sexth => ok (storeGp s i.rd (loadGp s i.rs1 16))
  | .xnor => ok (storeGp s i.rd (IR.not (IR.xor (loadGp s i.rs1 64) (loadGp s i.rs2 64))))
  | .zexth => ok (storeGp s i.rd (zext 64 (loadGp s i.rs1 16)))
  | .clmul | .clmulh | .clmulr => ok (liftCLMul s i)
  | .bclr => ok (liftBit s i IR.and (loadGp s i.rs2 64) true)
  | .bclri => ok (liftBit s i IR.and (some i.imm64) true)
  | .bext => ok (liftBitExtract s i (loadGp s i.rs2 64))
  | .bexti => ok (liftBitExtract s i (some i.imm64))
  | .binv => ok (liftBit s i IR.xor (loadGp s i.rs2 64) false)
  | .binvi => ok (liftBit s i IR.xor (some i.imm64) false)
  | .bset => ok (liftBit s i IR.or (loadGp s i.rs2 64) false)
  | .bseti => ok (liftBit s i IR.or (some i.imm64) false)
  | .fp op f => okM (liftFp s i op f)
  | _ => some none

/-- End of `Lift`, /repo/src/rv64/lifter.cc:384-387, 648-649: straight-line instructions set the PC
to the next instruction, unhandled ones to their own address. -/
def finishPlain (start stop : BitVec 64) (s : St) : Option (Option St) → Option Out
  | none => none
  | some none => some { st := { s with pc := .value (some start) }, lifted := false }
  | some (some s') => some { st := { s' with pc := .const stop } }

/-- `Lifter::Lift`, /repo/src/rv64/lifter.cc:363-650.  `start` and `len` are those of the
instruction, `slide` is the relocation of the PC base (see `addrPCBase`). -/
def lift (cfg : Cfg) (slide : BitVec 64) (i : Frv) (start : BitVec 64) (len : Nat) (s : St) :
    Option Out :=
  let stop := start + BitVec.ofNat 64 len
  let s := { s with pc := .const start }
  match i.mnem with
  | .jal | .jalr => liftJal cfg slide i start stop len s
  | .beq => some { st := liftBranch s i start stop .eq }
  | .bne => some { st := liftBranch s i start stop .ne }
  | .blt => some { st := liftBranch s i start stop .slt }
  | .bltu => some { st := liftBranch s i start stop .ult }
  | .bge => some { st := liftBranch s i start stop .sge }
  | .bgeu => some { st := liftBranch s i start stop .uge }
  | .ecall => liftEcall cfg slide i start stop s
  | _ => finishPlain start stop s (liftPlain slide i s)

end Verif.RV64
