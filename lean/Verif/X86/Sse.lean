import Verif.X86.State
import Verif.IR.Vec
import Verif.IR.FpArith

/-!
Model of the SSE part of the x86-64 lifter, /repo/src/x86-64/lifter-sse.cc; line numbers without a file
refer to it.  The dispatch is `Rows.lean`.

Simplifications.  Floating-point and integer vectors with elements of the same size are not distinguished.
A vector with a poison element is poison when it is written to a register or to memory.  The fast-math
flags of the IR builder are off.  The memory ordering of fences and the non-temporal hint have no effect
on one thread.  Not modelled: `FSTCW`, `FSTSW`, `STMXCSR`, `FLDCW`, `LDMXCSR` (there is no x87 or MXCSR
state in the lifted code; the lifter stores constants and ignores loads).
-/

namespace Verif.X86

set_option linter.constructorNameAsVariable false

open Verif.IR

/-- Operand of an SSE instruction. -/
inductive XOp where
  | x (r : Fin 16)
  | gp (r : Fin 16)
  | mem (o : MemOp)
  deriving DecidableEq, Repr

inductive VBin where
  | add | sub | mul | and | or | xor
  | f (op : Fp.Arith)
  deriving DecidableEq, Repr

inductive Cvt where
  | dq2pd | dq2ps | pd2dq | ps2dq | pd2ps | ps2pd | sd2ss | ss2sd
  deriving DecidableEq, Repr

/-- Decoded SSE instructions.  `z` is the size of an element, `imm` the value of `Op::imm()`. -/
inductive Sse where
  /-- MOVD, MOVQ -/
  | movq (z : Sz) (d s : XOp)
  /-- MOVSS, MOVSD -/
  | movs (z : Sz) (d s : XOp)
  /-- MOVAPS, MOVAPD, MOVDQA, MOVNTDQA, and unaligned MOVUPS, MOVUPD, MOVDQU, LDDQU -/
  | movdq (aligned : Bool) (d s : XOp)
  /-- MOVNTPS, MOVNTPD, MOVNTDQ -/
  | movnt (d : MemOp) (s : Fin 16)
  | movhlps (d s : Fin 16)
  /-- MOVLPS, MOVLPD -/
  | movlp (d s : XOp)
  /-- MOVHPS, MOVLHPS, and MOVHPD -/
  | movhp (pd : Bool) (d s : XOp)
  /-- PADD*, PSUB*, PMULL*, PHADD*, PHSUB*, PAND, POR, PXOR, ANDP*, ORP*, XORP*, ADDP*, ADDS*, HADDP*, ... -/
  | bin (op : VBin) (horz scalar : Bool) (z : Sz) (d : Fin 16) (s : XOp)
  /-- ADDSUBPS, ADDSUBPD -/
  | addsub (z : Sz) (d : Fin 16) (s : XOp)
  /-- ANDNPS, ANDNPD, PANDN -/
  | andn (z : Sz) (d : Fin 16) (s : XOp)
  /-- COMISS, COMISD, UCOMISS, UCOMISD -/
  | comis (z : Sz) (d : Fin 16) (s : XOp)
  /-- CMPSS, CMPSD, CMPPS, CMPPD -/
  | cmp (scalar : Bool) (z : Sz) (d : Fin 16) (s : XOp) (imm : BitVec 64)
  /-- MINSS, ..., MAXPD -/
  | fminmax (max scalar : Bool) (z : Sz) (d : Fin 16) (s : XOp)
  /-- SQRTSS, SQRTSD, SQRTPS, SQRTPD -/
  | sqrt (scalar : Bool) (z : Sz) (d : Fin 16) (s : XOp)
  | cvt (k : Cvt) (d : Fin 16) (s : XOp)
  /-- CVTTSS2SI, CVTTSD2SI -/
  | cvttsi (z iz : Sz) (d : Fin 16) (s : XOp)
  /-- CVTSI2SS, CVTSI2SD -/
  | cvtsi (z iz : Sz) (d : Fin 16) (s : XOp)
  /-- PUNPCKL*, PUNPCKH*, UNPCKLP*, UNPCKHP* -/
  | unpck (hi : Bool) (z : Sz) (d : Fin 16) (s : XOp)
  | shufpd (d : Fin 16) (s : XOp) (imm : BitVec 64)
  | shufps (d : Fin 16) (s : XOp) (imm : BitVec 64)
  | pshufd (d : Fin 16) (s : XOp) (imm : BitVec 64)
  /-- PSHUFLW, PSHUFHW -/
  | pshufw (hi : Bool) (d : Fin 16) (s : XOp) (imm : BitVec 64)
  | insertps (d : Fin 16) (s : XOp) (imm : BitVec 64)
  /-- PINSRB, PINSRW, PINSRD, PINSRQ -/
  | pinsr (z : Sz) (d : Fin 16) (s : XOp) (imm : BitVec 64)
  /-- PEXTRB, PEXTRW, PEXTRD, PEXTRQ, EXTRACTPS -/
  | pextr (z : Sz) (d : XOp) (s : Fin 16) (imm : BitVec 64)
  /-- MOVSLDUP, MOVSHDUP, MOVDDUP -/
  | movdup (odd : Bool) (z : Sz) (d : Fin 16) (s : XOp)
  /-- PSLL*, PSRL*, PSRA* -/
  | pshift (k : Shift) (z : Sz) (d : Fin 16) (c : XOp ⊕ BitVec 64)
  /-- PSLLDQ, PSRLDQ -/
  | pshiftBytes (right : Bool) (d : Fin 16) (imm : BitVec 64)
  | palignr (d : Fin 16) (s : XOp) (imm : BitVec 64)
  | pavg (z : Sz) (d : Fin 16) (s : XOp)
  /-- PMULHW, PMULHUW -/
  | pmulh (sgn : Bool) (d : Fin 16) (s : XOp)
  /-- PMULDQ, PMULUDQ -/
  | pmuld (sgn : Bool) (d : Fin 16) (s : XOp)
  | pmaddwd (d : Fin 16) (s : XOp)
  /-- PADDS*, PADDUS*, PSUBS*, PSUBUS*, PHADDSW, PHSUBSW -/
  | padds (sub sgn horz : Bool) (z : Sz) (d : Fin 16) (s : XOp)
  | psadbw (d : Fin 16) (s : XOp)
  | pmaddubsw (d : Fin 16) (s : XOp)
  /-- PACKSSWB, PACKSSDW, PACKUSWB, PACKUSDW; `z` is the size of the source elements -/
  | pack (sgn : Bool) (z : Sz) (d : Fin 16) (s : XOp)
  /-- PCMPEQ*, PCMPGT* -/
  | pcmp (gt : Bool) (z : Sz) (d : Fin 16) (s : XOp)
  /-- PMINU*, PMINS*, PMAXU*, PMAXS* -/
  | pminmax (max sgn : Bool) (z : Sz) (d : Fin 16) (s : XOp)
  | pabs (z : Sz) (d : Fin 16) (s : XOp)
  | psign (z : Sz) (d : Fin 16) (s : XOp)
  /-- PMOVMSKB, MOVMSKPS, MOVMSKPD; `rz` is the size of the destination register -/
  | movmsk (z rz : Sz) (d : Fin 16) (s : Fin 16)
  /-- PMOVSX*, PMOVZX* -/
  | pmovx (sgn : Bool) (zf zt : Sz) (d : Fin 16) (s : XOp)
  | fxsave (o : MemOp)
  | fxrstor (o : MemOp)
  /-- PREFETCH* -/
  | prefetch (o : MemOp)
  /-- MFENCE, LFENCE, SFENCE -/
  | fence
  deriving DecidableEq, Repr

/-- Number of elements in an XMM register. -/
abbrev Sz.cnt (z : Sz) : Nat := 16 / z.bytes

/-! ### Operands -/

/-- `OpLoad` of `n` bytes, /repo/src/x86-64/lifter-operand.cc:158-178. -/
def xload (slide : BitVec 64) (m : St) (n align : Nat) : XOp → Option (Val (8 * n))
  | .x r => some (trunc (8 * n) (m.vec r))
  | .gp r => some (trunc (8 * n) (m.gp r))
  | .mem o => do
    let a ← opAddr slide m o
    load m a n align

/-- `Merge` into a vector register, /repo/src/regfile.cc:575-592, 405-437: the upper part is kept. -/
def St.mergeX (m : St) (r : Fin 16) {w : Nat} (v : Val w) : St :=
  let v := if w = 128 then zext 128 v
    else IR.or (IR.and (m.vec r) (some (BitVec.allOnes 128 <<< w))) (zext 128 v)
  { m with vec := fun x => if x = r then v else m.vec x }

/-- `OpStoreVec`, /repo/src/x86-64/lifter-operand.cc:216-226. -/
def xstore (slide : BitVec 64) (m : St) (n align : Nat) (d : XOp) (v : Val (8 * n)) : Option St :=
  match d with
  | .x r => some (m.mergeX r v)
  | .gp _ => none
  | .mem o => do
    let a ← opAddr slide m o
    store m a n align v

/-- A register as vector of elements of size `z`. -/
def St.xvec (m : St) (z : Sz) (r : Fin 16) : Vec z.bits := Vec.ofBits z.bits (m.vec r)

/-- `OpLoad` as vector of `n` elements. -/
def xloadV (slide : BitVec 64) (m : St) (z : Sz) (n align : Nat) (o : XOp) : Option (Vec z.bits) :=
  (xload slide m (z.bytes * n) align o).map (Vec.ofBits z.bits)

/-- `OpStoreVec` of a vector of `n` elements to a register. -/
def St.setX (m : St) (r : Fin 16) {w : Nat} (n : Nat) (v : Vec w) : St := m.mergeX r (v.toBits n)

/-- `OpLoad` of the second operand as full vector, and `OpStoreVec` of the result to the first. -/
def bin128 (slide : BitVec 64) (m : St) (z : Sz) (align : Nat) (d : Fin 16) (s : XOp) {w : Nat} (n : Nat)
    (f : Vec z.bits → Vec z.bits → Vec w) : Option St := do
  let b ← xloadV slide m z z.cnt align s
  return m.setX d n (f (m.xvec z d) b)

/-! ### Lanes -/

section
variable {w : Nat}

/-- `CreateBinOp`. -/
def laneBin (op : VBin) (a b : Val w) : Val w :=
  match op with
  | .add => IR.add a b
  | .sub => IR.sub a b
  | .mul => IR.mul a b
  | .and => IR.and a b
  | .or => IR.or a b
  | .xor => IR.xor a b
  | .f op => fbin op a b

/-- `horzToVert`, 194-207. -/
def horzToVert (n : Nat) (a b : Vec w) : Vec w × Vec w :=
  (Vec.shuffle n a b ((List.range n).map fun i => 2 * i), Vec.shuffle n a b ((List.range n).map fun i => 2 * i + 1))

/-- The `fcmp` predicates of `LiftSseCmp`, 258-282; `none` is the failing assertion. -/
def cmpPred (imm : BitVec 64) : Option (Fp.Rel → Bool) :=
  match imm.toNat with
  | 0 => some (· == .eq)
  | 1 => some (· == .lt)
  | 2 => some fun r => r == .lt || r == .eq
  | 3 => some (· == .un)
  | 4 => some (· != .eq)
  | 5 => some fun r => r == .un || r == .gt || r == .eq
  | 6 => some fun r => r == .un || r == .gt
  | 7 => some (· != .un)
  | _ => none

/-- `LiftSsePshiftElement`, 449-483, on one lane. -/
def lanePshift (k : Shift) (c : Val 64) (a : Val w) : Val w :=
  match k with
  | .sar =>
    let mx : Val 64 := some (BitVec.ofNat 64 (w - 1))
    IR.ashr a (trunc w (select (icmp .ugt c mx) mx c))
  | _ =>
    let amt := trunc w c
    let r := if k = .shl then IR.shl a amt else IR.lshr a amt
    select (icmp .ult c (some (BitVec.ofNat 64 w))) r (some 0)

/-- `LiftSsePavg`, 524-540. -/
def lanePavg (a b : Val w) : Val w :=
  trunc w (IR.lshr (IR.add (IR.add (zext (2 * w) a) (zext (2 * w) b)) (some 1)) (some 1))

/-- `SaturateTrunc` to elements of half the size `v`, 581-602. -/
def satTrunc (v : Nat) (sgn : Bool) (a : Val w) : Val v :=
  let mn : BitVec w := if sgn then (BitVec.intMin v).signExtend w else 0
  let mx : BitVec w := if sgn then (BitVec.intMax v).signExtend w else (BitVec.allOnes v).setWidth w
  let a := select (icmp .slt a (some mn)) (some mn) a
  let a := select (icmp .sgt a (some mx)) (some mx) a
  trunc v a

/-- `LiftSsePaddsubSaturate`, 604-621. -/
def lanePadds (sub sgn : Bool) (a b : Val w) : Val w :=
  let x := IR.ext sgn (2 * w) a
  let y := IR.ext sgn (2 * w) b
  satTrunc w sgn (if sub then IR.sub x y else IR.add x y)

/-- `LiftSsePcmp`, 685-691. -/
def lanePcmp (gt : Bool) (a b : Val w) : Val w := sext w (if gt then icmp .sgt a b else icmp .eq a b)

/-- `LiftSsePminmax`, 693-699. -/
def lanePminmax (max sgn : Bool) (a b : Val w) : Val w :=
  select (if max then (if sgn then icmp .sgt a b else icmp .ugt a b)
    else (if sgn then icmp .slt a b else icmp .ult a b)) a b

/-- `LiftSsePabs`, 701-707. -/
def lanePabs (a : Val w) : Val w := select (icmp .sge a (some 0)) a (IR.sub (some 0) a)

/-- `LiftSsePsign`, 709-718. -/
def lanePsign (a b : Val w) : Val w :=
  select (icmp .eq b (some 0)) (some 0) (select (icmp .slt b (some 0)) (IR.neg a) a)

/-- `LiftSseMinmax`, 284-290. -/
def laneMinmax (max : Bool) (a b : Val w) : Val w :=
  select (fcmp (if max then (· == .gt) else (· == .lt)) a b) a b

end

/-- The masks of `LiftSseUnpck`, 328-346. -/
def unpckMask (hi : Bool) (z : Sz) : List Nat :=
  match hi, z with
  | false, .b => [0, 16, 1, 17, 2, 18, 3, 19, 4, 20, 5, 21, 6, 22, 7, 23]
  | true, .b => [8, 24, 9, 25, 10, 26, 11, 27, 12, 28, 13, 29, 14, 30, 15, 31]
  | false, .w => [0, 8, 1, 9, 2, 10, 3, 11]
  | true, .w => [4, 12, 5, 13, 6, 14, 7, 15]
  | false, .d => [0, 4, 1, 5]
  | false, .q => [0, 2]
  | true, .d => [2, 6, 3, 7]
  | true, .q => [1, 3]

/-- `(imm >> k) & mask` on `int64_t`. -/
def immField (imm : BitVec 64) (k mask : Nat) : Nat := (imm.sshiftRight k &&& BitVec.ofNat 64 mask).toNat

/-! ### Instructions -/

/-- `LiftSseMovhps`, 159-179. -/
def liftMovhps (slide : BitVec 64) (m : St) (d s : XOp) : Option St :=
  match d with
  | .mem o => do
    let v ← xloadV slide m .d 4 1 s
    let a ← opAddr slide m o
    store m a 8 8 (bitcast 64 ((Vec.shuffle 4 v Vec.zero [2, 3]).toBits 2))
  | .gp _ => none
  | .x r => do
    let b ← xloadV slide m .d 2 1 s
    let b := Vec.shuffle 2 b Vec.zero [0, 1, 2, 3]
    return m.setX r 4 (Vec.shuffle 4 (m.xvec .d r) b [0, 1, 4, 5])

/-- `LiftSseMovhpd`, 181-192. -/
def liftMovhpd (slide : BitVec 64) (m : St) (d s : XOp) : Option St :=
  match d with
  | .mem o => do
    let v ← xloadV slide m .q 2 1 s
    let a ← opAddr slide m o
    store m a 8 8 (v.extract 2 1)
  | .gp _ => none
  | .x r => do
    let b ← xload slide m 8 1 s
    return m.setX r 2 ((m.xvec .q r).insert 2 1 b)

/-- `LiftSseBinOp`, 209-223: exclusive or of a register with itself is zero. -/
def liftBin (slide : BitVec 64) (m : St) (op : VBin) (horz scalar : Bool) (z : Sz) (d : Fin 16) (s : XOp) :
    Option St :=
  if horz = false ∧ op = .xor ∧ s = .x d then
    if scalar then some (m.mergeX d (some 0#z.bits)) else some (m.setX d (w := z.bits) z.cnt Vec.zero)
  else if scalar then do
    let b ← xload slide m z.bytes 1 s
    return m.mergeX d (laneBin op (trunc z.bits (m.vec d)) b)
  else bin128 slide m z 1 d s z.cnt fun a b =>
    let (a, b) := if horz then horzToVert z.cnt a b else (a, b)
    fun i => laneBin op (a i) (b i)

/-- `LiftSseAddSub`, 225-237. -/
def liftAddsub (slide : BitVec 64) (m : St) (z : Sz) (d : Fin 16) (s : XOp) : Option St :=
  bin128 slide m z 16 d s z.cnt fun a b =>
    Vec.shuffle z.cnt (fun i => fbin .sub (a i) (b i)) (fun i => fbin .add (a i) (b i))
      ((List.range z.cnt).map fun i => i + (if i % 2 = 1 then z.cnt else 0))

/-- `LiftSseComis`, 245-256. -/
def liftComis (slide : BitVec 64) (m : St) (z : Sz) (d : Fin 16) (s : XOp) : Option St := do
  let a := trunc z.bits (m.vec d)
  let b ← xload slide m z.bytes 1 s
  let m := m.setF .zf (fcmp (fun r => r == .un || r == .eq) a b)
  let m := m.setF .cf (fcmp (fun r => r == .un || r == .lt) a b)
  let m := m.setPf (zext 8 (fcmp (· != .un) a b))
  return ((m.setF .af (some 0)).setF .of (some 0)).setF .sf (some 0)

/-- `LiftSseCmp`, 258-282. -/
def liftCmp (slide : BitVec 64) (m : St) (scalar : Bool) (z : Sz) (d : Fin 16) (s : XOp) (imm : BitVec 64) :
    Option St := do
  let p ← cmpPred imm
  if scalar then
    let b ← xload slide m z.bytes z.bytes s
    return m.mergeX d (sext z.bits (fcmp p (trunc z.bits (m.vec d)) b))
  else bin128 slide m z 16 d s z.cnt fun a b i => sext z.bits (fcmp p (a i) (b i))

/-- `LiftSseMinmax`, 284-290. -/
def liftFminmax (slide : BitVec 64) (m : St) (max scalar : Bool) (z : Sz) (d : Fin 16) (s : XOp) : Option St :=
  if scalar then do
    let b ← xload slide m z.bytes z.bytes s
    return m.mergeX d (laneMinmax max (trunc z.bits (m.vec d)) b)
  else bin128 slide m z 16 d s z.cnt fun a b i => laneMinmax max (a i) (b i)

/-- `LiftSseSqrt`, 292-295. -/
def liftSqrt (slide : BitVec 64) (m : St) (scalar : Bool) (z : Sz) (d : Fin 16) (s : XOp) : Option St :=
  if scalar then do
    let b ← xload slide m z.bytes 1 s
    return m.mergeX d (fsqrt b)
  else bin128 slide m z 1 d s z.cnt fun _ b i => fsqrt (b i)

/-- `LiftSseCvt` for vectors and between scalars, 297-322; the opcode chosen by `getCastOpcode` for signed
integers. -/
def liftCvt (slide : BitVec 64) (m : St) (k : Cvt) (d : Fin 16) (s : XOp) : Option St :=
  let half (v : Vec 32) : Vec 32 := Vec.shuffle 2 v Vec.zero [0, 1, 2, 3]
  match k with
  | .dq2pd => do
    let v ← xloadV slide m .d 2 1 s
    return m.setX d 2 fun i => sitofp 64 (v i)
  | .dq2ps => do
    let v ← xloadV slide m .d 4 1 s
    return m.setX d 4 fun i => sitofp 32 (v i)
  | .pd2dq => do
    let v ← xloadV slide m .q 2 1 s
    return m.setX d 4 (half fun i => fptosi 32 (v i))
  | .ps2dq => do
    let v ← xloadV slide m .d 4 1 s
    return m.setX d 4 fun i => fptosi 32 (v i)
  | .pd2ps => do
    let v ← xloadV slide m .q 2 1 s
    return m.setX d 4 (half fun i => fpconv 32 (v i))
  | .ps2pd => do
    let v ← xloadV slide m .d 2 1 s
    return m.setX d 2 fun i => fpconv 64 (v i)
  | .sd2ss => do
    let v ← xload slide m 8 1 s
    return m.mergeX d (fpconv 32 v)
  | .ss2sd => do
    let v ← xload slide m 4 1 s
    return m.mergeX d (fpconv 64 v)

/-- `LiftSsePshufw`, 377-384. -/
def pshufwMask (hi : Bool) (imm : BitVec 64) : List Nat :=
  let off := if hi then 4 else 0
  (List.range 8).map fun i => if off ≤ i ∧ i < off + 4 then off + immField imm (2 * i) 3 else i

/-- `LiftSseInsertps`, 386-412. -/
def liftInsertps (slide : BitVec 64) (m : St) (d : Fin 16) (s : XOp) (imm : BitVec 64) : Option St := do
  let src ← match s with
    | .mem _ => xload slide m 4 1 s
    | _ => (xloadV slide m .d 4 1 s).map fun v => v.extract 4 (immField imm 6 3)
  let v := (m.xvec .d d).insert 4 (immField imm 4 3) src
  let zmask := immField imm 0 15
  if zmask = 0 then return m.setX d 4 v
  else return m.setX d 4 (Vec.shuffle 4 v Vec.zero ((List.range 4).map fun i =>
    if zmask.testBit i then 4 else i))

/-- `LiftSsePextr`, 422-437. -/
def liftPextr (slide : BitVec 64) (m : St) (z : Sz) (d : XOp) (s : Fin 16) (imm : BitVec 64) : Option St :=
  let v := (m.xvec z s).extract z.cnt (immField imm 0 (z.cnt - 1))
  match d with
  | .x _ => none
  | .gp r => some (m.setGp r (zext 64 v))
  | .mem o => do
    let a ← opAddr slide m o
    store m a z.bytes 1 v

/-- `LiftSseMovdup`, 439-447: the memory operand of MOVDDUP has one element. -/
def liftMovdup (slide : BitVec 64) (m : St) (odd : Bool) (z : Sz) (d : Fin 16) (s : XOp) : Option St := do
  let n := match s, z with
    | .mem _, .q => 1
    | _, z => z.cnt
  let v ← xloadV slide m z n (z.bytes * n) s
  return m.setX d z.cnt (Vec.shuffle n v v ((List.range z.cnt).map fun i => i / 2 * 2 + odd.toNat))

/-- `LiftSsePshiftBytes`, 485-497. -/
def liftPshiftBytes (m : St) (right : Bool) (d : Fin 16) (imm : BitVec 64) : St :=
  let shift := min (imm.toNat % 2 ^ 32) 16
  let mask := (List.range 16).map fun i => i + (if right then shift else 16 - shift)
  m.setX d 16 (if right then Vec.shuffle 16 (m.xvec .b d) Vec.zero mask
    else Vec.shuffle 16 Vec.zero (m.xvec .b d) mask)

/-- `LiftSsePalignr`, 499-522. -/
def palignrV (imm : Nat) (a b : Vec 8) : Vec 8 :=
  if imm = 0 then b
  else if imm = 16 then a
  else if 32 ≤ imm then Vec.zero
  else
    let mask := (List.range 16).map fun i => i + imm % 16
    if 16 < imm then Vec.shuffle 16 a Vec.zero mask else Vec.shuffle 16 b a mask

/-- `LiftSsePsadbw`, 623-644. -/
def psadbwV (a b : Vec 8) : Vec 16 :=
  let diff : Vec 8 := fun i =>
    let d := IR.sub (a i) (b i)
    select (icmp .ugt (b i) (a i)) (IR.neg d) d
  let low := Vec.shuffle 16 diff Vec.zero [0, 1, 2, 3, 4, 5, 6, 7]
  let high := Vec.shuffle 16 diff Vec.zero [8, 9, 10, 11, 12, 13, 14, 15]
  let lowr : Val 16 := Vec.reduce IR.add (some 0) 8 fun i => zext 16 (low i)
  let highr : Val 16 := Vec.reduce IR.add (some 0) 8 fun i => zext 16 (high i)
  Vec.insert 8 (Vec.insert 8 Vec.zero 0 lowr) 4 highr

/-- `LiftSsePmaddubsw`, 646-666: `a` is the second operand (signed bytes), `b` the first. -/
def pmaddubswV (b a : Vec 8) : Vec 16 :=
  let undef : Vec 8 := fun _ => none
  let even (v : Vec 8) := Vec.shuffle 16 v undef [0, 2, 4, 6, 8, 10, 12, 14]
  let odd (v : Vec 8) := Vec.shuffle 16 v undef [1, 3, 5, 7, 9, 11, 13, 15]
  fun i => satTrunc 16 true (IR.add (IR.mul (sext 32 (even a i)) (zext 32 (even b i)))
    (IR.mul (sext 32 (odd a i)) (zext 32 (odd b i))))

/-- `LiftSsePmaddwd`, 567-579. -/
def pmaddwdV (a b : Vec 16) : Vec 32 :=
  let mul : Vec 32 := fun i => IR.mul (sext 32 (a i)) (sext 32 (b i))
  fun i => IR.add (Vec.shuffle 8 mul mul [0, 2, 4, 6] i) (Vec.shuffle 8 mul mul [1, 3, 5, 7] i)

/-- `LiftSsePmuldq`, 556-565. -/
def pmuldq (sgn : Bool) (a b : Vec 32) : Vec 64 :=
  fun i => IR.mul (IR.ext sgn 64 (Vec.shuffle 4 a a [0, 2] i)) (IR.ext sgn 64 (Vec.shuffle 4 b b [0, 2] i))

/-- `LiftSsePack`, 668-683. -/
def packV (z : Sz) (sgn : Bool) (a b : Vec z.bits) : Vec (z.bits / 2) :=
  Vec.shuffle z.cnt (fun i => satTrunc (z.bits / 2) sgn (a i)) (fun i => satTrunc (z.bits / 2) sgn (b i))
    (List.range z.cnt ++ (List.range z.cnt).map fun i => i + z.cnt)

/-- Bytes of the FXSAVE area up to the XMM registers. -/
def fxHeader : Nat := 0xa0

/-- `LiftFxsave`, 61-75. -/
def liftFxsave (slide : BitVec 64) (m : St) (o : MemOp) : Option St := do
  let a ← opAddr slide m o
  let m ← store m a fxHeader 16 (some 0)
  (List.finRange 16).foldlM (fun (m : St) i =>
    store m (IR.add a (some (BitVec.ofNat 64 (fxHeader + 16 * i.val)))) 16 16 (m.vec i)) m

/-- `LiftFxrstor`, 77-89. -/
def liftFxrstor (slide : BitVec 64) (m : St) (o : MemOp) : Option St := do
  let a ← opAddr slide m o
  (List.finRange 16).foldlM (fun (m : St) i => do
    let v ← load m (IR.add a (some (BitVec.ofNat 64 (fxHeader + 16 * i.val)))) 16 16
    return m.mergeX i v) m

/-- The lifted code of an SSE instruction. -/
def Sse.lift (slide : BitVec 64) (i : Sse) (m : St) : Option St :=
  match i with
  | .movq z d s => do  -- `LiftSseMovq`, 103-115
    let v ← xload slide m z.bytes 1 s
    match d with
    | .x r => return m.setX r z.cnt (Vec.zero.insert z.cnt 0 v)
    | .gp r => return m.store r z v
    | .mem o =>
      let a ← opAddr slide m o
      store m a z.bytes 1 v
  | .movs z d s => do  -- `LiftSseMovScalar`, 117-127
    let v ← xload slide m z.bytes 1 s
    let m := match s, d with
      | .mem _, .x r => m.setX r (w := z.bits) z.cnt Vec.zero
      | _, _ => m
    xstore slide m z.bytes z.bytes d v
  | .movdq al d s => do  -- `LiftSseMovdq`, 129-131
    let v ← xload slide m 16 (if al then 16 else 1) s
    xstore slide m 16 (if al then 16 else 1) d v
  | .movnt o s => do  -- `LiftSseMovntStore`, 133-143
    let a ← opAddr slide m o
    store m a 16 16 (m.vec s)
  | .movhlps d s =>  -- `LiftSseMovlp`, 145-157
    some (m.setX d 2 (Vec.shuffle 4 (m.xvec .d s) Vec.zero [2, 3]))
  | .movlp d s => do  -- `LiftSseMovlp`, 145-157
    let v ← xload slide m 8 1 s
    xstore slide m 8 8 d v
  | .movhp pd d s => if pd then liftMovhpd slide m d s else liftMovhps slide m d s
  | .bin op horz scalar z d s => liftBin slide m op horz scalar z d s
  | .addsub z d s => liftAddsub slide m z d s
  | .andn z d s =>  -- `LiftSseAndn`, 239-243
    bin128 slide m z 16 d s z.cnt fun a b i => IR.and (IR.not (a i)) (b i)
  | .comis z d s => liftComis slide m z d s
  | .cmp scalar z d s imm => liftCmp slide m scalar z d s imm
  | .fminmax max scalar z d s => liftFminmax slide m max scalar z d s
  | .sqrt scalar z d s => liftSqrt slide m scalar z d s
  | .cvt k d s => liftCvt slide m k d s
  | .cvttsi z iz d s => do  -- `LiftSseCvt`, 297-322
    let v ← xload slide m z.bytes 1 s
    return m.store d iz (fptosi iz.bits v)
  | .cvtsi z iz d s => do  -- `LiftSseCvt`, 297-322
    let v ← xload slide m iz.bytes 1 s
    return m.mergeX d (sitofp z.bits v)
  | .unpck hi z d s =>  -- `LiftSseUnpck`, 324-348
    bin128 slide m z 16 d s z.cnt fun a b => Vec.shuffle z.cnt a b (unpckMask hi z)
  | .shufpd d s imm =>  -- `LiftSseShufpd`, 350-356
    bin128 slide m .q 16 d s 2 fun a b => Vec.shuffle 2 a b
      [if immField imm 0 1 ≠ 0 then 1 else 0, if immField imm 0 2 ≠ 0 then 3 else 2]
  | .shufps d s imm =>  -- `LiftSseShufps`, 358-366
    bin128 slide m .d 16 d s 4 fun a b => Vec.shuffle 4 a b
      ((List.range 4).map fun i => (if i < 2 then 0 else 4) + immField imm (2 * i) 3)
  | .pshufd d s imm =>  -- `LiftSsePshufd`, 368-375
    bin128 slide m .d 16 d s 4 fun _ b => Vec.shuffle 4 b b ((List.range 4).map fun i => immField imm (2 * i) 3)
  | .pshufw hi d s imm =>
    bin128 slide m .w 16 d s 8 fun _ b => Vec.shuffle 8 b b (pshufwMask hi imm)
  | .insertps d s imm => liftInsertps slide m d s imm
  | .pinsr z d s imm => do  -- `LiftSsePinsr`, 414-420
    let v ← xload slide m z.bytes 1 s
    return m.setX d z.cnt ((m.xvec z d).insert z.cnt (immField imm 0 (z.cnt - 1)) v)
  | .pextr z d s imm => liftPextr slide m z d s imm
  | .movdup odd z d s => liftMovdup slide m odd z d s
  | .pshift k z d c => do
    let c ← match c with
      | .inl o => xload slide m 8 1 o
      | .inr imm => some (some imm)
    return m.setX d z.cnt fun i => lanePshift k c (m.xvec z d i)
  | .pshiftBytes right d imm => some (liftPshiftBytes m right d imm)
  | .palignr d s imm => bin128 slide m .b 16 d s 16 (palignrV (imm.toNat % 2 ^ 32))
  | .pavg z d s => bin128 slide m z 1 d s z.cnt fun a b i => lanePavg (a i) (b i)
  | .pmulh sgn d s =>  -- `LiftSsePmulhw`, 542-554
    bin128 slide m .w 1 d s 8 fun a b i =>
      trunc 16 (IR.lshr (IR.mul (IR.ext sgn 32 (a i)) (IR.ext sgn 32 (b i))) (some 16))
  | .pmuld sgn d s => bin128 slide m .d 1 d s 2 (pmuldq sgn)
  | .pmaddwd d s => bin128 slide m .w 1 d s 4 pmaddwdV
  | .padds sub sgn horz z d s =>
    bin128 slide m z 16 d s z.cnt fun a b =>
      let (a, b) := if horz then horzToVert z.cnt a b else (a, b)
      fun i => lanePadds sub sgn (a i) (b i)
  | .psadbw d s => bin128 slide m .b 1 d s 8 psadbwV
  | .pmaddubsw d s => bin128 slide m .b 1 d s 8 pmaddubswV
  | .pack sgn z d s => bin128 slide m z 16 d s (2 * z.cnt) (packV z sgn)
  | .pcmp gt z d s => bin128 slide m z 16 d s z.cnt fun a b i => lanePcmp gt (a i) (b i)
  | .pminmax max sgn z d s => bin128 slide m z 16 d s z.cnt fun a b i => lanePminmax max sgn (a i) (b i)
  | .pabs z d s => bin128 slide m z 16 d s z.cnt fun _ b i => lanePabs (b i)
  | .psign z d s => bin128 slide m z 16 d s z.cnt fun a b i => lanePsign (a i) (b i)
  | .movmsk z rz d s =>  -- `LiftSseMovmsk`, 720-727; `OpStoreGp` asserts the size of the register
    if rz = .q then
      let bits := Vec.toBits z.cnt fun i => icmp .slt (m.xvec z s i) (some 0)
      some (m.setGp d (zext 64 bits))
    else none
  | .pmovx sgn zf zt d s => do  -- `LiftSsePmovx`, 729-734
    let v ← xloadV slide m zf zt.cnt 1 s
    return m.setX d zt.cnt fun i => IR.ext sgn zt.bits (v i)
  | .fxsave o => liftFxsave slide m o
  | .fxrstor o => liftFxrstor slide m o
  | .prefetch o => do  -- `LiftPrefetch`, 48-59
    let _ ← opAddr slide m o
    return m
  | .fence => some m  -- `LiftFence`, 43-46

end Verif.X86
