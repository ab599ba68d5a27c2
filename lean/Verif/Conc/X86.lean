import Verif.Conc.Model
import Verif.X86.Model

/-!
The accesses to shared memory that the code of x86-64 instructions makes, for the instructions of `xBody`.  The functions have the
structure of those in `Verif.X86.Model`; the memory component of the state is not used.
-/

set_option linter.constructorNameAsVariable false

namespace Verif.Conc.X86

open Verif.IR Verif.X86

variable (slide : BitVec 64)

/-- A load; a poison address is undefined behaviour. -/
def cLoad (a : Val 64) (n align : Nat) (k : Val (8 * n) → Code St) : Code St :=
  match a with
  | none => .ub
  | some a => .acc { n, addr := a, align, ord := .notAtomic, upd := none } k

/-- A store. -/
def cStore (a : Val 64) (n align : Nat) (v : Val (8 * n)) (c : Code St) : Code St :=
  match a with
  | none => .ub
  | some a => .acc { n, addr := a, align, ord := .notAtomic, upd := some fun _ => v, reads := false } fun _ => c

/-- An `atomicrmw` or `cmpxchg` with natural alignment; all of them are sequentially consistent,
/repo/src/x86-64/lifter-gp.cc:75, 100, 125, 152, 171, 200, 564. -/
def cRmw (a : Val 64) (n : Nat) (f : Val (8 * n) → Val (8 * n)) (k : Val (8 * n) → Code St) : Code St :=
  match a with
  | none => .ub
  | some a => .acc { n, addr := a, align := n, ord := .seqCst, upd := some f } k

/-- Computations without an access. -/
def pure' {α : Type} (x : Option α) (k : α → Code St) : Code St :=
  match x with
  | none => .ub
  | some v => k v

/-- `OpLoad`, /repo/src/x86-64/lifter-operand.cc:158-178. -/
def cOpLoad (m : St) (z : Sz) (o : Op) (ds : Bool) (k : Val z.bits → Code St) : Code St :=
  match o with
  | .mem o => pure' (opAddr slide m o ds) fun a => cLoad a z.bytes 1 k
  | o => pure' (opLoad slide m z o ds) k

/-- `OpStoreGp`, /repo/src/x86-64/lifter-operand.cc:198-214. -/
def cOpStore (m : St) (z : Sz) (o : Op) (v : Val z.bits) (k : St → Code St) : Code St :=
  match o with
  | .mem o => pure' (opAddr slide m o) fun a => cStore a z.bytes 1 v (k m)
  | o => pure' (opStore slide m z o v) k

/-- `OpStoreGp` under a condition known when lifting. -/
def cOpStoreIf (m : St) (c : Bool) (z : Sz) (o : Op) (v : Val z.bits) (k : St → Code St) : Code St :=
  if c then cOpStore slide m z o v k else k m

/-- `CreateAtomicRMW`, `CreateAtomicCmpXchg` on a memory operand. -/
def cAtomicRmw (m : St) (z : Sz) (o : Op) (f : Val z.bits → Val z.bits) (k : Val z.bits → Code St) : Code St :=
  match o with
  | .mem o => pure' (opAddr slide m o) fun a => cRmw a z.bytes f k
  | _ => .ub

/-- The old value of the destination: an `atomicrmw` with the LOCK prefix, a plain load otherwise
(/repo/src/x86-64/lifter-gp.cc:72-79, 149-155, 196-204). -/
def cRmwLoad (m : St) (z : Sz) (lock : Bool) (d : Op) (f : Val z.bits → Val z.bits) (k : Val z.bits → Code St) : Code St :=
  if lock then cAtomicRmw slide m z d f k else cOpLoad slide m z d false k

/-- `LiftMovgp`, /repo/src/x86-64/lifter-gp.cc:44-51. -/
def cMov (m : St) (z sz : Sz) (d s : Op) (k : St → Code St) : Code St :=
  cOpLoad slide m sz s false fun v => cOpStore slide m z d (sext z.bits v) k

/-- `LiftArith`, /repo/src/x86-64/lifter-gp.cc:64-92. -/
def cArith (cfg : Cfg) (m : St) (k : Arith) (z : Sz) (lock : Bool) (d s : Op) (fin : St → Code St) : Code St :=
  cOpLoad slide m z s false fun op2 =>
    let op2 := if k = .adc ∨ k = .sbb then IR.add op2 (zext z.bits (m.getF .cf)) else op2
    let sub : Bool := k = .sub ∨ k = .sbb ∨ k = .cmp
    let f := fun a : Val z.bits => if sub then IR.sub a op2 else IR.add a op2
    cRmwLoad slide m z lock d f fun op1 =>
      let res := f op1
      cOpStoreIf slide m (k ≠ .cmp ∧ lock = false) z d res fun m =>
        cOpStoreIf slide m (k = .xadd) z s op1 fun m =>
          fin (if sub then flagSub m res op1 op2 false (k = .cmp) else flagAdd cfg m res op1 op2)

/-- `LiftCmpxchg`, /repo/src/x86-64/lifter-gp.cc:94-119. -/
def cCmpxchg (m : St) (z : Sz) (lock : Bool) (d s : Op) (fin : St → Code St) : Code St :=
  let acc := m.get rax z
  cOpLoad slide m z s false fun src =>
    if lock then
      cAtomicRmw slide m z d (fun old => select (icmp .eq old acc) src old) fun dst =>
        let m := flagSub m (IR.sub acc dst) acc dst
        let m := m.setF .zf (icmp .eq dst acc)
        fin (m.store rax z dst)
    else
      cOpLoad slide m z d false fun dst =>
        let m := flagSub m (IR.sub acc dst) acc dst
        cOpStore slide m z d (select (m.getF .zf) src dst) fun m => fin (m.store rax z dst)

/-- `LiftXchg`, /repo/src/x86-64/lifter-gp.cc:121-133. -/
def cXchg (m : St) (z : Sz) (d s : Op) (fin : St → Code St) : Code St :=
  cOpLoad slide m z s false fun op2 =>
    match d with
    | .mem _ => cAtomicRmw slide m z d (fun _ => op2) fun op1 => cOpStore slide m z s op1 fin
    | _ => cOpLoad slide m z d false fun op1 => cOpStore slide m z d op2 fun m => cOpStore slide m z s op1 fin

/-- `LiftAndOrXor`, /repo/src/x86-64/lifter-gp.cc:135-165. -/
def cLogic (m : St) (k : Logic) (z : Sz) (lock : Bool) (d s : Op) (fin : St → Code St) : Code St :=
  if k = .xor ∧ sameReg d s = true ∧ 4 ≤ z.bytes then
    cOpStore slide m z d (some 0) fun m =>
      let m := flagSap m (some 0#64)
      fin (((m.setF .zf (some 1#1)).setF .cf (some 0#1)).setF .of (some 0#1))
  else
    cOpLoad slide m z s false fun op2 =>
      let f := fun a : Val z.bits => match k with
        | .and | .test => IR.and a op2
        | .or => IR.or a op2
        | .xor => IR.xor a op2
      cRmwLoad slide m z lock d f fun op1 =>
        let res := f op1
        cOpStoreIf slide m (k ≠ .test ∧ lock = false) z d res fun m =>
          let m := flagSap (flagZ m res) res
          fin ((m.setF .cf (some 0#1)).setF .of (some 0#1))

/-- `LiftNot`, /repo/src/x86-64/lifter-gp.cc:167-176. -/
def cNot (m : St) (z : Sz) (lock : Bool) (d : Op) (fin : St → Code St) : Code St :=
  if lock then cAtomicRmw slide m z d (fun a => IR.xor a (some (BitVec.allOnes z.bits))) fun _ => fin m
  else cOpLoad slide m z d false fun v => cOpStore slide m z d (IR.not v) fin

/-- `LiftIncDec`, /repo/src/x86-64/lifter-gp.cc:187-209. -/
def cIncDec (cfg : Cfg) (m : St) (dec : Bool) (z : Sz) (lock : Bool) (d : Op) (fin : St → Code St) : Code St :=
  let op2 : Val z.bits := some 1#z.bits
  let f := fun a : Val z.bits => if dec then IR.sub a op2 else IR.add a op2
  cRmwLoad slide m z lock d f fun op1 =>
    cOpStoreIf slide m (lock = false) z d (f op1) fun m =>
      fin (if dec then flagSub m (f op1) op1 op2 true else flagAdd cfg m (f op1) op1 op2 true)

/-- `LiftCmovcc`, /repo/src/x86-64/lifter-gp.cc:476-481. -/
def cCmov (m : St) (c : Cond) (z : Sz) (d s : Op) (fin : St → Code St) : Code St :=
  cOpLoad slide m z d false fun op1 =>
    cOpLoad slide m z s false fun op2 => cOpStore slide m z d (select (flagCond m c) op2 op1) fin

/-- The access of `LiftBittest`, /repo/src/x86-64/lifter-gp.cc:562-580. -/
def cBtAccess (m : St) (k : BitOp) (z : Sz) (lock : Bool) (d s : Op) (index mask : Val z.bits) (fin : Val z.bits → St → Code St) :
    Code St :=
  match d with
  | .mem o =>
    pure' (btAddr slide m z o s index) fun a =>
      if lock then cRmw a z.bytes (btOp k mask) fun v => fin v m
      else cLoad a z.bytes z.bytes fun v =>
        if k ≠ .bt then cStore a z.bytes z.bytes (btOp k mask v) (fin v m) else fin v m
  | d =>
    if lock then .ub
    else cOpLoad slide m z d false fun v => cOpStoreIf slide m (k ≠ .bt) z d (btOp k mask v) fun m => fin v m

/-- `LiftBittest`, /repo/src/x86-64/lifter-gp.cc:536-587. -/
def cBittest (m : St) (k : BitOp) (z : Sz) (lock : Bool) (d s : Op) (fin : St → Code St) : Code St :=
  if z = .b then .ub
  else
    let rest (index : Val z.bits) : Code St :=
      let mask := IR.shl (some (BitVec.ofNat z.bits 1)) (IR.and index (some (BitVec.ofNat _ (z.bits - 1))))
      cBtAccess slide m k z lock d s index mask fun val m =>
        fin ((m.setF .cf (icmp .ne (IR.and val mask) (some 0))).undef [.of, .sf, .af, .pf])
    match s with
    | .imm v => pure' (opLoad slide m .b (.imm v)) fun v => rest (zext z.bits v)
    | s => cOpLoad slide m z s false rest

/-- `StackPush`, /repo/src/x86-64/lifter-operand.cc:228-234. -/
def cPush (m : St) (z : Sz) (v : Val z.bits) (fin : St → Code St) : Code St :=
  let sp := IR.add (m.gp rsp) (some (-(BitVec.ofNat 64 z.bytes)))
  cStore sp z.bytes z.bytes v (fin (m.setGp rsp sp))

/-- `StackPop`, /repo/src/x86-64/lifter-operand.cc:236-240. -/
def cPop (m : St) (src : Fin 16) (fin : Val 64 → St → Code St) : Code St :=
  let sp := m.gp src
  let m1 := m.setGp rsp (IR.add sp (some 8#64))
  cLoad sp 8 8 fun v => fin v m1

/-- The destination of `LiftMovzx`, /repo/src/x86-64/lifter-gp.cc:53-61. -/
def cMovzxStore (m : St) (z : Sz) {w : Nat} (v : Val w) (d : Op) (k : St → Code St) : Code St :=
  match z, d with
  | .d, .reg r => k (m.setGp r (zext 64 v))
  | .q, .reg r => k (m.setGp r (zext 64 v))
  | z, d => cOpStore slide m z d (zext z.bits v) k

/-- `LiftMovzx`, /repo/src/x86-64/lifter-gp.cc:53-61. -/
def cMovzx (m : St) (z sz : Sz) (d s : Op) (k : St → Code St) : Code St :=
  cOpLoad slide m sz s false fun v => cMovzxStore slide m z v d k

/-- `LiftMovbe`, /repo/src/x86-64/lifter-gp.cc:589-592. -/
def cMovbe (m : St) (z : Sz) (d s : Op) (k : St → Code St) : Code St :=
  cOpLoad slide m z s false fun v => cOpStore slide m z d (bswap v) k

/-- `LiftNeg`, /repo/src/x86-64/lifter-gp.cc:178-185. -/
def cNeg (m : St) (z : Sz) (lock : Bool) (d : Op) (fin : St → Code St) : Code St :=
  if lock then .ub
  else cOpLoad slide m z d false fun op1 => cOpStore slide (flagSub m (IR.neg op1) (some 0#z.bits) op1) z d (IR.neg op1) fin

/-- `LiftShift`, /repo/src/x86-64/lifter-gp.cc:211-248. -/
def cShift (m : St) (k : Shift) (z : Sz) (d c : Op) (fin : St → Code St) : Code St :=
  cOpLoad slide m z d false fun src =>
    cOpLoad slide m .b c false fun count =>
      let srcEx := if k = .sar then sext (exBits z) src else zext (exBits z) src
      let shift := IR.and (zext (exBits z) count) (some (BitVec.ofNat _ (countMask z)))
      let resEx := match k with
        | .shl => IR.shl srcEx shift
        | .shr => IR.lshr srcEx shift
        | .sar => IR.ashr srcEx shift
      let res := trunc z.bits resEx
      cOpStore slide m z d res fun m =>
        let cfBig := match k with
          | .shl => IR.lshr srcEx (IR.sub (some (BitVec.ofNat _ z.bits)) shift)
          | _ => IR.lshr srcEx (IR.sub shift (some 1))
        let m := flagSap (flagZ m res) res
        let m := m.setF .cf (trunc 1 cfBig)
        fin (m.setF .of (icmp .slt (IR.xor src res) (some 0)))

/-- `LiftShiftdouble`, /repo/src/x86-64/lifter-gp.cc:250-279. -/
def cShiftd (m : St) (left : Bool) (z : Sz) (d s c : Op) (fin : St → Code St) : Code St :=
  cOpLoad slide m z d false fun src1 =>
    cOpLoad slide m z s false fun src2 =>
      cOpLoad slide m .b c false fun count =>
        let shift := IR.and (zext z.bits count) (some (BitVec.ofNat _ (countMask z)))
        let res := if left then fshl src1 src2 shift else fshr src2 src1 shift
        cOpStore slide m z d res fun m => fin ((flagSap (flagZ m res) res).undef [.of, .cf])

/-- `LiftRotate`, /repo/src/x86-64/lifter-gp.cc:281-305. -/
def cRotate (m : St) (left : Bool) (z : Sz) (d c : Op) (fin : St → Code St) : Code St :=
  cOpLoad slide m z d false fun src =>
    cOpLoad slide m .b c false fun count =>
      let shift := IR.and (zext z.bits count) (some (BitVec.ofNat _ (countMask z)))
      cOpStore slide m z d (if left then fshl src src shift else fshr src src shift) fun m => fin (m.undef [.of, .cf])

/-- `LiftMul` with one operand, /repo/src/x86-64/lifter-gp.cc:307-364. -/
def cMul1 (cfg : Cfg) (m : St) (signed : Bool) (z : Sz) (s : Op) (fin : St → Code St) : Code St :=
  cOpLoad slide m z s false fun op1 =>
    let op2 := m.get rax z
    let extRes := IR.mul (extOp signed (z.bits * 2) op1) (extOp signed (z.bits * 2) op2)
    fin (mulFlags cfg (mulStore m z extRes) signed op1 op2)

/-- `LiftMul` with two or three operands, /repo/src/x86-64/lifter-gp.cc:307-364. -/
def cImul2 (cfg : Cfg) (m : St) (z : Sz) (d s t : Op) (fin : St → Code St) : Code St :=
  cOpLoad slide m z s false fun op1 =>
    cOpLoad slide m z t false fun op2 =>
      cOpStore slide m z d (IR.mul op1 op2) fun m => fin (mulFlags cfg m true op1 op2)

/-- `LiftDiv`, /repo/src/x86-64/lifter-gp.cc:366-426. -/
def cDiv (m : St) (signed : Bool) (z : Sz) (s : Op) (high : High) (fin : St → Code St) : Code St :=
  let fin (m : St) : Code St := fin (m.undef [.of, .sf, .zf, .af, .pf, .cf])
  if z = .b then
    cOpLoad slide m .b s false fun divisor =>
      pure' (divRem signed (m.get rax .w) (extOp signed (Sz.bits .w) divisor)) fun (q, r) =>
        fin ((m.store rax .b (trunc (Sz.bits .b) q)).storeH rax (trunc 8 r))
  else pure' (divShort signed z high) fun short =>
    cOpLoad slide m z s false fun divisor =>
      if short then
        pure' (divRem signed (m.get rax z) divisor) fun (q, r) => fin ((m.store rax z q).store rdx z r)
      else
        let hi := IR.shl (zext (z.bits * 2) (m.get rdx z)) (some (BitVec.ofNat _ z.bits))
        let dividend := IR.or (zext (z.bits * 2) (m.get rax z)) hi
        pure' (divRem signed dividend (extOp signed (z.bits * 2) divisor)) fun (q, r) =>
          fin ((m.store rax z (trunc z.bits q)).store rdx z (trunc z.bits r))

/-- `LiftXlat`, /repo/src/x86-64/lifter-gp.cc:461-474. -/
def cXlat (m : St) (a32 : Bool) (fin : St → Code St) : Code St :=
  let bx := if a32 then zext 64 (m.get rbx .d) else m.gp rbx
  cLoad (IR.add bx (zext 64 (m.get rax .b))) 1 1 fun v => fin (m.store rax .b v)

/-- `LiftBitscan`, /repo/src/x86-64/lifter-gp.cc:499-522; the destination is a register. -/
def cBitscan (m : St) (trailing : Bool) (z : Sz) (r : Fin 16) (s : Op) (fin : St → Code St) : Code St :=
  cOpLoad slide m z s false fun src =>
    let res := if trailing then cttz true src
      else IR.sub (some (BitVec.ofNat _ (z.bits - 1))) (ctlz true src)
    let eq := icmp .eq src (some 0)
    pure' (bitscanStore slide m eq z (.reg r) res) fun m => fin ((m.setF .zf eq).undef [.of, .sf, .af, .pf, .cf])

/-- `LiftPopcnt`, /repo/src/x86-64/lifter-gp.cc:524-534. -/
def cPopcnt (m : St) (z : Sz) (d s : Op) (fin : St → Code St) : Code St :=
  cOpLoad slide m z s false fun src =>
    cOpStore slide m z d (ctpop src) fun m =>
      let m := flagZ m src
      fin (((((m.setF .of (some 0)).setF .sf (some 0)).setF .af (some 0)).setPf (some 1)).setF .cf (some 0))

/-- `LiftCall`, /repo/src/x86-64/lifter-gp.cc:637-661, of an operand, without `call_function`. -/
def cCall (cfg : Cfg) (m : St) (s : Op) (fin : St → Code St) : Code St :=
  let m := clobber cfg m
  cOpLoad slide m .q s true fun newRip => cPush m .q (m.ipRel slide) fun m => fin { m with pc := .value newRip }

/-- `LiftFstcw`, `LiftFstsw`, `LiftStmxcsr`, /repo/src/x86-64/lifter-sse.cc:91-101. -/
def cCtl (m : St) (k : Ctl) (o : Op) (fin : St → Code St) : Code St :=
  match k with
  | .fstcw => cOpStore slide m .w o (some 0x37f#16) fin
  | .fstsw => cOpStore slide m .w o (some 0#16) fin
  | .stmxcsr => cOpStore slide m .d o (some 0x1f80#32) fin
  | .fldcw | .ldmxcsr => fin m

/-- The accesses of a string instruction, /repo/src/x86-64/lifter-gp.cc:838-938. -/
def cStrBody (k : Str) (z : Sz) (ax : Val z.bits) (si di : Val 64) (fin : Val z.bits → Val z.bits → Code St) : Code St :=
  match k with
  | .lods => cLoad si z.bytes z.bytes fun v => fin v v
  | .stos => cStore di z.bytes z.bytes ax (fin ax ax)
  | .movs => cLoad si z.bytes z.bytes fun v => cStore di z.bytes z.bytes v (fin v v)
  | .scas => cLoad di z.bytes z.bytes fun v => fin ax v
  | .cmps => cLoad si z.bytes z.bytes fun a => cLoad di z.bytes z.bytes fun b => fin a b

/-- String instructions without repetition, /repo/src/x86-64/lifter-gp.cc:838-938. -/
def cStr (m : St) (k : Str) (z : Sz) (fin : St → Code St) : Code St :=
  let adj := select (m.getF .df) (some (-1#64)) (some 1#64)
  let si := m.gp rsi
  let di := m.gp rdi
  cStrBody k z (m.get rax z) si di fun a b =>
    let m := if k.hasDi then m.setGp rdi (IR.add di (IR.mul adj (some (BitVec.ofNat 64 z.bytes)))) else m
    let m := if k.hasSi then m.setGp rsi (IR.add si (IR.mul adj (some (BitVec.ofNat 64 z.bytes)))) else m
    let m := if k.isCmp then flagSub m (IR.sub a b) a b else m
    fin (if k = .lods then m.store rax z a else m)

/-- Instructions without an access. -/
def noAccess : Instr → Bool
  | .nop | .jmpRel _ | .jcc _ _ | .jcxz _ _ | .loop _ _ _ | .cext _ | .csep _ | .sahf | .lahf | .clc | .stc | .cmc | .cld | .std
  | .cpuid | .rdtsc => true
  | .lea _ (.reg _) _ => true
  | .jmp (.reg _) => true
  | _ => false

/-- The instructions with modelled accesses, /repo/src/x86-64/lifter.cc:68-210; `none` for others. -/
def xBody (cfg : Cfg) (i : Instr) (m : St) (fin : St → Code St) : Option (Code St) :=
  match i with
  | .mov z sz d s => some (cMov slide m z sz d s fin)
  | .arith k z lock d s => some (cArith slide cfg m k z lock d s fin)
  | .cmpxchg z lock d s => some (cCmpxchg slide m z lock d s fin)
  | .xchg z d s => some (cXchg slide m z d s fin)
  | .logic k z lock d s => some (cLogic slide m k z lock d s fin)
  | .not z lock d => some (cNot slide m z lock d fin)
  | .incdec dec z lock d => some (cIncDec slide cfg m dec z lock d fin)
  | .cmov c z d s => some (cCmov slide m c z d s fin)
  | .setcc c d => some (cOpStore slide m .b d (zext (Sz.bits .b) (flagCond m c)) fin)
  | .bittest k z lock d s => some (cBittest slide m k z lock d s fin)
  | .push z s => some (cOpLoad slide m z s false fun v => cPush m z v fin)
  | .pop z (.reg r) => some (cPop m rsp fun v m => pure' (popStore slide m z (.reg r) v) fin)
  | .callRel off => some (cPush (clobber cfg m) .q ((clobber cfg m).ipRel slide) fun m1 =>
      fin { m1 with pc := .value ((clobber cfg m).ipRel slide off) })
  | .ret pop => some (cPop (clobber cfg m) rsp fun v m =>
      let m := { m with pc := .value v }
      fin (match pop with
        | some n => m.setGp rsp (IR.add (m.gp rsp) (some n))
        | none => m))
  | .movzx z sz d s => some (cMovzx slide m z sz d s fin)
  | .movbe z d s => some (cMovbe slide m z d s fin)
  | .bswap z d => some (cMovbe slide m z d d fin)
  | .neg z lock d => some (cNeg slide m z lock d fin)
  | .shift k z d c => some (cShift slide m k z d c fin)
  | .shiftd left z d s c => some (cShiftd slide m left z d s c fin)
  | .rotate left z d c => some (cRotate slide m left z d c fin)
  | .mul1 signed z s => some (cMul1 slide cfg m signed z s fin)
  | .imul2 z d s t => some (cImul2 slide cfg m z d s t fin)
  | .div signed z s high => some (cDiv slide m signed z s high fin)
  | .xlat a32 _ => some (cXlat m a32 fin)
  | .bitscan trailing _ z (.reg r) s => some (cBitscan slide m trailing z r s fin)
  | .popcnt z d s => some (cPopcnt slide m z d s fin)
  | .jmp s => some (cOpLoad slide m .q s true fun v => fin { m with pc := .value v })
  | .call s => some (cCall slide cfg m s fin)
  | .pushf z => some (cPush m z (flagAsReg m z) fin)
  | .popf _ => some (cPop m rsp fun v m => fin (flagFromReg m v))
  | .leave => some (cPop m rbp fun v m => fin (m.store rbp .q v))
  | .ctl k o => some (cCtl slide m k o fin)
  | .str k z .none _ _ => some (cStr m k z fin)
  -- `LiftFence`, /repo/src/x86-64/lifter-sse.cc:43-46
  | .sse .fence => some (.fence .seqCst (fin m))
  | _ => none

/-- The code of an instruction, `Lifter::Lift`, /repo/src/x86-64/lifter.cc:48-330, as accesses to shared memory; `none` for
instructions whose accesses are not modelled here. -/
def xCode (cfg : Cfg) (i : Instr) (start : BitVec 64) (len : Nat) (m : St) : Option (Code St) :=
  if noAccess i then some (pure' (lift cfg slide i start len m) fun o => .done o.st)
  else xBody slide cfg i { m with pc := .const (stopPc start len) } .done

/-- A thread that executes lifted code, one instruction after the other.  Instructions that are not modelled count as undefined
behaviour. -/
def xProg (cfg : Cfg) (fetch : BitVec 64 → Option (Instr × Nat)) (m : St) : Code St :=
  match m.pc.val slide with
  | none => .ub
  | some pc =>
    match fetch pc with
    | none => .ub
    | some (i, len) => (xCode slide cfg i (pc - slide) len m).getD .ub

/-- Is the operand in memory? -/
def isMem : Op → Nat
  | .mem _ => 1
  | _ => 0

/-- Number of memory accesses and fences in the code of an instruction. -/
def accesses : Instr → Nat
  | .mov _ _ d s => isMem s + isMem d
  | .arith k _ lock d s =>
    isMem s + (if lock then 1 else isMem d + if k = .cmp then 0 else isMem d) + if k = .xadd then isMem s else 0
  | .cmpxchg _ lock d s => isMem s + if lock then 1 else 2 * isMem d
  | .xchg _ d s => isMem s + isMem d + isMem s
  | .logic k _ lock d s => isMem s + if lock then 1 else isMem d + if k = .test then 0 else isMem d
  | .not _ lock d | .incdec _ _ lock d => if lock then 1 else 2 * isMem d
  | .cmov _ _ d s => 2 * isMem d + isMem s
  | .setcc _ d => isMem d
  | .bittest k _ lock d s => isMem s + if lock then 1 else isMem d + if k = .bt then 0 else isMem d
  | .push _ s => isMem s + 1
  | .pop .. | .callRel _ | .ret _ => 1
  | .movzx _ _ d s | .movbe _ d s | .popcnt _ d s => isMem s + isMem d
  | .bswap _ d | .neg _ _ d => 2 * isMem d
  | .shift _ _ d c | .rotate _ _ d c => 2 * isMem d + isMem c
  | .shiftd _ _ d s c => 2 * isMem d + isMem s + isMem c
  | .mul1 _ _ s | .div _ _ s _ | .bitscan _ _ _ _ s | .jmp s => isMem s
  | .imul2 _ d s t => isMem d + isMem s + isMem t
  | .call s => isMem s + 1
  | .xlat .. | .pushf _ | .popf _ | .leave => 1
  | .sse i => if i = .fence then 1 else 0
  | .ctl _ o => isMem o
  | .str k _ _ _ _ => if k = .movs ∨ k = .cmps then 2 else 1
  | _ => 0

end Verif.Conc.X86
