import Verif.X86.Rows

/-!
The dispatch of the x86-64 lifter: which code every mnemonic gets (C68).

`Rows.lean` is the switch as it is written.  `Mn.instr` is what a row does: it combines the arguments in the row
with the places in which the called method looks at the mnemonic again (`inst.type()`), and gives the operation of
the model whose code that is.  `names` is the specification: the mnemonics of the manual by their naming scheme.
-/

namespace Verif.X86

set_option linter.constructorNameAsVariable false

open Verif.IR

/-- The operands of an instruction as the decoder returns them, /repo/src/instr.h:45-190.  Simplification: operands
of vector instructions (`x0`, `x1`, `imm`, `gz` for the size of a general-purpose operand) and of the other
instructions (all other fields) are kept apart; only one of the two groups is used by an instruction. -/
structure Operands where
  x0 : XOp
  x1 : XOp ⊕ BitVec 64
  imm : BitVec 64
  gz : Sz
  /-- Sizes of the first two operands. -/
  z : Sz
  sz : Sz
  lock : Bool
  op0 : Op
  op1 : Option Op
  op2 : Option Op
  /-- `is_pcrel()` operand 0. -/
  rel : Option (BitVec 64)
  a32 : Bool
  seg : Seg
  rep : Rep
  /-- What the IR builder knows about the dividend. -/
  high : High

/-! ### Operand forms -/

abbrev Form := Operands → Option Instr

namespace Form

/-- XMM register and XMM register or memory -/
def xx (f : Fin 16 → XOp → Sse) : Form := fun o => match o.x0, o.x1 with
  | .x d, .inl (.x s) => some (.sse (f d (.x s)))
  | .x d, .inl (.mem s) => some (.sse (f d (.mem s)))
  | _, _ => none
/-- The same with an immediate -/
def xxi (f : Fin 16 → XOp → BitVec 64 → Sse) : Form := fun o => xx (fun d s => f d s o.imm) o
/-- XMM register and any register or memory, with an immediate -/
def xri (f : Fin 16 → XOp → BitVec 64 → Sse) : Form := fun o => match o.x0, o.x1 with
  | .x d, .inl s => some (.sse (f d s o.imm))
  | _, _ => none
/-- Any two operands that are not immediates -/
def aa (f : XOp → XOp → Sse) : Form := fun o => match o.x1 with
  | .inl s => some (.sse (f o.x0 s))
  | _ => none
/-- Any operand, XMM register and immediate -/
def axi (f : XOp → Fin 16 → BitVec 64 → Sse) : Form := fun o => match o.x1 with
  | .inl (.x s) => some (.sse (f o.x0 s o.imm))
  | _ => none
/-- Memory and XMM register -/
def mx (f : MemOp → Fin 16 → Sse) : Form := fun o => match o.x0, o.x1 with
  | .mem d, .inl (.x s) => some (.sse (f d s))
  | _, _ => none
/-- General-purpose register and XMM register -/
def gx (f : Sz → Fin 16 → Fin 16 → Sse) : Form := fun o => match o.x0, o.x1 with
  | .gp d, .inl (.x s) => some (.sse (f o.gz d s))
  | _, _ => none
/-- General-purpose register and XMM register or memory -/
def ga (f : Sz → Fin 16 → XOp → Sse) : Form := fun o => match o.x0, o.x1 with
  | .gp d, .inl (.x s) => some (.sse (f o.gz d (.x s)))
  | .gp d, .inl (.mem s) => some (.sse (f o.gz d (.mem s)))
  | _, _ => none
/-- XMM register and general-purpose register or memory -/
def xg (f : Sz → Fin 16 → XOp → Sse) : Form := fun o => match o.x0, o.x1 with
  | .x d, .inl (.gp s) => some (.sse (f o.gz d (.gp s)))
  | .x d, .inl (.mem s) => some (.sse (f o.gz d (.mem s)))
  | _, _ => none
/-- XMM register and XMM register, memory or immediate count -/
def xc (f : Fin 16 → (XOp ⊕ BitVec 64) → Sse) : Form := fun o => match o.x0 with
  | .x d => some (.sse (f d o.x1))
  | _ => none
/-- XMM register and immediate -/
def xi (f : Fin 16 → BitVec 64 → Sse) : Form := fun o => match o.x0, o.x1 with
  | .x d, .inr c => some (.sse (f d c))
  | _, _ => none
/-- Two XMM registers -/
def regs (f : Fin 16 → Fin 16 → Sse) : Form := fun o => match o.x0, o.x1 with
  | .x d, .inl (.x s) => some (.sse (f d s))
  | _, _ => none
/-- Memory -/
def m (f : MemOp → Sse) : Form := fun o => match o.x0 with
  | .mem d => some (.sse (f d))
  | _ => none

/-- Two operands of the other instructions -/
def two (f : Operands → Op → Op → Instr) : Form := fun o => match o.op1 with
  | some s => some (f o o.op0 s)
  | none => none
def three (f : Operands → Op → Op → Op → Instr) : Form := fun o => match o.op1, o.op2 with
  | some s, some t => some (f o o.op0 s t)
  | _, _ => none

end Form

/-! ### What a row does -/

/-- A vector facet of 16 bytes or less: float?, size of the elements, number of the elements
(/repo/src/facet.inc:13-33, 42-47; `Facet::Resolve` of an XMM register). -/
def Facet.vec : Facet → Option (Bool × Sz × Nat)
  | .V16I8 | .VI8 => some (false, .b, 16)
  | .V8I8 => some (false, .b, 8)
  | .V4I8 => some (false, .b, 4)
  | .V2I8 => some (false, .b, 2)
  | .V8I16 | .VI16 => some (false, .w, 8)
  | .V4I16 => some (false, .w, 4)
  | .V2I16 => some (false, .w, 2)
  | .V4I32 | .VI32 => some (false, .d, 4)
  | .V2I32 => some (false, .d, 2)
  | .V2I64 | .VI64 => some (false, .q, 2)
  | .V4F32 | .VF32 => some (true, .d, 4)
  | .V2F32 => some (true, .d, 2)
  | .V2F64 | .VF64 => some (true, .q, 2)
  | _ => none

/-- A scalar facet: float?, size (/repo/src/facet.inc:2-11). -/
def Facet.scalar : Facet → Option (Bool × Sz)
  | .I8 => some (false, .b)
  | .I16 => some (false, .w)
  | .I32 => some (false, .d)
  | .I64 => some (false, .q)
  | .F32 => some (true, .d)
  | .F64 => some (true, .q)
  | _ => none

/-- Element size of a full vector. -/
def Facet.full (f : Facet) : Option Sz := match f.vec with
  | some (_, z, n) => if n = z.cnt then some z else none
  | none => none

/-- A scalar or a full vector of floating-point numbers: scalar?, size. -/
def Facet.fp (f : Facet) : Option (Bool × Sz) := match f.scalar, f.vec with
  | some (true, z), _ => some (true, z)
  | _, some (true, z, n) => if n = z.cnt then some (false, z) else none
  | _, _ => none

def noForm : Form := fun _ => none

/-- A row whose arguments do not fit (invalid IR) has no form. -/
def Form.get : Option Form → Form
  | some f => f
  | none => noForm

/-- `LiftSseBinOp`, /repo/src/x86-64/lifter-sse.cc:208-239: the operation fits the type of the elements. -/
def LOp.bin : LOp → Bool → Option VBin
  | .Add, false => some .add
  | .Sub, false => some .sub
  | .Mul, false => some .mul
  | .And, false => some .and
  | .Or, false => some .or
  | .Xor, false => some .xor
  | .FAdd, true => some (.f .add)
  | .FSub, true => some (.f .sub)
  | .FMul, true => some (.f .mul)
  | .FDiv, true => some (.f .div)
  | _, _ => none

def LOp.shift : LOp → Option Shift
  | .Shl => some .shl
  | .LShr => some .shr
  | .AShr => some .sar
  | _ => none

/-- `cast` argument: signed? -/
def LOp.sgn : LOp → Option Bool
  | .SExt => some true
  | .ZExt => some false
  | _ => none

/-- The masks of `LiftSseUnpck` by mnemonic, /repo/src/x86-64/lifter-sse.cc:328-346. -/
def Mn.unpck : Mn → Option (List Nat)
  | .SSE_PUNPCKLBW => some [0, 16, 1, 17, 2, 18, 3, 19, 4, 20, 5, 21, 6, 22, 7, 23]
  | .SSE_PUNPCKHBW => some [8, 24, 9, 25, 10, 26, 11, 27, 12, 28, 13, 29, 14, 30, 15, 31]
  | .SSE_PUNPCKLWD => some [0, 8, 1, 9, 2, 10, 3, 11]
  | .SSE_PUNPCKHWD => some [4, 12, 5, 13, 6, 14, 7, 15]
  | .SSE_UNPCKLPS | .SSE_PUNPCKLDQ => some [0, 4, 1, 5]
  | .SSE_UNPCKLPD | .SSE_PUNPCKLQDQ => some [0, 2]
  | .SSE_UNPCKHPS | .SSE_PUNPCKHDQ => some [2, 6, 3, 7]
  | .SSE_UNPCKHPD | .SSE_PUNPCKHQDQ => some [1, 3]
  | _ => none

/-- `LiftSseCvt` by source and destination, /repo/src/x86-64/lifter-sse.cc:281-322. -/
def cvtForm : Facet → Facet → Form
  | .V2I32, .V2F64 => Form.xx (.cvt .dq2pd)
  | .V4I32, .V4F32 => Form.xx (.cvt .dq2ps)
  | .V2F64, .V2I32 => Form.xx (.cvt .pd2dq)
  | .V4F32, .V4I32 => Form.xx (.cvt .ps2dq)
  | .V2F64, .V2F32 => Form.xx (.cvt .pd2ps)
  | .V2F32, .V2F64 => Form.xx (.cvt .ps2pd)
  | .F64, .F32 => Form.xx (.cvt .sd2ss)
  | .F32, .F64 => Form.xx (.cvt .ss2sd)
  | .F64, .I => Form.ga (.cvttsi .q)
  | .F32, .I => Form.ga (.cvttsi .d)
  | .I, .F64 => Form.xg (.cvtsi .q)
  | .I, .F32 => Form.xg (.cvtsi .d)
  | _, _ => noForm

/-- `LiftArith`, /repo/src/x86-64/lifter-gp.cc:60-92: the carry is added for ADC and SBB, 67; the result is not written for CMP,
83; the old value is written for XADD, 85. -/
def arithKind (sub : Bool) (mn : Mn) : Option Arith :=
  if mn = .ADC ∨ mn = .SBB then some (if sub then .sbb else .adc)
  else if mn = .CMP then if sub then some .cmp else none
  else if mn = .XADD then if sub then none else some .xadd
  else some (if sub then .sub else .add)

/-- `LiftAndOrXor`, /repo/src/x86-64/lifter-gp.cc:132-168: the zeroing idiom only for XOR, 137. -/
def logicKind (op : LOp) (rmw : Rmw) (wb : Bool) (mn : Mn) : Option Logic :=
  match op, rmw, wb, decide (mn = .XOR) with
  | .And, .And, true, false => some .and
  | .Or, .Or, true, false => some .or
  | .Xor, .Xor, true, true => some .xor
  | .And, .And, false, false => some .test
  | _, _, _, _ => none

/-- `LiftShift`, /repo/src/x86-64/lifter-gp.cc:205-251: the flags are those of SAR, 216, or SHL, 233, by mnemonic. -/
def shiftKind (op : LOp) (mn : Mn) : Option Shift :=
  match op, decide (mn = .SAR), decide (mn = .SHL) with
  | .Shl, false, true => some .shl
  | .LShr, false, false => some .shr
  | .AShr, true, false => some .sar
  | _, _, _ => none

/-- `LiftBittest`, /repo/src/x86-64/lifter-gp.cc:540-585: the mask is complemented for BTR, 560; nothing is written for BT, 574. -/
def bitKind (op : LOp) (rmw : Rmw) (mn : Mn) : Option BitOp :=
  if mn = .BT then some .bt
  else match op, rmw, decide (mn = .BTR) with
    | .Xor, .Xor, false => some .btc
    | .And, .And, true => some .btr
    | .Or, .Or, false => some .bts
    | _, _, _ => none

/-- `LiftLoop`, /repo/src/x86-64/lifter-gp.cc:619-635. -/
def loopKind (mn : Mn) : LoopKind :=
  if mn = .LOOPZ then .loopz else if mn = .LOOPNZ then .loopnz else .loop

/-- The string mnemonics that the methods in /repo/src/x86-64/lifter-gp.cc:727-930 look at. -/
def strForm (k : Str) : Form := fun o => some (.str k o.z o.rep o.a32 o.seg)

/-- What a row does.  Cites the methods; the operations themselves are `lift` and `Sse.lift`. -/
def Handler.form (mn : Mn) : Handler → Form
  | .nothing => fun _ => some .nop
  | .lahf => fun _ => some .lahf
  | .sahf => fun _ => some .sahf
  | .setFlag .cf v => fun _ => some (if v then .stc else .clc)
  | .setFlag .df v => fun _ => some (if v then .std else .cld)
  | .setFlag _ _ => noForm
  | .notFlag .cf => fun _ => some .cmc
  | .notFlag _ => noForm
  | .push => fun o => some (.push o.z o.op0)
  | .pushf => fun o => some (.pushf o.z)
  | .popf => fun o => some (.popf o.z)
  | .pop => fun o => some (.pop o.z o.op0)
  | .leave => fun _ => some .leave
  | .call => fun o => match o.rel with
    | some off => some (.callRel off)
    | none => some (.call o.op0)
  | .ret => fun o => match o.op0 with  -- lifter-gp.cc:676-680
    | .imm v => some (.ret (some v))
    | _ => some (.ret none)
  | .syscall => fun _ => some .syscall
  | .cpuid => fun _ => some .cpuid
  | .rdtsc => fun _ => some .rdtsc
  | .movgp => Form.two fun o => .mov o.z o.sz
  | .movzx => Form.two fun o => .movzx o.z o.sz
  | .movbe => Form.two fun o => .movbe o.z
  | .arith sub => Form.get <| (arithKind sub mn).map fun k => Form.two fun o => .arith k o.z o.lock
  | .cmpxchg => Form.two fun o => .cmpxchg o.z o.lock
  | .xchg => Form.two fun o => .xchg o.z
  | .lea => fun o => match o.op1 with
    | some (.mem m) => some (.lea o.z o.op0 m)
    | _ => none
  | .xlat => fun o => some (.xlat o.a32 o.seg)
  | .not => fun o => some (.not o.z o.lock o.op0)
  | .neg => fun o => some (.neg o.z o.lock o.op0)
  | .incDec => fun o => some (.incdec (decide (mn = .DEC)) o.z o.lock o.op0)  -- lifter-gp.cc:192
  | .andOrXor op rmw wb => Form.get <| (logicKind op rmw wb mn).map fun k => Form.two fun o => .logic k o.z o.lock
  | .mul => fun o => match o.op1, o.op2 with  -- lifter-gp.cc:309-322
    | _, some t => match o.op1 with
      | some s => if mn = .IMUL then some (.imul2 o.z o.op0 s t) else none
      | none => none
    | some s, none => if mn = .IMUL then some (.imul2 o.z o.op0 o.op0 s) else none
    | none, none => some (.mul1 (decide (mn = .IMUL)) o.z o.op0)
  | .div => fun o => some (.div (decide (mn = .IDIV)) o.z o.op0 o.high)  -- lifter-gp.cc:368
  | .shift op => Form.get <| (shiftKind op mn).map fun k => Form.two fun o => .shift k o.z
  | .rotate => Form.two fun o => .rotate (decide (mn = .ROL)) o.z  -- lifter-gp.cc:293
  | .shiftdouble => Form.three fun o => .shiftd (decide (mn = .SHLD)) o.z  -- lifter-gp.cc:263-270
  | .bitscan trailing => Form.two fun o => .bitscan trailing false o.z
  | .popcnt => Form.two fun o => .popcnt o.z
  | .bittest op rmw => Form.get <| (bitKind op rmw mn).map fun k => Form.two fun o => .bittest k o.z o.lock
  | .bswap => fun o => some (.bswap o.z o.op0)
  | .cext => fun o => some (.cext o.z)
  | .csep => fun o => some (.csep o.z)
  | .lods => strForm .lods
  | .stos => strForm .stos
  | .movs => strForm .movs
  | .scas => strForm .scas
  | .cmps => strForm .cmps
  | .cmovcc c => Form.two fun o => .cmov c o.z
  | .setcc c => fun o => some (.setcc c o.op0)
  | .jmp => fun o => match o.rel with
    | some off => some (.jmpRel off)
    | none => some (.jmp o.op0)
  | .jcc c => fun o => o.rel.map (.jcc c)
  | .jcxz => fun o => o.rel.map (.jcxz o.a32)
  | .loop => fun o => o.rel.map (.loop (loopKind mn) o.a32)
  | .fence => fun _ => some (.sse .fence)
  | .prefetch rw loc => if rw ≤ 1 ∧ loc ≤ 3 then Form.m .prefetch else noForm  -- arguments of llvm.prefetch
  | .fxsave => Form.m .fxsave
  | .fxrstor => Form.m .fxrstor
  | .fstcw => fun o => some (.ctl .fstcw o.op0)
  | .fstsw => fun o => some (.ctl .fstsw o.op0)
  | .stmxcsr => fun o => some (.ctl .stmxcsr o.op0)
  | .sseMovq f => Form.get <| f.scalar.map fun p => Form.aa (.movq p.2)
  | .sseMovScalar f => Form.get <| f.scalar.map fun p => Form.aa (.movs p.2)
  | .sseMovdq f al => Form.get <| f.full.map fun _ => Form.aa (.movdq al)
  | .sseMovntStore f => Form.get <| f.full.map fun _ => Form.mx .movnt
  | .sseMovlp => fun o => match o.x0, o.x1 with  -- lifter-sse.cc:143-157
    | .x d, .inl (.x s) => if mn = .SSE_MOVHLPS then some (.sse (.movhlps d s)) else none
    | d, .inl s => some (.sse (.movlp d s))
    | _, _ => none
  | .sseMovhps => Form.aa (.movhp false)
  | .sseMovhpd => Form.aa (.movhp true)
  | .sseUnpck f => Form.get <| match mn.unpck, f.full with
    | some k, some z =>
      if k = unpckMask false z then some (Form.xx (.unpck false z))
      else if k = unpckMask true z then some (Form.xx (.unpck true z)) else none
    | _, _ => none
  | .sseShufpd => Form.xxi .shufpd
  | .sseShufps => Form.xxi .shufps
  | .ssePshufd => Form.xxi .pshufd
  | .ssePshufw 0 => Form.xxi (.pshufw false)
  | .ssePshufw 4 => Form.xxi (.pshufw true)
  | .ssePshufw _ => noForm
  | .sseInsertps => Form.xxi .insertps
  | .ssePextr f mask => Form.get <| match f.full with
    | some z => if mask = z.cnt - 1 then some (Form.axi (.pextr z)) else none
    | none => none
  | .sseMovdup f off => Form.get <| match f.full with
    | some z => if off ≤ 1 then some (Form.xx (.movdup (off == 1) z)) else none
    | none => none
  | .sseBinOp op horz f => Form.get <| match f.scalar, f.vec with
    | some (fl, z), _ => (op.bin fl).map fun b => Form.xx (.bin b horz true z)
    | _, some (fl, z, n) => if n = z.cnt then (op.bin fl).map fun b => Form.xx (.bin b horz false z) else none
    | _, _ => none
  | .sseAddSub f => Form.get <| match f.fp with
    | some (false, z) => some (Form.xx (.addsub z))
    | _ => none
  | .sseMinmax p f => Form.get <| match p, f.fp with
    | .FCMP_OLT, some (sc, z) => some (Form.xx (.fminmax false sc z))
    | .FCMP_OGT, some (sc, z) => some (Form.xx (.fminmax true sc z))
    | _, _ => none
  | .sseAndn f => Form.get <| f.full.map fun z => Form.xx (.andn z)
  | .sseComis f => Form.get <| match f.fp with
    | some (true, z) => some (Form.xx (.comis z))
    | _ => none
  | .sseCmp f => Form.get <| f.fp.map fun p => Form.xxi (.cmp p.1 p.2)
  | .sseSqrt f => Form.get <| f.fp.map fun p => Form.xx (.sqrt p.1 p.2)
  | .sseCvt src dst => cvtForm src dst
  | .ssePaddsubSaturate op sign horz f => Form.get <| match op, f.full with
    | .Add, some z => some (Form.xx (.padds false sign horz z))
    | .Sub, some z => some (Form.xx (.padds true sign horz z))
    | _, _ => none
  | .ssePsadbw => Form.xx .psadbw
  | .ssePmaddubsw => Form.xx .pmaddubsw
  | .ssePshiftElement op f => Form.get <| match op.shift, f.full with
    | some k, some z => some (Form.xc (.pshift k z))
    | _, _ => none
  | .ssePshiftBytes => Form.xi (.pshiftBytes (decide (mn = .SSE_PSRLDQ)))  -- lifter-sse.cc:487
  | .ssePalignr => Form.xxi .palignr
  | .ssePack f sign => Form.get <| f.full.map fun z => Form.xx (.pack sign z)
  | .ssePinsr v e mask => Form.get <| match v.full, e.scalar with
    | some z, some (_, z') => if z = z' ∧ mask = z.cnt - 1 then some (Form.xri (.pinsr z)) else none
    | _, _ => none
  | .ssePavg f => Form.get <| f.full.map fun z => Form.xx (.pavg z)
  | .ssePmulhw op => Form.get <| op.sgn.map fun s => Form.xx (.pmulh s)
  | .ssePmuldq op => Form.get <| op.sgn.map fun s => Form.xx (.pmuld s)
  | .ssePmaddwd => Form.xx .pmaddwd
  | .ssePcmp p f => Form.get <| match p, f.full with
    | .ICMP_EQ, some z => some (Form.xx (.pcmp false z))
    | .ICMP_SGT, some z => some (Form.xx (.pcmp true z))
    | _, _ => none
  | .ssePminmax p f => Form.get <| match p, f.full with
    | .ICMP_ULT, some z => some (Form.xx (.pminmax false false z))
    | .ICMP_SLT, some z => some (Form.xx (.pminmax false true z))
    | .ICMP_UGT, some z => some (Form.xx (.pminmax true false z))
    | .ICMP_SGT, some z => some (Form.xx (.pminmax true true z))
    | _, _ => none
  | .ssePabs f => Form.get <| f.full.map fun z => Form.xx (.pabs z)
  | .ssePsign f => Form.get <| f.full.map fun z => Form.xx (.psign z)
  | .sseMovmsk f => Form.get <| f.full.map fun z => Form.gx (.movmsk z)
  | .ssePmovx op src dst => Form.get <| match op.sgn, src.vec, dst.full with
    | some s, some (_, zf, n), some zt => if n = zt.cnt then some (Form.xx (.pmovx s zf zt)) else none
    | _, _, _ => none

/-- The operation that the lifter emits code for, /repo/src/x86-64/lifter.cc:68-456; a mnemonic without a row is not
lifted, 69-71. -/
def Mn.instr (mn : Mn) (o : Operands) : Option Instr := match mn.row with
  | some h => h.form mn o
  | none => some .unknown

/-- The code for a mnemonic with operands. -/
def Mn.lift (cfg : Cfg) (slide : BitVec 64) (mn : Mn) (o : Operands) (start : BitVec 64) (len : Nat) (m : St) : Option Out :=
  (mn.instr o).bind fun i => X86.lift cfg slide i start len m

/-! ### The names of the manual -/

namespace Manual

/-- The letters for the size of an element. -/
def letters : List (String × Sz) := [("B", .b), ("W", .w), ("D", .d), ("Q", .q)]
def bw : List (String × Sz) := [("B", .b), ("W", .w)]
def bwd : List (String × Sz) := [("B", .b), ("W", .w), ("D", .d)]
def wd : List (String × Sz) := [("W", .w), ("D", .d)]
def wdq : List (String × Sz) := [("W", .w), ("D", .d), ("Q", .q)]
/-- Packed single and double precision. -/
def packed : List (String × Sz) := [("PS", .d), ("PD", .q)]
/-- Scalar single and double precision. -/
def scalar : List (String × Sz) := [("SS", .d), ("SD", .q)]
/-- The conditions, after `J`, `SET` and `CMOV`. -/
def conditions : List (String × Cond) := [("O", .o), ("NO", .no), ("C", .c), ("NC", .nc), ("Z", .z), ("NZ", .nz), ("BE", .be), ("A", .a),
  ("S", .s), ("NS", .ns), ("P", .p), ("NP", .np), ("L", .l), ("GE", .ge), ("LE", .le), ("G", .g)]

def fam {α : Type} (prefx : String) (l : List (String × α)) (f : α → Form) : List (String × Form) :=
  l.map fun p => (prefx ++ p.1, f p.2)

/-- A floating-point operation on scalars and on vectors. -/
def fp (prefx : String) (f : Bool → Sz → Form) : List (String × Form) :=
  fam prefx scalar (f true) ++ fam prefx packed (f false)

/-- Instructions on general-purpose registers, flags and memory. -/
def general : List (String × Form) := [
  ("NOP", fun _ => some .nop), ("RDSSP", fun _ => some .nop), ("ENDBR64", fun _ => some .nop),
  ("PUSH", fun o => some (.push o.z o.op0)), ("POP", fun o => some (.pop o.z o.op0)),
  ("PUSHF", fun o => some (.pushf o.z)), ("POPF", fun o => some (.popf o.z)), ("LEAVE", fun _ => some .leave),
  ("SYSCALL", fun _ => some .syscall), ("CPUID", fun _ => some .cpuid), ("RDTSC", fun _ => some .rdtsc),
  ("LAHF", fun _ => some .lahf), ("SAHF", fun _ => some .sahf), ("CLC", fun _ => some .clc), ("STC", fun _ => some .stc),
  ("CMC", fun _ => some .cmc), ("CLD", fun _ => some .cld), ("STD", fun _ => some .std),
  ("MOV", Form.two fun o => .mov o.z o.sz), ("MOVABS", Form.two fun o => .mov o.z o.sz), ("MOVSX", Form.two fun o => .mov o.z o.sz),
  ("MOVNTI", Form.two fun o => .mov o.z o.sz), ("MOVZX", Form.two fun o => .movzx o.z o.sz), ("MOVBE", Form.two fun o => .movbe o.z),
  ("BSWAP", fun o => some (.bswap o.z o.op0)),
  ("ADD", Form.two fun o => .arith .add o.z o.lock), ("ADC", Form.two fun o => .arith .adc o.z o.lock),
  ("SUB", Form.two fun o => .arith .sub o.z o.lock), ("SBB", Form.two fun o => .arith .sbb o.z o.lock),
  ("CMP", Form.two fun o => .arith .cmp o.z o.lock), ("XADD", Form.two fun o => .arith .xadd o.z o.lock),
  ("CMPXCHG", Form.two fun o => .cmpxchg o.z o.lock), ("XCHG", Form.two fun o => .xchg o.z),
  ("XLATB", fun o => some (.xlat o.a32 o.seg)),
  ("LEA", fun o => match o.op1 with | some (.mem m) => some (.lea o.z o.op0 m) | _ => none),
  ("NOT", fun o => some (.not o.z o.lock o.op0)), ("NEG", fun o => some (.neg o.z o.lock o.op0)),
  ("INC", fun o => some (.incdec false o.z o.lock o.op0)), ("DEC", fun o => some (.incdec true o.z o.lock o.op0)),
  ("AND", Form.two fun o => .logic .and o.z o.lock), ("OR", Form.two fun o => .logic .or o.z o.lock),
  ("XOR", Form.two fun o => .logic .xor o.z o.lock), ("TEST", Form.two fun o => .logic .test o.z o.lock),
  ("MUL", fun o => match o.op1, o.op2 with | none, none => some (.mul1 false o.z o.op0) | _, _ => none),
  ("IMUL", fun o => match o.op1, o.op2 with
    | none, none => some (.mul1 true o.z o.op0)
    | some s, none => some (.imul2 o.z o.op0 o.op0 s)
    | some s, some t => some (.imul2 o.z o.op0 s t)
    | none, some _ => none),
  ("DIV", fun o => some (.div false o.z o.op0 o.high)), ("IDIV", fun o => some (.div true o.z o.op0 o.high)),
  ("SHL", Form.two fun o => .shift .shl o.z), ("SHR", Form.two fun o => .shift .shr o.z), ("SAR", Form.two fun o => .shift .sar o.z),
  ("ROL", Form.two fun o => .rotate true o.z), ("ROR", Form.two fun o => .rotate false o.z),
  ("SHLD", Form.three fun o => .shiftd true o.z), ("SHRD", Form.three fun o => .shiftd false o.z),
  ("BSF", Form.two fun o => .bitscan true false o.z), ("BSR", Form.two fun o => .bitscan false false o.z),
  ("TZCNT", Form.two fun o => .bitscan true true o.z), ("LZCNT", Form.two fun o => .bitscan false true o.z),
  ("POPCNT", Form.two fun o => .popcnt o.z),
  ("BT", Form.two fun o => .bittest .bt o.z o.lock), ("BTC", Form.two fun o => .bittest .btc o.z o.lock),
  ("BTR", Form.two fun o => .bittest .btr o.z o.lock), ("BTS", Form.two fun o => .bittest .bts o.z o.lock),
  ("C_EX", fun o => some (.cext o.z)), ("C_SEP", fun o => some (.csep o.z)),
  ("LODS", fun o => some (.str .lods o.z o.rep o.a32 o.seg)), ("STOS", fun o => some (.str .stos o.z o.rep o.a32 o.seg)),
  ("MOVS", fun o => some (.str .movs o.z o.rep o.a32 o.seg)), ("SCAS", fun o => some (.str .scas o.z o.rep o.a32 o.seg)),
  ("CMPS", fun o => some (.str .cmps o.z o.rep o.a32 o.seg)),
  ("JMP", fun o => match o.rel with | some off => some (.jmpRel off) | none => some (.jmp o.op0)),
  ("CALL", fun o => match o.rel with | some off => some (.callRel off) | none => some (.call o.op0)),
  ("RET", fun o => match o.op0 with | .imm v => some (.ret (some v)) | _ => some (.ret none)),
  ("JCXZ", fun o => o.rel.map (.jcxz o.a32)), ("LOOP", fun o => o.rel.map (.loop .loop o.a32)),
  ("LOOPZ", fun o => o.rel.map (.loop .loopz o.a32)), ("LOOPNZ", fun o => o.rel.map (.loop .loopnz o.a32)),
  ("FSTCW", fun o => some (.ctl .fstcw o.op0)), ("FLDCW", fun o => some (.ctl .fldcw o.op0)),
  ("FSTSW", fun o => some (.ctl .fstsw o.op0)), ("STMXCSR", fun o => some (.ctl .stmxcsr o.op0)),
  ("LDMXCSR", fun o => some (.ctl .ldmxcsr o.op0))] ++
  fam "J" conditions (fun c o => o.rel.map (.jcc c)) ++
  fam "SET" conditions (fun c o => some (.setcc c o.op0)) ++
  fam "CMOV" conditions (fun c => Form.two fun o => .cmov c o.z)

/-- Instructions on XMM registers. -/
def vector : List (String × Form) :=
  (["LFENCE", "SFENCE", "MFENCE"].map fun n => (n, (fun _ => some (.sse .fence) : Form))) ++
  (["PREFETCH", "RESERVED_PREFETCH", "PREFETCHT0", "PREFETCHT1", "PREFETCHT2", "PREFETCHNTA", "PREFETCHW", "PREFETCHWT1"].map
    fun n => (n, Form.m .prefetch)) ++
  [("FXSAVE", Form.m .fxsave), ("FXRSTOR", Form.m .fxrstor), ("MOVD", Form.aa (.movq .d)), ("MOVQ", Form.aa (.movq .q)),
    ("MOVDQA", Form.aa (.movdq true)), ("MOVDQU", Form.aa (.movdq false)), ("LDDQU", Form.aa (.movdq false)), ("MOVNTDQA", Form.aa (.movdq true)),
    ("MOVNTDQ", Form.mx .movnt), ("MOVHPS", Form.aa (.movhp false)), ("MOVLHPS", Form.aa (.movhp false)), ("MOVHPD", Form.aa (.movhp true)),
    ("MOVHLPS", Form.regs .movhlps)] ++
  fam "MOV" scalar (fun z => Form.aa (.movs z)) ++
  fam "MOVA" packed (fun _ => Form.aa (.movdq true)) ++ fam "MOVU" packed (fun _ => Form.aa (.movdq false)) ++
  fam "MOVNT" packed (fun _ => Form.mx .movnt) ++
  -- load of the lower half from memory, or store of it
  fam "MOVL" packed (fun _ o => match o.x0, o.x1 with
    | .x d, .inl (.mem s) => some (.sse (.movlp (.x d) (.mem s)))
    | .mem d, .inl (.x s) => some (.sse (.movlp (.mem d) (.x s)))
    | _, _ => none) ++
  fam "PUNPCKL" [("BW", .b), ("WD", .w), ("DQ", .d), ("QDQ", .q)] (fun z => Form.xx (.unpck false z)) ++
  fam "PUNPCKH" [("BW", .b), ("WD", .w), ("DQ", .d), ("QDQ", .q)] (fun z => Form.xx (.unpck true z)) ++
  fam "UNPCKL" packed (fun z => Form.xx (.unpck false z)) ++ fam "UNPCKH" packed (fun z => Form.xx (.unpck true z)) ++
  [("SHUFPS", Form.xxi .shufps), ("SHUFPD", Form.xxi .shufpd), ("PSHUFD", Form.xxi .pshufd), ("PSHUFLW", Form.xxi (.pshufw false)),
    ("PSHUFHW", Form.xxi (.pshufw true)), ("INSERTPS", Form.xxi .insertps), ("EXTRACTPS", Form.axi (.pextr .d)),
    ("MOVSLDUP", Form.xx (.movdup false .d)), ("MOVSHDUP", Form.xx (.movdup true .d)), ("MOVDDUP", Form.xx (.movdup false .q))] ++
  fp "ADD" (fun sc z => Form.xx (.bin (.f .add) false sc z)) ++ fp "SUB" (fun sc z => Form.xx (.bin (.f .sub) false sc z)) ++
  fp "MUL" (fun sc z => Form.xx (.bin (.f .mul) false sc z)) ++ fp "DIV" (fun sc z => Form.xx (.bin (.f .div) false sc z)) ++
  fam "HADD" packed (fun z => Form.xx (.bin (.f .add) true false z)) ++ fam "HSUB" packed (fun z => Form.xx (.bin (.f .sub) true false z)) ++
  fam "ADDSUB" packed (fun z => Form.xx (.addsub z)) ++
  fp "MIN" (fun sc z => Form.xx (.fminmax false sc z)) ++ fp "MAX" (fun sc z => Form.xx (.fminmax true sc z)) ++
  fam "AND" packed (fun z => Form.xx (.bin .and false false z)) ++ fam "OR" packed (fun z => Form.xx (.bin .or false false z)) ++
  fam "XOR" packed (fun z => Form.xx (.bin .xor false false z)) ++ fam "ANDN" packed (fun z => Form.xx (.andn z)) ++
  [("PAND", Form.xx (.bin .and false false .q)), ("POR", Form.xx (.bin .or false false .q)), ("PXOR", Form.xx (.bin .xor false false .q)),
    ("PANDN", Form.xx (.andn .q))] ++
  fam "COMI" scalar (fun z => Form.xx (.comis z)) ++ fam "UCOMI" scalar (fun z => Form.xx (.comis z)) ++
  fp "CMP" (fun sc z => Form.xxi (.cmp sc z)) ++ fp "SQRT" (fun sc z => Form.xx (.sqrt sc z)) ++
  [("CVTDQ2PD", Form.xx (.cvt .dq2pd)), ("CVTDQ2PS", Form.xx (.cvt .dq2ps)), ("CVTTPD2DQ", Form.xx (.cvt .pd2dq)), ("CVTTPS2DQ", Form.xx (.cvt .ps2dq)),
    ("CVTPD2PS", Form.xx (.cvt .pd2ps)), ("CVTPS2PD", Form.xx (.cvt .ps2pd)), ("CVTSD2SS", Form.xx (.cvt .sd2ss)), ("CVTSS2SD", Form.xx (.cvt .ss2sd)),
    ("CVTTSS2SI", Form.ga (.cvttsi .d)), ("CVTTSD2SI", Form.ga (.cvttsi .q)), ("CVTSI2SS", Form.xg (.cvtsi .d)), ("CVTSI2SD", Form.xg (.cvtsi .q))] ++
  fam "PADD" letters (fun z => Form.xx (.bin .add false false z)) ++ fam "PSUB" letters (fun z => Form.xx (.bin .sub false false z)) ++
  fam "PHADD" wd (fun z => Form.xx (.bin .add true false z)) ++ fam "PHSUB" wd (fun z => Form.xx (.bin .sub true false z)) ++
  fam "PMULL" wd (fun z => Form.xx (.bin .mul false false z)) ++
  fam "PADDS" bw (fun z => Form.xx (.padds false true false z)) ++ fam "PADDUS" bw (fun z => Form.xx (.padds false false false z)) ++
  fam "PSUBS" bw (fun z => Form.xx (.padds true true false z)) ++ fam "PSUBUS" bw (fun z => Form.xx (.padds true false false z)) ++
  [("PHADDSW", Form.xx (.padds false true true .w)), ("PHSUBSW", Form.xx (.padds true true true .w)), ("PSADBW", Form.xx .psadbw),
    ("PMADDUBSW", Form.xx .pmaddubsw), ("PMADDWD", Form.xx .pmaddwd), ("PMULHW", Form.xx (.pmulh true)), ("PMULHUW", Form.xx (.pmulh false)),
    ("PMULDQ", Form.xx (.pmuld true)), ("PMULUDQ", Form.xx (.pmuld false)), ("PALIGNR", Form.xxi .palignr),
    ("PSLLDQ", Form.xi (.pshiftBytes false)), ("PSRLDQ", Form.xi (.pshiftBytes true))] ++
  fam "PSLL" wdq (fun z => Form.xc (.pshift .shl z)) ++ fam "PSRL" wdq (fun z => Form.xc (.pshift .shr z)) ++
  fam "PSRA" wd (fun z => Form.xc (.pshift .sar z)) ++
  fam "PACKSS" [("WB", .w), ("DW", .d)] (fun z => Form.xx (.pack true z)) ++
  fam "PACKUS" [("WB", .w), ("DW", .d)] (fun z => Form.xx (.pack false z)) ++
  fam "PINSR" letters (fun z => Form.xri (.pinsr z)) ++ fam "PEXTR" letters (fun z => Form.axi (.pextr z)) ++
  fam "PAVG" bw (fun z => Form.xx (.pavg z)) ++
  fam "PCMPEQ" letters (fun z => Form.xx (.pcmp false z)) ++ fam "PCMPGT" letters (fun z => Form.xx (.pcmp true z)) ++
  fam "PMINU" bwd (fun z => Form.xx (.pminmax false false z)) ++ fam "PMINS" bwd (fun z => Form.xx (.pminmax false true z)) ++
  fam "PMAXU" bwd (fun z => Form.xx (.pminmax true false z)) ++ fam "PMAXS" bwd (fun z => Form.xx (.pminmax true true z)) ++
  fam "PABS" bwd (fun z => Form.xx (.pabs z)) ++ fam "PSIGN" bwd (fun z => Form.xx (.psign z)) ++
  [("PMOVMSKB", Form.gx (.movmsk .b)), ("MOVMSKPS", Form.gx (.movmsk .d)), ("MOVMSKPD", Form.gx (.movmsk .q))] ++
  fam "PMOVSX" [("BW", (Sz.b, Sz.w)), ("BD", (.b, .d)), ("BQ", (.b, .q)), ("WD", (.w, .d)), ("WQ", (.w, .q)), ("DQ", (.d, .q))]
    (fun p => Form.xx (.pmovx true p.1 p.2)) ++
  fam "PMOVZX" [("BW", (Sz.b, Sz.w)), ("BD", (.b, .d)), ("BQ", (.b, .q)), ("WD", (.w, .d)), ("WQ", (.w, .q)), ("DQ", (.d, .q))]
    (fun p => Form.xx (.pmovx false p.1 p.2))

/-- The operation that a name stands for. -/
def names : List (String × Form) := general ++ vector

end Manual

/-- The code for `a` and `b` is the same. -/
def SameCode (a b : Instr) : Prop := ∀ cfg slide start len m, X86.lift cfg slide a start len m = X86.lift cfg slide b start len m

/-- For every operand form of the manual, the row of `mn` gives code that is the code of the operation `f`. -/
def Mn.Means (mn : Mn) (f : Form) : Prop :=
  ∀ o i, f o = some i → ∃ j, mn.instr o = some j ∧ SameCode j i

theorem Mn.means_self {mn : Mn} {f : Form} (h : mn.instr = f) : mn.Means f :=
  fun _ i e => ⟨i, by rw [h, e], fun _ _ _ _ _ => rfl⟩

/-- The operation of a row may carry another name, if its code is the same. -/
theorem Mn.means_of {mn : Mn} {f : Form} (h : ∀ o i, f o = some i → ∃ j, mn.instr o = some j ∧ SameCode j i) : mn.Means f := h

theorem imul_means : Mn.IMUL.Means fun o => match o.op1, o.op2 with
    | none, none => some (.mul1 true o.z o.op0)
    | some s, none => some (.imul2 o.z o.op0 o.op0 s)
    | some s, some t => some (.imul2 o.z o.op0 s t)
    | none, some _ => none := by
  intro o i e
  obtain ⟨x0, x1, imm, gz, z, sz, lock, op0, op1, op2, rel, a32, seg, rep, high⟩ := o
  refine ⟨i, ?_, fun _ _ _ _ _ => rfl⟩
  cases op1 <;> cases op2 <;> first | exact e | cases e

theorem mul_means : Mn.MUL.Means fun o => match o.op1, o.op2 with
    | none, none => some (.mul1 false o.z o.op0)
    | _, _ => none := by
  intro o i e
  obtain ⟨x0, x1, imm, gz, z, sz, lock, op0, op1, op2, rel, a32, seg, rep, high⟩ := o
  refine ⟨i, ?_, fun _ _ _ _ _ => rfl⟩
  cases op1 <;> cases op2 <;> first | exact e | cases e

theorem bitcount_means (mn : Mn) (t : Bool) (h : mn.instr = Form.two fun o => .bitscan t false o.z) :
    mn.Means (Form.two fun o => .bitscan t true o.z) := by
  intro o i e
  rw [h]
  obtain ⟨x0, x1, imm, gz, z, sz, lock, op0, op1, op2, rel, a32, seg, rep, high⟩ := o
  cases op1 <;> cases e
  exact ⟨_, rfl, fun _ _ _ _ _ => rfl⟩

theorem ignored_means (mn : Mn) (k : Ctl) (hk : k = .fldcw ∨ k = .ldmxcsr) (h : mn.instr = fun _ => some .nop) :
    mn.Means fun o => some (.ctl k o.op0) := by
  intro o i e
  rw [h]
  cases e
  rcases hk with rfl | rfl <;> exact ⟨_, rfl, fun _ _ _ _ _ => rfl⟩

theorem movlp_means (mn : Mn) (h : mn.instr = Handler.sseMovlp.form mn) : mn.Means fun o => match o.x0, o.x1 with
    | .x d, .inl (.mem s) => some (.sse (.movlp (.x d) (.mem s)))
    | .mem d, .inl (.x s) => some (.sse (.movlp (.mem d) (.x s)))
    | _, _ => none := by
  intro o i e
  rw [h]
  obtain ⟨x0, x1, imm, gz, z, sz, lock, op0, op1, op2, rel, a32, seg, rep, high⟩ := o
  refine ⟨i, ?_, fun _ _ _ _ _ => rfl⟩
  rcases x1 with x1 | x1 <;> cases x0 <;> try cases x1
  all_goals first | cases e; done | exact e

theorem movhlps_means : Mn.SSE_MOVHLPS.Means (Form.regs .movhlps) := by
  intro o i e
  obtain ⟨x0, x1, imm, gz, z, sz, lock, op0, op1, op2, rel, a32, seg, rep, high⟩ := o
  refine ⟨i, ?_, fun _ _ _ _ _ => rfl⟩
  rcases x1 with x1 | x1 <;> cases x0 <;> try cases x1
  all_goals first | cases e; done | exact e

/-- Operands of every form. -/
def samples : List Operands :=
  let reg : Op := .reg 1
  let mem : MemOp := { base := .reg 3, off := 8 }
  let mk (x0 : XOp) (x1 : XOp ⊕ BitVec 64) (op1 op2 : Option Op) : Operands :=
    { x0 := x0, x1 := x1, imm := 1, gz := .q, z := .d, sz := .d, lock := false, op0 := .reg 0, op1 := op1, op2 := op2,
      rel := some 16, a32 := false, seg := .none, rep := .none, high := .unknown }
  [mk (.x 0) (.inl (.x 1)) (some reg) (some reg), mk (.mem mem) (.inl (.x 1)) (some (.mem mem)) none,
    mk (.gp 0) (.inl (.x 1)) none none, mk (.x 0) (.inl (.gp 1)) none none, mk (.x 0) (.inr 4) none none,
    mk (.x 0) (.inl (.mem mem)) none none]

set_option maxRecDepth 20000 in
set_option maxHeartbeats 4000000 in
theorem means_all (mn : Mn) (h : mn ≠ .other) :
    ∃ f, Manual.names.lookup mn.name = some f ∧ mn.Means f ∧ ∃ o ∈ samples, (f o).isSome = true := by
  cases mn
  case other => exact absurd rfl h
  case IMUL => exact ⟨_, rfl, imul_means, by decide⟩
  case MUL => exact ⟨_, rfl, mul_means, by decide⟩
  case TZCNT => exact ⟨_, rfl, bitcount_means _ _ rfl, by decide⟩
  case LZCNT => exact ⟨_, rfl, bitcount_means _ _ rfl, by decide⟩
  case FLDCW => exact ⟨_, rfl, ignored_means _ _ (.inl rfl) rfl, by decide⟩
  case LDMXCSR => exact ⟨_, rfl, ignored_means _ _ (.inr rfl) rfl, by decide⟩
  case SSE_MOVLPS => exact ⟨_, rfl, movlp_means _ rfl, by decide⟩
  case SSE_MOVLPD => exact ⟨_, rfl, movlp_means _ rfl, by decide⟩
  case SSE_MOVHLPS => exact ⟨_, rfl, movhlps_means, by decide⟩
  all_goals exact ⟨_, rfl, Mn.means_self rfl, by decide⟩

end Verif.X86
