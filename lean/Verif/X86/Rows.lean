import Verif.X86.Model

/-!
The dispatch switch of the x86-64 lifter, /repo/src/x86-64/lifter.cc:68-454, transcribed row by row with the
arguments of every call (written by tools/mkdispatch.py).
-/

namespace Verif.X86

set_option linter.constructorNameAsVariable false

/-- The facets in the switch, /repo/src/facet.inc:1-48. -/
inductive Facet where
  | I32 | I64 | V4F32 | V2F64 | V2I64 | VF32 | VF64 | VI64 | V16I8 | V8I16 | V4I32 | F32 | F64 | VI32 | V2I32 | V2F32 | I | VI16 | VI8 | I8 | I16 | V8I8 | V4I8 | V2I8 | V4I16 | V2I16
  deriving DecidableEq

/-- `llvm::Instruction` opcodes in the switch. -/
inductive LOp where
  | And | Or | Xor | Shl | LShr | AShr | FAdd | FSub | FMul | FDiv | Add | Sub | Mul | SExt | ZExt
  deriving DecidableEq

/-- `llvm::CmpInst` predicates in the switch. -/
inductive Pred where
  | FCMP_OLT | FCMP_OGT | ICMP_EQ | ICMP_SGT | ICMP_ULT | ICMP_SLT | ICMP_UGT
  deriving DecidableEq

/-- `llvm::AtomicRMWInst` operations in the switch. -/
inductive Rmw where
  | And | Or | Xor
  deriving DecidableEq

/-- The methods that the rows call, with their arguments; the alignment of `LiftSseMovdq` is `true` for `ALIGN_MAX`,
and the default argument of `LiftAndOrXor` is written out (/repo/src/x86-64/lifter-private.h:50-204). -/
inductive Handler where
  | nothing | lahf | sahf
  | setFlag (f : Flag) (v : Bool)
  | notFlag (f : Flag)
  | push
  | pushf
  | popf
  | pop
  | leave
  | call
  | ret
  | syscall
  | cpuid
  | rdtsc
  | movgp
  | movzx
  | movbe
  | arith (a0 : Bool)
  | cmpxchg
  | xchg
  | lea
  | xlat
  | not
  | neg
  | incDec
  | andOrXor (a0 : LOp) (a1 : Rmw) (a2 : Bool)
  | mul
  | div
  | shift (a0 : LOp)
  | rotate
  | shiftdouble
  | bitscan (a0 : Bool)
  | popcnt
  | bittest (a0 : LOp) (a1 : Rmw)
  | bswap
  | cext
  | csep
  | lods
  | stos
  | movs
  | scas
  | cmps
  | cmovcc (a0 : Cond)
  | setcc (a0 : Cond)
  | fence
  | prefetch (a0 : Nat) (a1 : Nat)
  | fxsave
  | fxrstor
  | fstcw
  | fstsw
  | stmxcsr
  | sseMovq (a0 : Facet)
  | sseMovScalar (a0 : Facet)
  | sseMovdq (a0 : Facet) (a1 : Bool)
  | sseMovntStore (a0 : Facet)
  | sseMovlp
  | sseMovhps
  | sseMovhpd
  | sseUnpck (a0 : Facet)
  | sseShufpd
  | sseShufps
  | ssePshufd
  | ssePshufw (a0 : Nat)
  | sseInsertps
  | ssePextr (a0 : Facet) (a1 : Nat)
  | sseMovdup (a0 : Facet) (a1 : Nat)
  | sseBinOp (a0 : LOp) (a1 : Bool) (a2 : Facet)
  | sseAddSub (a0 : Facet)
  | sseMinmax (a0 : Pred) (a1 : Facet)
  | sseAndn (a0 : Facet)
  | sseComis (a0 : Facet)
  | sseCmp (a0 : Facet)
  | sseSqrt (a0 : Facet)
  | sseCvt (a0 : Facet) (a1 : Facet)
  | ssePaddsubSaturate (a0 : LOp) (a1 : Bool) (a2 : Bool) (a3 : Facet)
  | ssePsadbw
  | ssePmaddubsw
  | ssePshiftElement (a0 : LOp) (a1 : Facet)
  | ssePshiftBytes
  | ssePalignr
  | ssePack (a0 : Facet) (a1 : Bool)
  | ssePinsr (a0 : Facet) (a1 : Facet) (a2 : Nat)
  | ssePavg (a0 : Facet)
  | ssePmulhw (a0 : LOp)
  | ssePmuldq (a0 : LOp)
  | ssePmaddwd
  | ssePcmp (a0 : Pred) (a1 : Facet)
  | ssePminmax (a0 : Pred) (a1 : Facet)
  | ssePabs (a0 : Facet)
  | ssePsign (a0 : Facet)
  | sseMovmsk (a0 : Facet)
  | ssePmovx (a0 : LOp) (a1 : Facet) (a2 : Facet)
  | jmp
  | jcc (a0 : Cond)
  | jcxz
  | loop

/-- The mnemonics of the switch; `other` stands for every mnemonic without a row. -/
inductive Mn where
  | NOP | RDSSP | ENDBR64 | PUSH | PUSHF | POPF | POP | LEAVE | CALL | RET | SYSCALL | CPUID | RDTSC | LAHF
  | SAHF | MOV | MOVABS | MOVZX | MOVSX | MOVNTI | MOVBE | ADD | ADC | SUB | SBB | CMP | XADD | CMPXCHG
  | XCHG | LEA | XLATB | NOT | NEG | INC | DEC | AND | OR | XOR | TEST | IMUL | MUL | IDIV | DIV | SHL | SHR
  | SAR | ROL | ROR | SHLD | SHRD | BSF | TZCNT | BSR | LZCNT | POPCNT | BT | BTC | BTR | BTS | BSWAP | C_EX
  | C_SEP | CLC | STC | CMC | CLD | STD | LODS | STOS | MOVS | SCAS | CMPS | CMOVO | CMOVNO | CMOVC | CMOVNC
  | CMOVZ | CMOVNZ | CMOVBE | CMOVA | CMOVS | CMOVNS | CMOVP | CMOVNP | CMOVL | CMOVGE | CMOVLE | CMOVG
  | SETO | SETNO | SETC | SETNC | SETZ | SETNZ | SETBE | SETA | SETS | SETNS | SETP | SETNP | SETL | SETGE
  | SETLE | SETG | LFENCE | SFENCE | MFENCE | PREFETCH | RESERVED_PREFETCH | PREFETCHT0 | PREFETCHT1
  | PREFETCHT2 | PREFETCHNTA | PREFETCHW | PREFETCHWT1 | FXSAVE | FXRSTOR | FSTCW | FLDCW | FSTSW | STMXCSR
  | LDMXCSR | SSE_MOVD | SSE_MOVQ | SSE_MOVSS | SSE_MOVSD | SSE_MOVUPS | SSE_MOVUPD | SSE_MOVAPS | SSE_MOVAPD
  | SSE_MOVDQU | SSE_MOVDQA | SSE_LDDQU | SSE_MOVNTPS | SSE_MOVNTPD | SSE_MOVNTDQ | SSE_MOVNTDQA | SSE_MOVLPS
  | SSE_MOVHLPS | SSE_MOVLPD | SSE_MOVHPS | SSE_MOVLHPS | SSE_MOVHPD | SSE_PUNPCKLBW | SSE_PUNPCKLWD
  | SSE_PUNPCKLDQ | SSE_PUNPCKLQDQ | SSE_PUNPCKHBW | SSE_PUNPCKHWD | SSE_PUNPCKHDQ | SSE_PUNPCKHQDQ
  | SSE_UNPCKLPS | SSE_UNPCKLPD | SSE_UNPCKHPS | SSE_UNPCKHPD | SSE_SHUFPD | SSE_SHUFPS | SSE_PSHUFD
  | SSE_PSHUFLW | SSE_PSHUFHW | SSE_INSERTPS | SSE_EXTRACTPS | SSE_MOVSLDUP | SSE_MOVSHDUP | SSE_MOVDDUP
  | SSE_ADDSS | SSE_ADDSD | SSE_ADDPS | SSE_ADDPD | SSE_ADDSUBPS | SSE_ADDSUBPD | SSE_SUBSS | SSE_SUBSD
  | SSE_SUBPS | SSE_SUBPD | SSE_MULSS | SSE_MULSD | SSE_MULPS | SSE_MULPD | SSE_DIVSS | SSE_DIVSD | SSE_DIVPS
  | SSE_DIVPD | SSE_HADDPS | SSE_HADDPD | SSE_HSUBPS | SSE_HSUBPD | SSE_MINSS | SSE_MINSD | SSE_MINPS
  | SSE_MINPD | SSE_MAXSS | SSE_MAXSD | SSE_MAXPS | SSE_MAXPD | SSE_ORPS | SSE_ORPD | SSE_ANDPS | SSE_ANDPD
  | SSE_XORPS | SSE_XORPD | SSE_ANDNPS | SSE_ANDNPD | SSE_COMISS | SSE_COMISD | SSE_UCOMISS | SSE_UCOMISD
  | SSE_CMPSS | SSE_CMPSD | SSE_CMPPS | SSE_CMPPD | SSE_SQRTSS | SSE_SQRTSD | SSE_SQRTPS | SSE_SQRTPD
  | SSE_CVTDQ2PD | SSE_CVTDQ2PS | SSE_CVTTPD2DQ | SSE_CVTTPS2DQ | SSE_CVTPD2PS | SSE_CVTPS2PD | SSE_CVTSD2SS
  | SSE_CVTSS2SD | SSE_CVTTSD2SI | SSE_CVTTSS2SI | SSE_CVTSI2SD | SSE_CVTSI2SS | SSE_PXOR | SSE_POR
  | SSE_PAND | SSE_PANDN | SSE_PADDB | SSE_PADDW | SSE_PADDD | SSE_PADDQ | SSE_PSUBB | SSE_PSUBW | SSE_PSUBD
  | SSE_PSUBQ | SSE_PHADDW | SSE_PHADDD | SSE_PHSUBW | SSE_PHSUBD | SSE_PADDSB | SSE_PADDSW | SSE_PADDUSB
  | SSE_PADDUSW | SSE_PSUBSB | SSE_PSUBSW | SSE_PSUBUSB | SSE_PSUBUSW | SSE_PHADDSW | SSE_PHSUBSW
  | SSE_PSADBW | SSE_PMADDUBSW | SSE_PMULLW | SSE_PMULLD | SSE_PSLLW | SSE_PSLLD | SSE_PSLLQ | SSE_PSRLW
  | SSE_PSRLD | SSE_PSRLQ | SSE_PSRAW | SSE_PSRAD | SSE_PSLLDQ | SSE_PSRLDQ | SSE_PALIGNR | SSE_PACKSSWB
  | SSE_PACKSSDW | SSE_PACKUSWB | SSE_PACKUSDW | SSE_PINSRB | SSE_PINSRW | SSE_PINSRD | SSE_PINSRQ
  | SSE_PEXTRB | SSE_PEXTRW | SSE_PEXTRD | SSE_PEXTRQ | SSE_PAVGB | SSE_PAVGW | SSE_PMULHW | SSE_PMULHUW
  | SSE_PMULDQ | SSE_PMULUDQ | SSE_PMADDWD | SSE_PCMPEQB | SSE_PCMPEQW | SSE_PCMPEQD | SSE_PCMPEQQ
  | SSE_PCMPGTB | SSE_PCMPGTW | SSE_PCMPGTD | SSE_PCMPGTQ | SSE_PMINUB | SSE_PMINUW | SSE_PMINUD | SSE_PMINSB
  | SSE_PMINSW | SSE_PMINSD | SSE_PMAXUB | SSE_PMAXUW | SSE_PMAXUD | SSE_PMAXSB | SSE_PMAXSW | SSE_PMAXSD
  | SSE_PABSB | SSE_PABSW | SSE_PABSD | SSE_PSIGNB | SSE_PSIGNW | SSE_PSIGND | SSE_PMOVMSKB | SSE_MOVMSKPS
  | SSE_MOVMSKPD | SSE_PMOVSXBW | SSE_PMOVSXBD | SSE_PMOVSXBQ | SSE_PMOVSXWD | SSE_PMOVSXWQ | SSE_PMOVSXDQ
  | SSE_PMOVZXBW | SSE_PMOVZXBD | SSE_PMOVZXBQ | SSE_PMOVZXWD | SSE_PMOVZXWQ | SSE_PMOVZXDQ | JMP | JO | JNO
  | JC | JNC | JZ | JNZ | JBE | JA | JS | JNS | JP | JNP | JL | JGE | JLE | JG | JCXZ | LOOP | LOOPZ | LOOPNZ | other
  deriving DecidableEq

/-- The name of the mnemonic in the manual: without the prefix of `FDI_SSE_`. -/
def Mn.name : Mn → String
  | .NOP => "NOP"
  | .RDSSP => "RDSSP"
  | .ENDBR64 => "ENDBR64"
  | .PUSH => "PUSH"
  | .PUSHF => "PUSHF"
  | .POPF => "POPF"
  | .POP => "POP"
  | .LEAVE => "LEAVE"
  | .CALL => "CALL"
  | .RET => "RET"
  | .SYSCALL => "SYSCALL"
  | .CPUID => "CPUID"
  | .RDTSC => "RDTSC"
  | .LAHF => "LAHF"
  | .SAHF => "SAHF"
  | .MOV => "MOV"
  | .MOVABS => "MOVABS"
  | .MOVZX => "MOVZX"
  | .MOVSX => "MOVSX"
  | .MOVNTI => "MOVNTI"
  | .MOVBE => "MOVBE"
  | .ADD => "ADD"
  | .ADC => "ADC"
  | .SUB => "SUB"
  | .SBB => "SBB"
  | .CMP => "CMP"
  | .XADD => "XADD"
  | .CMPXCHG => "CMPXCHG"
  | .XCHG => "XCHG"
  | .LEA => "LEA"
  | .XLATB => "XLATB"
  | .NOT => "NOT"
  | .NEG => "NEG"
  | .INC => "INC"
  | .DEC => "DEC"
  | .AND => "AND"
  | .OR => "OR"
  | .XOR => "XOR"
  | .TEST => "TEST"
  | .IMUL => "IMUL"
  | .MUL => "MUL"
  | .IDIV => "IDIV"
  | .DIV => "DIV"
  | .SHL => "SHL"
  | .SHR => "SHR"
  | .SAR => "SAR"
  | .ROL => "ROL"
  | .ROR => "ROR"
  | .SHLD => "SHLD"
  | .SHRD => "SHRD"
  | .BSF => "BSF"
  | .TZCNT => "TZCNT"
  | .BSR => "BSR"
  | .LZCNT => "LZCNT"
  | .POPCNT => "POPCNT"
  | .BT => "BT"
  | .BTC => "BTC"
  | .BTR => "BTR"
  | .BTS => "BTS"
  | .BSWAP => "BSWAP"
  | .C_EX => "C_EX"
  | .C_SEP => "C_SEP"
  | .CLC => "CLC"
  | .STC => "STC"
  | .CMC => "CMC"
  | .CLD => "CLD"
  | .STD => "STD"
  | .LODS => "LODS"
  | .STOS => "STOS"
  | .MOVS => "MOVS"
  | .SCAS => "SCAS"
  | .CMPS => "CMPS"
  | .CMOVO => "CMOVO"
  | .CMOVNO => "CMOVNO"
  | .CMOVC => "CMOVC"
  | .CMOVNC => "CMOVNC"
  | .CMOVZ => "CMOVZ"
  | .CMOVNZ => "CMOVNZ"
  | .CMOVBE => "CMOVBE"
  | .CMOVA => "CMOVA"
  | .CMOVS => "CMOVS"
  | .CMOVNS => "CMOVNS"
  | .CMOVP => "CMOVP"
  | .CMOVNP => "CMOVNP"
  | .CMOVL => "CMOVL"
  | .CMOVGE => "CMOVGE"
  | .CMOVLE => "CMOVLE"
  | .CMOVG => "CMOVG"
  | .SETO => "SETO"
  | .SETNO => "SETNO"
  | .SETC => "SETC"
  | .SETNC => "SETNC"
  | .SETZ => "SETZ"
  | .SETNZ => "SETNZ"
  | .SETBE => "SETBE"
  | .SETA => "SETA"
  | .SETS => "SETS"
  | .SETNS => "SETNS"
  | .SETP => "SETP"
  | .SETNP => "SETNP"
  | .SETL => "SETL"
  | .SETGE => "SETGE"
  | .SETLE => "SETLE"
  | .SETG => "SETG"
  | .LFENCE => "LFENCE"
  | .SFENCE => "SFENCE"
  | .MFENCE => "MFENCE"
  | .PREFETCH => "PREFETCH"
  | .RESERVED_PREFETCH => "RESERVED_PREFETCH"
  | .PREFETCHT0 => "PREFETCHT0"
  | .PREFETCHT1 => "PREFETCHT1"
  | .PREFETCHT2 => "PREFETCHT2"
  | .PREFETCHNTA => "PREFETCHNTA"
  | .PREFETCHW => "PREFETCHW"
  | .PREFETCHWT1 => "PREFETCHWT1"
  | .FXSAVE => "FXSAVE"
  | .FXRSTOR => "FXRSTOR"
  | .FSTCW => "FSTCW"
  | .FLDCW => "FLDCW"
  | .FSTSW => "FSTSW"
  | .STMXCSR => "STMXCSR"
  | .LDMXCSR => "LDMXCSR"
  | .SSE_MOVD => "MOVD"
  | .SSE_MOVQ => "MOVQ"
  | .SSE_MOVSS => "MOVSS"
  | .SSE_MOVSD => "MOVSD"
  | .SSE_MOVUPS => "MOVUPS"
  | .SSE_MOVUPD => "MOVUPD"
  | .SSE_MOVAPS => "MOVAPS"
  | .SSE_MOVAPD => "MOVAPD"
  | .SSE_MOVDQU => "MOVDQU"
  | .SSE_MOVDQA => "MOVDQA"
  | .SSE_LDDQU => "LDDQU"
  | .SSE_MOVNTPS => "MOVNTPS"
  | .SSE_MOVNTPD => "MOVNTPD"
  | .SSE_MOVNTDQ => "MOVNTDQ"
  | .SSE_MOVNTDQA => "MOVNTDQA"
  | .SSE_MOVLPS => "MOVLPS"
  | .SSE_MOVHLPS => "MOVHLPS"
  | .SSE_MOVLPD => "MOVLPD"
  | .SSE_MOVHPS => "MOVHPS"
  | .SSE_MOVLHPS => "MOVLHPS"
  | .SSE_MOVHPD => "MOVHPD"
  | .SSE_PUNPCKLBW => "PUNPCKLBW"
  | .SSE_PUNPCKLWD => "PUNPCKLWD"
  | .SSE_PUNPCKLDQ => "PUNPCKLDQ"
  | .SSE_PUNPCKLQDQ => "PUNPCKLQDQ"
  | .SSE_PUNPCKHBW => "PUNPCKHBW"
  | .SSE_PUNPCKHWD => "PUNPCKHWD"
  | .SSE_PUNPCKHDQ => "PUNPCKHDQ"
  | .SSE_PUNPCKHQDQ => "PUNPCKHQDQ"
  | .SSE_UNPCKLPS => "UNPCKLPS"
  | .SSE_UNPCKLPD => "UNPCKLPD"
  | .SSE_UNPCKHPS => "UNPCKHPS"
  | .SSE_UNPCKHPD => "UNPCKHPD"
  | .SSE_SHUFPD => "SHUFPD"
  | .SSE_SHUFPS => "SHUFPS"
  | .SSE_PSHUFD => "PSHUFD"
  | .SSE_PSHUFLW => "PSHUFLW"
  | .SSE_PSHUFHW => "PSHUFHW"
  | .SSE_INSERTPS => "INSERTPS"
  | .SSE_EXTRACTPS => "EXTRACTPS"
  | .SSE_MOVSLDUP => "MOVSLDUP"
  | .SSE_MOVSHDUP => "MOVSHDUP"
  | .SSE_MOVDDUP => "MOVDDUP"
  | .SSE_ADDSS => "ADDSS"
  | .SSE_ADDSD => "ADDSD"
  | .SSE_ADDPS => "ADDPS"
  | .SSE_ADDPD => "ADDPD"
  | .SSE_ADDSUBPS => "ADDSUBPS"
  | .SSE_ADDSUBPD => "ADDSUBPD"
  | .SSE_SUBSS => "SUBSS"
  | .SSE_SUBSD => "SUBSD"
  | .SSE_SUBPS => "SUBPS"
  | .SSE_SUBPD => "SUBPD"
  | .SSE_MULSS => "MULSS"
  | .SSE_MULSD => "MULSD"
  | .SSE_MULPS => "MULPS"
  | .SSE_MULPD => "MULPD"
  | .SSE_DIVSS => "DIVSS"
  | .SSE_DIVSD => "DIVSD"
  | .SSE_DIVPS => "DIVPS"
  | .SSE_DIVPD => "DIVPD"
  | .SSE_HADDPS => "HADDPS"
  | .SSE_HADDPD => "HADDPD"
  | .SSE_HSUBPS => "HSUBPS"
  | .SSE_HSUBPD => "HSUBPD"
  | .SSE_MINSS => "MINSS"
  | .SSE_MINSD => "MINSD"
  | .SSE_MINPS => "MINPS"
  | .SSE_MINPD => "MINPD"
  | .SSE_MAXSS => "MAXSS"
  | .SSE_MAXSD => "MAXSD"
  | .SSE_MAXPS => "MAXPS"
  | .SSE_MAXPD => "MAXPD"
  | .SSE_ORPS => "ORPS"
  | .SSE_ORPD => "ORPD"
  | .SSE_ANDPS => "ANDPS"
  | .SSE_ANDPD => "ANDPD"
  | .SSE_XORPS => "XORPS"
  | .SSE_XORPD => "XORPD"
  | .SSE_ANDNPS => "ANDNPS"
  | .SSE_ANDNPD => "ANDNPD"
  | .SSE_COMISS => "COMISS"
  | .SSE_COMISD => "COMISD"
  | .SSE_UCOMISS => "UCOMISS"
  | .SSE_UCOMISD => "UCOMISD"
  | .SSE_CMPSS => "CMPSS"
  | .SSE_CMPSD => "CMPSD"
  | .SSE_CMPPS => "CMPPS"
  | .SSE_CMPPD => "CMPPD"
  | .SSE_SQRTSS => "SQRTSS"
  | .SSE_SQRTSD => "SQRTSD"
  | .SSE_SQRTPS => "SQRTPS"
  | .SSE_SQRTPD => "SQRTPD"
  | .SSE_CVTDQ2PD => "CVTDQ2PD"
  | .SSE_CVTDQ2PS => "CVTDQ2PS"
  | .SSE_CVTTPD2DQ => "CVTTPD2DQ"
  | .SSE_CVTTPS2DQ => "CVTTPS2DQ"
  | .SSE_CVTPD2PS => "CVTPD2PS"
  | .SSE_CVTPS2PD => "CVTPS2PD"
  | .SSE_CVTSD2SS => "CVTSD2SS"
  | .SSE_CVTSS2SD => "CVTSS2SD"
  | .SSE_CVTTSD2SI => "CVTTSD2SI"
  | .SSE_CVTTSS2SI => "CVTTSS2SI"
  | .SSE_CVTSI2SD => "CVTSI2SD"
  | .SSE_CVTSI2SS => "CVTSI2SS"
  | .SSE_PXOR => "PXOR"
  | .SSE_POR => "POR"
  | .SSE_PAND => "PAND"
  | .SSE_PANDN => "PANDN"
  | .SSE_PADDB => "PADDB"
  | .SSE_PADDW => "PADDW"
  | .SSE_PADDD => "PADDD"
  | .SSE_PADDQ => "PADDQ"
  | .SSE_PSUBB => "PSUBB"
  | .SSE_PSUBW => "PSUBW"
  | .SSE_PSUBD => "PSUBD"
  | .SSE_PSUBQ => "PSUBQ"
  | .SSE_PHADDW => "PHADDW"
  | .SSE_PHADDD => "PHADDD"
  | .SSE_PHSUBW => "PHSUBW"
  | .SSE_PHSUBD => "PHSUBD"
  | .SSE_PADDSB => "PADDSB"
  | .SSE_PADDSW => "PADDSW"
  | .SSE_PADDUSB => "PADDUSB"
  | .SSE_PADDUSW => "PADDUSW"
  | .SSE_PSUBSB => "PSUBSB"
  | .SSE_PSUBSW => "PSUBSW"
  | .SSE_PSUBUSB => "PSUBUSB"
  | .SSE_PSUBUSW => "PSUBUSW"
  | .SSE_PHADDSW => "PHADDSW"
  | .SSE_PHSUBSW => "PHSUBSW"
  | .SSE_PSADBW => "PSADBW"
  | .SSE_PMADDUBSW => "PMADDUBSW"
  | .SSE_PMULLW => "PMULLW"
  | .SSE_PMULLD => "PMULLD"
  | .SSE_PSLLW => "PSLLW"
  | .SSE_PSLLD => "PSLLD"
  | .SSE_PSLLQ => "PSLLQ"
  | .SSE_PSRLW => "PSRLW"
  | .SSE_PSRLD => "PSRLD"
  | .SSE_PSRLQ => "PSRLQ"
  | .SSE_PSRAW => "PSRAW"
  | .SSE_PSRAD => "PSRAD"
  | .SSE_PSLLDQ => "PSLLDQ"
  | .SSE_PSRLDQ => "PSRLDQ"
  | .SSE_PALIGNR => "PALIGNR"
  | .SSE_PACKSSWB => "PACKSSWB"
  | .SSE_PACKSSDW => "PACKSSDW"
  | .SSE_PACKUSWB => "PACKUSWB"
  | .SSE_PACKUSDW => "PACKUSDW"
  | .SSE_PINSRB => "PINSRB"
  | .SSE_PINSRW => "PINSRW"
  | .SSE_PINSRD => "PINSRD"
  | .SSE_PINSRQ => "PINSRQ"
  | .SSE_PEXTRB => "PEXTRB"
  | .SSE_PEXTRW => "PEXTRW"
  | .SSE_PEXTRD => "PEXTRD"
  | .SSE_PEXTRQ => "PEXTRQ"
  | .SSE_PAVGB => "PAVGB"
  | .SSE_PAVGW => "PAVGW"
  | .SSE_PMULHW => "PMULHW"
  | .SSE_PMULHUW => "PMULHUW"
  | .SSE_PMULDQ => "PMULDQ"
  | .SSE_PMULUDQ => "PMULUDQ"
  | .SSE_PMADDWD => "PMADDWD"
  | .SSE_PCMPEQB => "PCMPEQB"
  | .SSE_PCMPEQW => "PCMPEQW"
  | .SSE_PCMPEQD => "PCMPEQD"
  | .SSE_PCMPEQQ => "PCMPEQQ"
  | .SSE_PCMPGTB => "PCMPGTB"
  | .SSE_PCMPGTW => "PCMPGTW"
  | .SSE_PCMPGTD => "PCMPGTD"
  | .SSE_PCMPGTQ => "PCMPGTQ"
  | .SSE_PMINUB => "PMINUB"
  | .SSE_PMINUW => "PMINUW"
  | .SSE_PMINUD => "PMINUD"
  | .SSE_PMINSB => "PMINSB"
  | .SSE_PMINSW => "PMINSW"
  | .SSE_PMINSD => "PMINSD"
  | .SSE_PMAXUB => "PMAXUB"
  | .SSE_PMAXUW => "PMAXUW"
  | .SSE_PMAXUD => "PMAXUD"
  | .SSE_PMAXSB => "PMAXSB"
  | .SSE_PMAXSW => "PMAXSW"
  | .SSE_PMAXSD => "PMAXSD"
  | .SSE_PABSB => "PABSB"
  | .SSE_PABSW => "PABSW"
  | .SSE_PABSD => "PABSD"
  | .SSE_PSIGNB => "PSIGNB"
  | .SSE_PSIGNW => "PSIGNW"
  | .SSE_PSIGND => "PSIGND"
  | .SSE_PMOVMSKB => "PMOVMSKB"
  | .SSE_MOVMSKPS => "MOVMSKPS"
  | .SSE_MOVMSKPD => "MOVMSKPD"
  | .SSE_PMOVSXBW => "PMOVSXBW"
  | .SSE_PMOVSXBD => "PMOVSXBD"
  | .SSE_PMOVSXBQ => "PMOVSXBQ"
  | .SSE_PMOVSXWD => "PMOVSXWD"
  | .SSE_PMOVSXWQ => "PMOVSXWQ"
  | .SSE_PMOVSXDQ => "PMOVSXDQ"
  | .SSE_PMOVZXBW => "PMOVZXBW"
  | .SSE_PMOVZXBD => "PMOVZXBD"
  | .SSE_PMOVZXBQ => "PMOVZXBQ"
  | .SSE_PMOVZXWD => "PMOVZXWD"
  | .SSE_PMOVZXWQ => "PMOVZXWQ"
  | .SSE_PMOVZXDQ => "PMOVZXDQ"
  | .JMP => "JMP"
  | .JO => "JO"
  | .JNO => "JNO"
  | .JC => "JC"
  | .JNC => "JNC"
  | .JZ => "JZ"
  | .JNZ => "JNZ"
  | .JBE => "JBE"
  | .JA => "JA"
  | .JS => "JS"
  | .JNS => "JNS"
  | .JP => "JP"
  | .JNP => "JNP"
  | .JL => "JL"
  | .JGE => "JGE"
  | .JLE => "JLE"
  | .JG => "JG"
  | .JCXZ => "JCXZ"
  | .LOOP => "LOOP"
  | .LOOPZ => "LOOPZ"
  | .LOOPNZ => "LOOPNZ"
  | .other => ""

/-- The switch, /repo/src/x86-64/lifter.cc:73-454; `none` is the default row, 69-71. -/
def Mn.row : Mn → Option Handler
  | .NOP => some .nothing
  | .RDSSP => some .nothing
  | .ENDBR64 => some .nothing
  | .PUSH => some .push
  | .PUSHF => some .pushf
  | .POPF => some .popf
  | .POP => some .pop
  | .LEAVE => some .leave
  | .CALL => some .call
  | .RET => some .ret
  | .SYSCALL => some .syscall
  | .CPUID => some .cpuid
  | .RDTSC => some .rdtsc
  | .LAHF => some .lahf
  | .SAHF => some .sahf
  | .MOV => some .movgp
  | .MOVABS => some .movgp
  | .MOVZX => some .movzx
  | .MOVSX => some .movgp
  | .MOVNTI => some .movgp
  | .MOVBE => some .movbe
  | .ADD => some (.arith false)
  | .ADC => some (.arith false)
  | .SUB => some (.arith true)
  | .SBB => some (.arith true)
  | .CMP => some (.arith true)
  | .XADD => some (.arith false)
  | .CMPXCHG => some .cmpxchg
  | .XCHG => some .xchg
  | .LEA => some .lea
  | .XLATB => some .xlat
  | .NOT => some .not
  | .NEG => some .neg
  | .INC => some .incDec
  | .DEC => some .incDec
  | .AND => some (.andOrXor .And .And true)
  | .OR => some (.andOrXor .Or .Or true)
  | .XOR => some (.andOrXor .Xor .Xor true)
  | .TEST => some (.andOrXor .And .And false)
  | .IMUL => some .mul
  | .MUL => some .mul
  | .IDIV => some .div
  | .DIV => some .div
  | .SHL => some (.shift .Shl)
  | .SHR => some (.shift .LShr)
  | .SAR => some (.shift .AShr)
  | .ROL => some .rotate
  | .ROR => some .rotate
  | .SHLD => some .shiftdouble
  | .SHRD => some .shiftdouble
  | .BSF => some (.bitscan true)
  | .TZCNT => some (.bitscan true)
  | .BSR => some (.bitscan false)
  | .LZCNT => some (.bitscan false)
  | .POPCNT => some .popcnt
  | .BT => some (.bittest .Or .Or)
  | .BTC => some (.bittest .Xor .Xor)
  | .BTR => some (.bittest .And .And)
  | .BTS => some (.bittest .Or .Or)
  | .BSWAP => some .bswap
  | .C_EX => some .cext
  | .C_SEP => some .csep
  | .CLC => some (.setFlag .cf false)
  | .STC => some (.setFlag .cf true)
  | .CMC => some (.notFlag .cf)
  | .CLD => some (.setFlag .df false)
  | .STD => some (.setFlag .df true)
  | .LODS => some .lods
  | .STOS => some .stos
  | .MOVS => some .movs
  | .SCAS => some .scas
  | .CMPS => some .cmps
  | .CMOVO => some (.cmovcc .o)
  | .CMOVNO => some (.cmovcc .no)
  | .CMOVC => some (.cmovcc .c)
  | .CMOVNC => some (.cmovcc .nc)
  | .CMOVZ => some (.cmovcc .z)
  | .CMOVNZ => some (.cmovcc .nz)
  | .CMOVBE => some (.cmovcc .be)
  | .CMOVA => some (.cmovcc .a)
  | .CMOVS => some (.cmovcc .s)
  | .CMOVNS => some (.cmovcc .ns)
  | .CMOVP => some (.cmovcc .p)
  | .CMOVNP => some (.cmovcc .np)
  | .CMOVL => some (.cmovcc .l)
  | .CMOVGE => some (.cmovcc .ge)
  | .CMOVLE => some (.cmovcc .le)
  | .CMOVG => some (.cmovcc .g)
  | .SETO => some (.setcc .o)
  | .SETNO => some (.setcc .no)
  | .SETC => some (.setcc .c)
  | .SETNC => some (.setcc .nc)
  | .SETZ => some (.setcc .z)
  | .SETNZ => some (.setcc .nz)
  | .SETBE => some (.setcc .be)
  | .SETA => some (.setcc .a)
  | .SETS => some (.setcc .s)
  | .SETNS => some (.setcc .ns)
  | .SETP => some (.setcc .p)
  | .SETNP => some (.setcc .np)
  | .SETL => some (.setcc .l)
  | .SETGE => some (.setcc .ge)
  | .SETLE => some (.setcc .le)
  | .SETG => some (.setcc .g)
  | .LFENCE => some .fence
  | .SFENCE => some .fence
  | .MFENCE => some .fence
  | .PREFETCH => some (.prefetch 0 3)
  | .RESERVED_PREFETCH => some (.prefetch 0 3)
  | .PREFETCHT0 => some (.prefetch 0 3)
  | .PREFETCHT1 => some (.prefetch 0 2)
  | .PREFETCHT2 => some (.prefetch 0 1)
  | .PREFETCHNTA => some (.prefetch 0 0)
  | .PREFETCHW => some (.prefetch 1 1)
  | .PREFETCHWT1 => some (.prefetch 1 2)
  | .FXSAVE => some .fxsave
  | .FXRSTOR => some .fxrstor
  | .FSTCW => some .fstcw
  | .FLDCW => some .nothing
  | .FSTSW => some .fstsw
  | .STMXCSR => some .stmxcsr
  | .LDMXCSR => some .nothing
  | .SSE_MOVD => some (.sseMovq .I32)
  | .SSE_MOVQ => some (.sseMovq .I64)
  | .SSE_MOVSS => some (.sseMovScalar .I32)
  | .SSE_MOVSD => some (.sseMovScalar .I64)
  | .SSE_MOVUPS => some (.sseMovdq .V4F32 false)
  | .SSE_MOVUPD => some (.sseMovdq .V2F64 false)
  | .SSE_MOVAPS => some (.sseMovdq .V4F32 true)
  | .SSE_MOVAPD => some (.sseMovdq .V2F64 true)
  | .SSE_MOVDQU => some (.sseMovdq .V2I64 false)
  | .SSE_MOVDQA => some (.sseMovdq .V2I64 true)
  | .SSE_LDDQU => some (.sseMovdq .V2I64 false)
  | .SSE_MOVNTPS => some (.sseMovntStore .VF32)
  | .SSE_MOVNTPD => some (.sseMovntStore .VF64)
  | .SSE_MOVNTDQ => some (.sseMovntStore .VI64)
  | .SSE_MOVNTDQA => some (.sseMovdq .V2I64 true)
  | .SSE_MOVLPS => some .sseMovlp
  | .SSE_MOVHLPS => some .sseMovlp
  | .SSE_MOVLPD => some .sseMovlp
  | .SSE_MOVHPS => some .sseMovhps
  | .SSE_MOVLHPS => some .sseMovhps
  | .SSE_MOVHPD => some .sseMovhpd
  | .SSE_PUNPCKLBW => some (.sseUnpck .V16I8)
  | .SSE_PUNPCKLWD => some (.sseUnpck .V8I16)
  | .SSE_PUNPCKLDQ => some (.sseUnpck .V4I32)
  | .SSE_PUNPCKLQDQ => some (.sseUnpck .V2I64)
  | .SSE_PUNPCKHBW => some (.sseUnpck .V16I8)
  | .SSE_PUNPCKHWD => some (.sseUnpck .V8I16)
  | .SSE_PUNPCKHDQ => some (.sseUnpck .V4I32)
  | .SSE_PUNPCKHQDQ => some (.sseUnpck .V2I64)
  | .SSE_UNPCKLPS => some (.sseUnpck .V4F32)
  | .SSE_UNPCKLPD => some (.sseUnpck .V2F64)
  | .SSE_UNPCKHPS => some (.sseUnpck .V4F32)
  | .SSE_UNPCKHPD => some (.sseUnpck .V2F64)
  | .SSE_SHUFPD => some .sseShufpd
  | .SSE_SHUFPS => some .sseShufps
  | .SSE_PSHUFD => some .ssePshufd
  | .SSE_PSHUFLW => some (.ssePshufw 0)
  | .SSE_PSHUFHW => some (.ssePshufw 4)
  | .SSE_INSERTPS => some .sseInsertps
  | .SSE_EXTRACTPS => some (.ssePextr .VF32 0x03)
  | .SSE_MOVSLDUP => some (.sseMovdup .VF32 0)
  | .SSE_MOVSHDUP => some (.sseMovdup .VF32 1)
  | .SSE_MOVDDUP => some (.sseMovdup .VF64 0)
  | .SSE_ADDSS => some (.sseBinOp .FAdd false .F32)
  | .SSE_ADDSD => some (.sseBinOp .FAdd false .F64)
  | .SSE_ADDPS => some (.sseBinOp .FAdd false .VF32)
  | .SSE_ADDPD => some (.sseBinOp .FAdd false .VF64)
  | .SSE_ADDSUBPS => some (.sseAddSub .VF32)
  | .SSE_ADDSUBPD => some (.sseAddSub .VF64)
  | .SSE_SUBSS => some (.sseBinOp .FSub false .F32)
  | .SSE_SUBSD => some (.sseBinOp .FSub false .F64)
  | .SSE_SUBPS => some (.sseBinOp .FSub false .VF32)
  | .SSE_SUBPD => some (.sseBinOp .FSub false .VF64)
  | .SSE_MULSS => some (.sseBinOp .FMul false .F32)
  | .SSE_MULSD => some (.sseBinOp .FMul false .F64)
  | .SSE_MULPS => some (.sseBinOp .FMul false .VF32)
  | .SSE_MULPD => some (.sseBinOp .FMul false .VF64)
  | .SSE_DIVSS => some (.sseBinOp .FDiv false .F32)
  | .SSE_DIVSD => some (.sseBinOp .FDiv false .F64)
  | .SSE_DIVPS => some (.sseBinOp .FDiv false .VF32)
  | .SSE_DIVPD => some (.sseBinOp .FDiv false .VF64)
  | .SSE_HADDPS => some (.sseBinOp .FAdd true .VF32)
  | .SSE_HADDPD => some (.sseBinOp .FAdd true .VF64)
  | .SSE_HSUBPS => some (.sseBinOp .FSub true .VF32)
  | .SSE_HSUBPD => some (.sseBinOp .FSub true .VF64)
  | .SSE_MINSS => some (.sseMinmax .FCMP_OLT .F32)
  | .SSE_MINSD => some (.sseMinmax .FCMP_OLT .F64)
  | .SSE_MINPS => some (.sseMinmax .FCMP_OLT .VF32)
  | .SSE_MINPD => some (.sseMinmax .FCMP_OLT .VF64)
  | .SSE_MAXSS => some (.sseMinmax .FCMP_OGT .F32)
  | .SSE_MAXSD => some (.sseMinmax .FCMP_OGT .F64)
  | .SSE_MAXPS => some (.sseMinmax .FCMP_OGT .VF32)
  | .SSE_MAXPD => some (.sseMinmax .FCMP_OGT .VF64)
  | .SSE_ORPS => some (.sseBinOp .Or false .VI32)
  | .SSE_ORPD => some (.sseBinOp .Or false .VI64)
  | .SSE_ANDPS => some (.sseBinOp .And false .VI32)
  | .SSE_ANDPD => some (.sseBinOp .And false .VI64)
  | .SSE_XORPS => some (.sseBinOp .Xor false .VI32)
  | .SSE_XORPD => some (.sseBinOp .Xor false .VI64)
  | .SSE_ANDNPS => some (.sseAndn .VI32)
  | .SSE_ANDNPD => some (.sseAndn .VI64)
  | .SSE_COMISS => some (.sseComis .F32)
  | .SSE_COMISD => some (.sseComis .F64)
  | .SSE_UCOMISS => some (.sseComis .F32)
  | .SSE_UCOMISD => some (.sseComis .F64)
  | .SSE_CMPSS => some (.sseCmp .F32)
  | .SSE_CMPSD => some (.sseCmp .F64)
  | .SSE_CMPPS => some (.sseCmp .VF32)
  | .SSE_CMPPD => some (.sseCmp .VF64)
  | .SSE_SQRTSS => some (.sseSqrt .F32)
  | .SSE_SQRTSD => some (.sseSqrt .F64)
  | .SSE_SQRTPS => some (.sseSqrt .VF32)
  | .SSE_SQRTPD => some (.sseSqrt .VF64)
  | .SSE_CVTDQ2PD => some (.sseCvt .V2I32 .V2F64)
  | .SSE_CVTDQ2PS => some (.sseCvt .V4I32 .V4F32)
  | .SSE_CVTTPD2DQ => some (.sseCvt .V2F64 .V2I32)
  | .SSE_CVTTPS2DQ => some (.sseCvt .V4F32 .V4I32)
  | .SSE_CVTPD2PS => some (.sseCvt .V2F64 .V2F32)
  | .SSE_CVTPS2PD => some (.sseCvt .V2F32 .V2F64)
  | .SSE_CVTSD2SS => some (.sseCvt .F64 .F32)
  | .SSE_CVTSS2SD => some (.sseCvt .F32 .F64)
  | .SSE_CVTTSD2SI => some (.sseCvt .F64 .I)
  | .SSE_CVTTSS2SI => some (.sseCvt .F32 .I)
  | .SSE_CVTSI2SD => some (.sseCvt .I .F64)
  | .SSE_CVTSI2SS => some (.sseCvt .I .F32)
  | .SSE_PXOR => some (.sseBinOp .Xor false .VI64)
  | .SSE_POR => some (.sseBinOp .Or false .VI64)
  | .SSE_PAND => some (.sseBinOp .And false .VI64)
  | .SSE_PANDN => some (.sseAndn .VI64)
  | .SSE_PADDB => some (.sseBinOp .Add false .V16I8)
  | .SSE_PADDW => some (.sseBinOp .Add false .V8I16)
  | .SSE_PADDD => some (.sseBinOp .Add false .V4I32)
  | .SSE_PADDQ => some (.sseBinOp .Add false .V2I64)
  | .SSE_PSUBB => some (.sseBinOp .Sub false .V16I8)
  | .SSE_PSUBW => some (.sseBinOp .Sub false .V8I16)
  | .SSE_PSUBD => some (.sseBinOp .Sub false .V4I32)
  | .SSE_PSUBQ => some (.sseBinOp .Sub false .V2I64)
  | .SSE_PHADDW => some (.sseBinOp .Add true .VI16)
  | .SSE_PHADDD => some (.sseBinOp .Add true .VI32)
  | .SSE_PHSUBW => some (.sseBinOp .Sub true .VI16)
  | .SSE_PHSUBD => some (.sseBinOp .Sub true .VI32)
  | .SSE_PADDSB => some (.ssePaddsubSaturate .Add true false .V16I8)
  | .SSE_PADDSW => some (.ssePaddsubSaturate .Add true false .V8I16)
  | .SSE_PADDUSB => some (.ssePaddsubSaturate .Add false false .V16I8)
  | .SSE_PADDUSW => some (.ssePaddsubSaturate .Add false false .V8I16)
  | .SSE_PSUBSB => some (.ssePaddsubSaturate .Sub true false .V16I8)
  | .SSE_PSUBSW => some (.ssePaddsubSaturate .Sub true false .V8I16)
  | .SSE_PSUBUSB => some (.ssePaddsubSaturate .Sub false false .V16I8)
  | .SSE_PSUBUSW => some (.ssePaddsubSaturate .Sub false false .V8I16)
  | .SSE_PHADDSW => some (.ssePaddsubSaturate .Add true true .V8I16)
  | .SSE_PHSUBSW => some (.ssePaddsubSaturate .Sub true true .V8I16)
  | .SSE_PSADBW => some .ssePsadbw
  | .SSE_PMADDUBSW => some .ssePmaddubsw
  | .SSE_PMULLW => some (.sseBinOp .Mul false .V8I16)
  | .SSE_PMULLD => some (.sseBinOp .Mul false .V4I32)
  | .SSE_PSLLW => some (.ssePshiftElement .Shl .VI16)
  | .SSE_PSLLD => some (.ssePshiftElement .Shl .VI32)
  | .SSE_PSLLQ => some (.ssePshiftElement .Shl .VI64)
  | .SSE_PSRLW => some (.ssePshiftElement .LShr .VI16)
  | .SSE_PSRLD => some (.ssePshiftElement .LShr .VI32)
  | .SSE_PSRLQ => some (.ssePshiftElement .LShr .VI64)
  | .SSE_PSRAW => some (.ssePshiftElement .AShr .VI16)
  | .SSE_PSRAD => some (.ssePshiftElement .AShr .VI32)
  | .SSE_PSLLDQ => some .ssePshiftBytes
  | .SSE_PSRLDQ => some .ssePshiftBytes
  | .SSE_PALIGNR => some .ssePalignr
  | .SSE_PACKSSWB => some (.ssePack .VI16 true)
  | .SSE_PACKSSDW => some (.ssePack .VI32 true)
  | .SSE_PACKUSWB => some (.ssePack .VI16 false)
  | .SSE_PACKUSDW => some (.ssePack .VI32 false)
  | .SSE_PINSRB => some (.ssePinsr .VI8 .I8 0x0f)
  | .SSE_PINSRW => some (.ssePinsr .VI16 .I16 0x07)
  | .SSE_PINSRD => some (.ssePinsr .VI32 .I32 0x03)
  | .SSE_PINSRQ => some (.ssePinsr .VI64 .I64 0x01)
  | .SSE_PEXTRB => some (.ssePextr .VI8 0x0f)
  | .SSE_PEXTRW => some (.ssePextr .VI16 0x07)
  | .SSE_PEXTRD => some (.ssePextr .VI32 0x03)
  | .SSE_PEXTRQ => some (.ssePextr .VI64 0x01)
  | .SSE_PAVGB => some (.ssePavg .VI8)
  | .SSE_PAVGW => some (.ssePavg .VI16)
  | .SSE_PMULHW => some (.ssePmulhw .SExt)
  | .SSE_PMULHUW => some (.ssePmulhw .ZExt)
  | .SSE_PMULDQ => some (.ssePmuldq .SExt)
  | .SSE_PMULUDQ => some (.ssePmuldq .ZExt)
  | .SSE_PMADDWD => some .ssePmaddwd
  | .SSE_PCMPEQB => some (.ssePcmp .ICMP_EQ .VI8)
  | .SSE_PCMPEQW => some (.ssePcmp .ICMP_EQ .VI16)
  | .SSE_PCMPEQD => some (.ssePcmp .ICMP_EQ .VI32)
  | .SSE_PCMPEQQ => some (.ssePcmp .ICMP_EQ .VI64)
  | .SSE_PCMPGTB => some (.ssePcmp .ICMP_SGT .VI8)
  | .SSE_PCMPGTW => some (.ssePcmp .ICMP_SGT .VI16)
  | .SSE_PCMPGTD => some (.ssePcmp .ICMP_SGT .VI32)
  | .SSE_PCMPGTQ => some (.ssePcmp .ICMP_SGT .VI64)
  | .SSE_PMINUB => some (.ssePminmax .ICMP_ULT .VI8)
  | .SSE_PMINUW => some (.ssePminmax .ICMP_ULT .VI16)
  | .SSE_PMINUD => some (.ssePminmax .ICMP_ULT .VI32)
  | .SSE_PMINSB => some (.ssePminmax .ICMP_SLT .VI8)
  | .SSE_PMINSW => some (.ssePminmax .ICMP_SLT .VI16)
  | .SSE_PMINSD => some (.ssePminmax .ICMP_SLT .VI32)
  | .SSE_PMAXUB => some (.ssePminmax .ICMP_UGT .VI8)
  | .SSE_PMAXUW => some (.ssePminmax .ICMP_UGT .VI16)
  | .SSE_PMAXUD => some (.ssePminmax .ICMP_UGT .VI32)
  | .SSE_PMAXSB => some (.ssePminmax .ICMP_SGT .VI8)
  | .SSE_PMAXSW => some (.ssePminmax .ICMP_SGT .VI16)
  | .SSE_PMAXSD => some (.ssePminmax .ICMP_SGT .VI32)
  | .SSE_PABSB => some (.ssePabs .VI8)
  | .SSE_PABSW => some (.ssePabs .VI16)
  | .SSE_PABSD => some (.ssePabs .VI32)
  | .SSE_PSIGNB => some (.ssePsign .VI8)
  | .SSE_PSIGNW => some (.ssePsign .VI16)
  | .SSE_PSIGND => some (.ssePsign .VI32)
  | .SSE_PMOVMSKB => some (.sseMovmsk .VI8)
  | .SSE_MOVMSKPS => some (.sseMovmsk .VI32)
  | .SSE_MOVMSKPD => some (.sseMovmsk .VI64)
  | .SSE_PMOVSXBW => some (.ssePmovx .SExt .V8I8 .V8I16)
  | .SSE_PMOVSXBD => some (.ssePmovx .SExt .V4I8 .V4I32)
  | .SSE_PMOVSXBQ => some (.ssePmovx .SExt .V2I8 .V2I64)
  | .SSE_PMOVSXWD => some (.ssePmovx .SExt .V4I16 .V4I32)
  | .SSE_PMOVSXWQ => some (.ssePmovx .SExt .V2I16 .V2I64)
  | .SSE_PMOVSXDQ => some (.ssePmovx .SExt .V2I32 .V2I64)
  | .SSE_PMOVZXBW => some (.ssePmovx .ZExt .V8I8 .V8I16)
  | .SSE_PMOVZXBD => some (.ssePmovx .ZExt .V4I8 .V4I32)
  | .SSE_PMOVZXBQ => some (.ssePmovx .ZExt .V2I8 .V2I64)
  | .SSE_PMOVZXWD => some (.ssePmovx .ZExt .V4I16 .V4I32)
  | .SSE_PMOVZXWQ => some (.ssePmovx .ZExt .V2I16 .V2I64)
  | .SSE_PMOVZXDQ => some (.ssePmovx .ZExt .V2I32 .V2I64)
  | .JMP => some .jmp
  | .JO => some (.jcc .o)
  | .JNO => some (.jcc .no)
  | .JC => some (.jcc .c)
  | .JNC => some (.jcc .nc)
  | .JZ => some (.jcc .z)
  | .JNZ => some (.jcc .nz)
  | .JBE => some (.jcc .be)
  | .JA => some (.jcc .a)
  | .JS => some (.jcc .s)
  | .JNS => some (.jcc .ns)
  | .JP => some (.jcc .p)
  | .JNP => some (.jcc .np)
  | .JL => some (.jcc .l)
  | .JGE => some (.jcc .ge)
  | .JLE => some (.jcc .le)
  | .JG => some (.jcc .g)
  | .JCXZ => some .jcxz
  | .LOOP => some .loop
  | .LOOPZ => some .loop
  | .LOOPNZ => some .loop
  | .other => none

end Verif.X86
