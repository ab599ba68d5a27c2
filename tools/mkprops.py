import json
P=[]
def p(id,title,statement,quant,why,anchors):
    P.append(dict(id=id,title=title,statement=statement,quantifier=quant,why_tests_cant=why,anchors=anchors))
D="src/lldecoder.cc: Function::Decode, classifyInstr"
L="src/function.cc: LiftHelper::Lift, LiftHelper::ResolveAddr"
R="src/regfile.cc: RegFile::impl, Register"
p("C01","Every guest address is decoded at most once",
 "After any sequence of ll_func_decode_instr / ll_func_decode_block / ll_func_decode_cfg calls on one LLFunc, no guest address appears twice among the decoded instructions, and looking an address up yields exactly the instruction decoded at it.",
 "all memory contents, all decoders, all configurations, all sequences of decode calls of any length",
 "The set of CFGs and call histories is unbounded; a duplicate only shows up for particular overlaps of streams.",
 [D,"src/function.h: Function::instr_map, Function::instrs","src/rellume.cc: ll_func_decode_*"])
p("C02","ll_func_decode_cfg closes over the static control flow",
 "After ll_func_decode_cfg(addr), addr itself, the fall-through of every decoded instruction that can fall through, and every non-zero statically known branch target of a decoded instruction is either decoded or is an address at which decoding fails; everything decoded this way is reachable from addr; branch targets and the instruction after a conditional branch or call start a new basic block.",
 "all memory contents, all decoders, all entry addresses",
 "Reachability closure quantifies over every control-flow graph, including overlapping instruction streams and loops.",
 [D])
p("C03","Decoding always terminates",
 "Every decode call finishes after finitely many steps, and makes at most one decode attempt per (stream, address): the number of successfully decoded instructions is bounded by the number of addresses and the work list only grows when an instruction is decoded.",
 "all memory contents (including adversarial self-overlapping code), all decoders, all entry addresses",
 "Termination is a liveness property over all inputs; no finite set of runs shows it.",
 [D])
p("C04","Reported code ranges are exactly the decoded bytes",
 "ll_func_ranges after any history of decode calls returns a zero-terminated list of non-empty ranges whose union is exactly the union of the byte ranges of the decoded instructions.",
 "all memory contents and decode histories",
 "Needs to hold for every history; tests look at a handful of functions.",
 [D,"src/rellume.cc: ll_func_ranges","src/function.h: Function::CodeRanges"])
p("C05","Stop modes of the decoder",
 "ll_func_decode_instr adds at most one instruction; ll_func_decode_block adds one straight-line run that contains at most one control-flow instruction, which is its last one.",
 "all memory contents, all prior histories",
 "Quantifies over histories and memory.",
 [D])
p("C06","Basic blocks are contiguous straight-line runs",
 "In the decoded instruction list, an instruction that does not start a block directly follows (in the list and in guest memory) an instruction that can only fall through to it; the first instruction always starts a block. Hence each lifted block executes a contiguous run of guest code.",
 "all decode histories",
 "The lifter's block formation relies on it for every interleaving of streams.",
 [D,L])
p("C07","Branches stay inside iff the target is a lifted block",
 "When a lifted block ends with known successor address a, the lifted function continues with the block for a iff a is non-zero and was decoded as the start of a block; otherwise the function exits.",
 "all decoded programs, all successor addresses",
 "All CFG shapes and all target addresses.",
 [L])
p("C08","Predecessor counts never undercount lifted edges",
 "The number of predecessors recorded for a block while decoding is at least the number of CFG edges the lifter creates to it, so a block that inherits its registers from a unique predecessor really has only that predecessor.",
 "all decode histories and configurations",
 "A violation yields silently wrong SSA only in particular layouts; unit tests have a single block mostly.",
 [D,L,"src/basicblock.cc: ArchBasicBlock::InitWithPHIs, FillPhis","src/x86-64/lifter-gp.cc: LiftSyscall"])
p("C09","End-to-end simulation by the lifted control flow",
 "Running the lifted function from the entry performs exactly the guest instructions, in guest order, that a guest machine starting at the entry address performs, until the first instruction address that is not covered; then it leaves with the guest state and the program counter the guest machine has at that moment.",
 "all programs, all initial CPU states, all execution lengths",
 "Unbounded executions over unbounded programs.",
 [L,"src/regfile.cc: GetPCBranch, GetPCValue","src/basicblock.cc: BranchTo"])
p("C10","The program counter stored at exit is the next guest address",
 "Whatever way the function is left (fall-through out of the decoded region, branch, indirect branch, failed lifting of an instruction, call), the rip/pc stored in the CPU struct is the address of the next guest instruction, for absolute and position independent code.",
 "all instructions, PC modes, base values",
 "64-bit wraparound and all combinations of modes.",
 [L,"src/regfile.cc: RegFile::impl::GetPCValue, AddrPCBase, GetPCBranch"])
p("C11","Register file behaves like flat registers",
 "Within a lifted block, reading a register as any facet after any sequence of full writes, partial writes and reads (of any sizes) returns the low bits of the value a flat register would hold.",
 "all sequences of register accesses, all sizes, any number of cached views",
 "Unbounded histories of overlapping partial writes and cached reads.",
 [R,"src/facet.cc: Facet"])
p("C12","Partial writes: 32-bit writes zero, 8/16-bit writes preserve",
 "Set replaces the whole register by the zero-extended value; Merge replaces exactly the low bits and leaves every other bit; the high-byte registers AH..DH touch exactly bits 8..15.",
 "all values, all sizes",
 "All 2^64 register contents and all value combinations.",
 [R,"src/x86-64/lifter-private.h: StoreGpFacet","src/x86-64/lifter-operand.cc"])
p("C13","Lazily computed flags equal eagerly computed flags",
 "A flag defined by a deferred computation reads as the value that computation had at definition time regardless of what is written to other registers in between and of how often or when it is read.",
 "all deferred computations, all operand values, all subsequent histories",
 "All interleavings of accesses.",
 [R])
p("C14","SSA construction: a register read sees the last write on the executed path",
 "For every execution path through the lifted CFG, a register read in a block returns the value last written to the register on that path (or the value loaded at function entry), however many PHI nodes and inherited register files lie in between.",
 "all CFGs (incl. irreducible, loops, self-loops), all paths of any length",
 "Paths are unbounded, CFGs are unbounded.",
 [R,"src/basicblock.cc: InitWithPHIs, FillPhis",L])
p("C15","Optimised register write-back stores the right CPU state",
 "At every point where the CPU struct is observable (return, tail call, external call), every register field of the struct equals the guest register, although clean registers are not stored and stores may be hoisted to predecessors.",
 "all CFGs, all paths, all dirty-register patterns",
 "The data-flow argument covers all graphs and all paths.",
 ["src/callconv.cc: CallConv::OptimizePacks, Pack, Unpack"])
p("C16","CPU struct layout is sound",
 "For every architecture, struct fields do not overlap, are naturally aligned, lie inside the struct, the struct covers the dereferenceable size promised to LLVM, rip/pc is at offset 0, and distinct fields hold distinct registers. The public header names every register except the flags (and x0 of RISC-V), with the offsets and sizes that the lifted code uses; a struct aligned to 16 bytes is aligned as LLVM is told. Fields that the lifted code uses by name (segment bases, thread pointer) are those with this name.",
 "all fields of all three architectures",
 "It is a for-all over the generated table (finite), checked by the kernel over the whole table.",
 ["data/rellume/cpustruct-*.json","data/rellume/cpustruct_parser.py","src/callconv.cc: CPUStructEntries, InitSptrs","src/function.cc: addDereferenceableParamAttr"])
p("C17","Entry/exit round trip through the CPU struct",
 "A lifted function whose code does not touch a register leaves the register's bytes in the struct unchanged; loading all registers and storing all registers is the identity on the struct; storing then loading gives back the register values.",
 "all struct contents, all register values",
 "All byte contents.",
 ["src/callconv.cc: Pack, Unpack, OptimizePacks"])
p("C18","x86 ADD/SUB/CMP/NEG/INC/DEC flags",
 "The six status flags after ADD, SUB, CMP, NEG, INC, DEC equal the architectural definition (unsigned carry/borrow, signed overflow, zero, sign, low-byte parity, nibble carry; INC/DEC preserve CF), at 8, 16, 32 and 64 bits and with and without overflow intrinsics.",
 "all operand values, all operand sizes",
 "2^128 operand pairs.",
 ["src/x86-64/lifter-flags.cc: FlagCalcAdd, FlagCalcSub","src/x86-64/lifter-gp.cc: LiftArith"])
p("C19","x86 ADC/SBB results and flags",
 "ADC/SBB results equal a+b+CF / a-b-CF and all flags equal the architectural definition.",
 "all operand values, all sizes, both carry inputs",
 "Fails only on rare operands; needs all-operand reasoning.",
 ["src/x86-64/lifter-gp.cc: LiftArith","src/x86-64/lifter-flags.cc"])
p("C20","x86 condition codes after a comparison",
 "After CMP a,b each of the 16 conditions used by Jcc/SETcc/CMOVcc holds iff the corresponding relation on unsigned/signed integers holds; odd conditions are the negation of even ones.",
 "all operands, all sizes, all 16 conditions",
 "All operand pairs.",
 ["src/x86-64/lifter-flags.cc: FlagCond"])
p("C21","x86 flags image round trip",
 "PUSHF/LAHF build the architectural RFLAGS image; POPF/SAHF followed by PUSHF/LAHF reproduces all modelled bits and the fixed bits, and PUSHF followed by POPF leaves the flags unchanged.",
 "all flag states, all 64-bit images",
 "All images.",
 ["src/x86-64/lifter-flags.cc: FlagAsReg, FlagFromReg"])
p("C22","x86 shifts and rotates",
 "SHL/SHR/SAR/ROL/ROR/SHLD/SHRD compute the architectural result for every (masked) count; a zero count leaves the flags unchanged.",
 "all values, all counts, all sizes",
 "Count-zero and count>=width corner cases for all values.",
 ["src/x86-64/lifter-gp.cc: LiftShift, LiftRotate, LiftShiftdouble"])
p("C23","x86 multiply and divide",
 "MUL/IMUL produce the exact double-width product and overflow flags; DIV/IDIV produce quotient and remainder satisfying the division identity whenever the architecture does not raise #DE, also with the narrowing optimisation for sign/zero-extended dividends.",
 "all operands, all sizes",
 "All operands, quotient range conditions.",
 ["src/x86-64/lifter-gp.cc: LiftMul, LiftDiv"])
p("C24","x86 REP string instructions",
 "REP STOS/MOVS/LODS and REPZ/REPNZ SCAS/CMPS perform exactly the architectural number of iterations, leave RCX/RSI/RDI and flags with the architectural values, for both directions; RCX=0 does nothing, REP STOSB via memset is the same as the loop.",
 "all counts up to 2^64-1, all memory contents, both directions",
 "Unbounded loops.",
 ["src/x86-64/lifter-gp.cc: RepBegin, RepEnd, LiftStos, LiftMovs, LiftScas, LiftCmps, LiftLods"])
p("C25","x86 stack operations",
 "PUSH/POP/CALL/RET/LEAVE move RSP by the operand size and access exactly the architectural bytes; PUSH then POP restores the value; PUSH RSP/POP RSP use the architectural order.",
 "all register values, all memory contents",
 "All values and memory, aliasing of operand and stack pointer.",
 ["src/x86-64/lifter.cc","src/x86-64/lifter-operand.cc: StackPush, StackPop"])
p("C26","x86 exchange instructions",
 "XCHG, XADD and CMPXCHG leave the operands as the architecture specifies for every choice of operand registers, including identical ones and the accumulator.",
 "all register choices, all values, all sizes",
 "Aliasing combinations.",
 ["src/x86-64/lifter-gp.cc: LiftXchg, LiftXadd, LiftCmpxchg"])
p("C27","RV64 integer ALU",
 "Every RV64I/M register-register and register-immediate instruction writes the value the ISA manual defines (incl. W-forms sign-extending, shift amounts masked, MULH/MULHSU/MULHU).",
 "all operand values and immediates",
 "2^128 operands.",
 ["src/rv64/lifter.cc"])
p("C28","RV64 division is total",
 "DIV/DIVU/REM/REMU and W forms return the ISA-defined values for division by zero and signed overflow and never execute an undefined LLVM division.",
 "all operands",
 "Undefined behaviour on any operand must be excluded.",
 ["src/rv64/lifter.cc: LiftDivRem"])
p("C29","RV64 bit-manipulation",
 "Zbb/Zbs/Zba/Zbc instructions compute the ISA-defined functions (clz, ctz, cpop, rev8, orc.b, rotates, min/max, shNadd, bset/bclr/binv/bext, clmul/clmulh/clmulr).",
 "all operands",
 "2^128 operands; the carry-less product is an iterated computation.",
 ["src/rv64/lifter.cc"])
p("C30","RV64 x0 is constant zero",
 "Writes to x0 have no effect and reads of x0 give zero for every instruction and history.",
 "all instructions and histories",
 "Every instruction.",
 ["src/rv64/lifter.cc: LoadGp, StoreGp"])
p("C31","RV64/A64 jumps and links",
 "JAL/JALR/BL/BLR write the address of the next instruction to the link register and continue at the architectural target computed from the register values before the instruction, including when link and target register coincide; JALR clears bit 0.",
 "all register choices and values",
 "Aliasing of link and target register.",
 ["src/rv64/lifter.cc: LiftJalr","src/a64/main.cc: Lifter::Lift (A64_BLR)"])
p("C32","A64 add/subtract with flags",
 "ADDS/SUBS/CMP/CMN/ADCS/SBCS results and NZCV equal ARM's AddWithCarry.",
 "all operands, both widths, both carries",
 "All operands; the carry-in wraparound is rare.",
 ["src/a64/main.cc: FlagCalcAdd, FlagCalcSub, LiftBinOp, Lifter::Lift (A64_ADC, A64_SBC)"])
p("C33","A64 conditions and conditional instructions",
 "Every condition code evaluates per ARM's ConditionHolds; after CMP each condition equals its signed/unsigned relation; CCMP/CCMN/CSEL/CSINC/CSINV/CSNEG and aliases act accordingly.",
 "all flag states, operands, conditions",
 "All operands.",
 ["src/a64/main.cc: IsTrue, LiftCCmp"])
p("C34","A64 bitfield, extract, extend",
 "UBFX/SBFX/UBFIZ/SBFIZ/BFI/BFXIL/BFC/EXTR/extended-register operands equal the ARM bit-level definitions.",
 "all values, all legal lsb/width",
 "All values and positions.",
 ["src/a64/main.cc: Extract, MoveField, Extend, Shift"])
p("C35","A64 addressing and load/store pair",
 "Every addressing mode accesses the architectural address and applies pre/post-index write-back; LDP/STP access two consecutive elements; store then load round-trips.",
 "all register values, offsets, memory contents",
 "All addresses and aliasing.",
 ["src/a64/main.cc: Addr, LiftLoadStore, Load, Store"])
p("C36","Position independent lifting is equivalent to absolute lifting",
 "With position independent code (or a pc base value) the lifted function run at load offset d behaves like the absolutely lifted function with every code address shifted by d, and identically if d=0.",
 "all programs, offsets and states",
 "All offsets and all PC-relative computations.",
 ["src/regfile.cc: AddrPCBase, GetPCValue, GetPCBranch","src/lifter-base.h: AddrIPRel, SetIP"])
p("C37","SSE/A64 lane-wise integer arithmetic",
 "Packed integer instructions (add/sub, saturating, averages, min/max, compares, multiplies, packs, absolute differences, halving adds) equal their per-lane mathematical definition.",
 "all 128-bit operands",
 "2^256 operands.",
 ["src/x86-64/lifter-sse.cc","src/a64/simd.cc"])
p("C38","SSE/A64 permutations",
 "Shuffle-like instructions (PSHUFD/PSHUFLW/PSHUFHW/SHUFPS/UNPCK*/PALIGNR/PSLLDQ/PSRLDQ, ZIP/UZP/EXT/REV/TBL/INS/DUP/XTN) place exactly the architectural source lane in each destination lane.",
 "all operands, all immediates",
 "All immediates times all operands.",
 ["src/x86-64/lifter-sse.cc","src/a64/simd.cc"])
p("C39","Lifting fails cleanly",
 "ll_func_lift returns NULL exactly when nothing was decoded or the first instruction cannot be lifted (or the architecture is unsupported); a failure in the middle only truncates the containing block, which exits with the PC of the unsupported instruction.",
 "all decoded programs, any subset of liftable instructions",
 "Any subset of unsupported instructions at any position.",
 [L])
p("C40","Configuration API",
 "Setters only change their own option, last write wins, an unknown architecture name is rejected without side effects, and the calling convention always matches the architecture. A new configuration is one in which nothing has been asked for.",
 "all sequences of configuration calls",
 "All histories.",
 ["src/rellume.cc: ll_config_*","src/config.h: LLConfig","src/callconv.cc: ToArch, FromFunction"])
p("C41","x86 effective addresses",
 "The address used by a memory operand (and by LEA) is segment base + base + index*scale + displacement, truncated to the address size, for every addressing form and independent of the pointer/integer representation chosen.",
 "all register values, displacements and scales",
 "All values; wraparound.",
 ["src/x86-64/lifter-operand.cc: OpAddr","src/x86-64/lifter-gp.cc: LiftLea"])
p("C42","A64 division, multiply and bit operations",
 "UDIV/SDIV are total with ARM semantics and never execute an undefined LLVM division; MADD/MSUB/SMADDL/UMADDL/SMULH/UMULH, CLZ/CLS/RBIT/REV/REV16/REV32 equal the ARM definitions.",
 "all operands",
 "All operands.",
 ["src/a64/main.cc"])
p("C43","RV64 loads, stores and atomics",
 "Loads and stores access exactly the addressed little-endian bytes and extend as the mnemonic says; LR/SC and AMO instructions return the old value sign-extended, store the specified combination and read their operands before writing the destination; aq/rl bits map to an LLVM ordering that is at least as strong.",
 "all addresses, register numbers (also overlapping), memory contents and operations",
 "All addresses, alignments, register overlaps.",
 ["src/rv64/lifter.cc: LiftLoad, LiftStore, LiftAmo, FRV_LRW, FRV_SCW"])
p("C44","RV64 floating-point moves and classification",
 "FP loads, stores and moves transfer bit patterns unchanged (narrow values NaN-boxed), sign injection and FCLASS compute the result defined by the ISA on every bit pattern.",
 "all bit patterns and registers",
 "All 2^64 patterns.",
 ["src/rv64/lifter.cc: LiftLoadFp, LiftStoreFp, LiftFsgn, LiftFclass, FRV_FMVXW"])
p("C45","x86 data movement, bit manipulation and jumps",
 "MOV/MOVSX/MOVZX/MOVBE/BSWAP, CBW..CQO, BSF/BSR/TZCNT/LZCNT/POPCNT, BT/BTS/BTR/BTC (including bit strings in memory), XLAT, JMP/JCXZ/LOOP and the flag instructions leave registers, memory, flags and the program counter as the SDM specifies.",
 "all operand values, operand kinds and sizes, all memory contents",
 "All values and operand forms.",
 ["src/x86-64/lifter-gp.cc","src/x86-64/lifter.cc"])
p("C46","A64 scalar floating-point register moves",
 "FMOV between FP registers and from and to general-purpose registers, FABS and FNEG copy, clear or flip exactly the architectural bits and zero the rest of the destination vector register.",
 "all register contents, all register choices and sizes",
 "All bit patterns (including NaN payloads).",
 ["src/a64/main.cc: Lifter::Lift (A64_FMOV_*, A64_FABS, A64_FNEG)"])
p("C47","A64 system instructions, moves and barriers",
 "ADR/ADRP/MOV/MOVK/MRS/MSR/CFINV/DC ZVA leave registers, flags and memory as the architecture specifies; hints and barriers change no architectural state.",
 "all register and memory contents, all immediates",
 "All values.",
 ["src/a64/main.cc: Lifter::Lift"])
p("C48","SSE floating-point arithmetic, comparisons and conversions",
 "Packed and scalar SSE floating-point instructions (ADD/SUB/MUL/DIV/SQRT/MIN/MAX/CMP/COMIS/ADDSUB/HADD/CVT*) compute per lane the IEEE result under the default rounding mode, write the flags and lanes the SDM names, keep the other lanes of the destination, and conversions that do not fit give the integer indefinite value.",
 "all bit patterns (including NaN, infinities and signed zeros), all operand kinds and addresses",
 "All bit patterns; order of MIN/MAX operands, misaligned scalar operands and out-of-range conversions.",
 ["src/x86-64/lifter-sse.cc: LiftSseBinOp, LiftSseComis, LiftSseCmp, LiftSseMinmax, LiftSseSqrt, LiftSseCvt","src/x86-64/lifter.cc: Lifter::Lift"])
p("C49","FXSAVE and FXRSTOR",
 "FXSAVE stores every XMM register at its architectural offset and touches no memory outside the area; FXRSTOR loads exactly these registers; saving, clobbering and restoring gives the old register contents.",
 "all register and memory contents, all aligned addresses",
 "All contents and addresses; address wraparound.",
 ["src/x86-64/lifter-sse.cc: LiftFxsave, LiftFxrstor"])
p("C50","Every PHI node of a lifted function is complete",
 "Lifting terminates, and in the returned function a block has at most one PHI node per register, and each PHI node has exactly one incoming value for each edge into its block, namely the value of that register at the end of that predecessor; no access hits the assertion on unset registers, and no list of PHI nodes is extended while it is being iterated over.",
 "all CFGs (loops, self-loops, irreducible), all orders of register accesses, all orders in which the blocks are visited",
 "CFGs and access sequences are unbounded; hash map order varies; the failure modes are undefined behaviour or invalid IR.",
 ["src/basicblock.cc: InitWithPHIs, FillPhis","src/regfile.cc: RegFile::impl::GetRegFold","src/function.cc: LiftHelper::Lift"])
p("C51","RV64 floating-point arithmetic, comparisons and conversions",
 "FADD/FSUB/FMUL/FDIV/FSQRT, the fused multiply-adds, FMIN/FMAX, FEQ/FLT/FLE and all FCVT instructions leave in the destination register the correctly rounded IEEE 754 result (canonical NaN, NaN-boxed single precision, clipped integers) under the rounding mode named by the instruction, and change nothing else.",
 "all operand bit patterns (including NaN, infinities, subnormals, signed zeros), all rounding modes and registers",
 "2^64 to 2^192 operand patterns per instruction.",
 ["src/rv64/lifter.cc: LiftFpArith, LiftFcvtIToF, LiftFcvtFToI, LiftFcmp, LiftFminmax, LiftFmadd, Lifter::Lift"])
p("C52","AArch64 floating-point arithmetic, rounding and conversions",
 "The scalar and vector forms of FADD/FSUB/FMUL/FNMUL/FDIV/FSQRT/FABD, the fused multiply-adds (also by element), FMAX/FMIN/FMAXNM/FMINNM (also pairwise and across a vector), FRINT*, FCVT between formats, conversions to and from integers and fixed-point numbers, and FMOV of an immediate leave in every element of the destination the correctly rounded IEEE 754 result with the NaN and saturation rules of the architecture, clear the rest of the register, and change nothing else.",
 "all operand bit patterns (including NaN, infinities, subnormals, signed zeros), all formats, arrangements, rounding directions, numbers of fraction bits and registers",
 "2^64 to 2^384 operand patterns per instruction.",
 ["src/a64/main.cc: Lifter::Lift, LiftBinOpFP, LiftFMA, LiftIntrinsicFP, Round","src/a64/simd.cc: Lifter::LiftSIMD, LiftThreeSame, LiftMulAccElem, LiftPairwise, LiftIntrinsicFPVec"])
p("C53","CPUID and RDTSC",
 "CPUID passes EAX and ECX to the function registered with ll_config_set_cpuinfo_func and leaves the four words it returns in EAX, EBX, ECX and EDX with cleared upper halves (zero without such a function); RDTSC leaves the cycle counter in EDX:EAX; nothing else changes.",
 "all register contents, all functions and their results, all counter values",
 "2^64 leaf/subleaf pairs and arbitrary functions.",
 ["src/x86-64/lifter-gp.cc: LiftCpuid, LiftRdtsc","src/rellume.cc: ll_config_set_cpuinfo_func"])
p("C54","Floating-point control and status registers",
 "Reading a floating-point control or status register (x86 FNSTCW/FNSTSW/STMXCSR, RV64 fflags/frm/fcsr, AArch64 FPCR/FPSR) gives the value last written to it by FLDCW/LDMXCSR, CSR writes or MSR, the initial value in a fresh process; other RV64 control and status registers are left to the caller without a change of the state.",
 "all values, all sequences of writes and reads, all operands",
 "All written values and access sequences.",
 ["src/x86-64/lifter-sse.cc: LiftFstcw, LiftFstsw, LiftStmxcsr","src/x86-64/lifter.cc: Lifter::Lift","src/rv64/lifter.cc: Lifter::Lift","src/a64/main.cc: Lifter::Lift"])
p("C55","Lifting repeatedly and decoding further",
 "ll_func_lift may be called any number of times on a function object, also between calls that decode more code: it changes neither the decoded instructions nor the reported code ranges, it succeeds or fails as the first time, and each function it returns behaves the same as that of an object that was only decoded.",
 "all sequences of decode and lift calls, all code, all CPU states",
 "Unbounded call histories; only the internal predecessor count of the entry differs between the calls.",
 ["src/function.cc: LiftHelper::Lift, Function::Lift","src/lldecoder.cc: Function::Decode","src/rellume.cc: ll_func_lift, ll_func_ranges"])
p("C56","Addresses do not depend on how they are computed",
 "The address a memory operand refers to is the same whether or not the lifter knows the value of the base register as a constant, whether or not a global base is set with ll_config_set_global_base (to a value that is at the given address), and with ll_config_set_use_native_segment_base, when the executing processor has the guest's FS and GS bases.",
 "all operands, register contents, knowledge of the lifter about registers, global bases and segment bases",
 "The form of the generated code depends on the surrounding code, the offset and the scale; 2^64 values each.",
 ["src/x86-64/lifter-operand.cc: Lifter::OpAddr","src/lifter-base.cc: LifterBase::AddrConst","src/rv64/lifter.cc: Addr","src/rellume.cc: ll_config_set_global_base, ll_config_set_use_native_segment_base"])
p("C57","Overridden instructions do what the given function does",
 "With ll_config_set_instr_impl, the lifted code runs the given function on the CPU struct, which then holds the guest state, in place of every instruction of the given type, and continues with the state and at the program counter the function leaves; all other instructions are unaffected.",
 "all functions, overridden types, code, decode histories and CPU states",
 "Arbitrary functions at arbitrary places of arbitrary control flow, with cached registers around them.",
 ["src/rellume.cc: ll_config_set_instr_impl","src/x86-64/lifter.cc: Lifter::Lift","src/rv64/lifter.cc: Lifter::Lift","src/a64/main.cc: Lifter::Lift","src/lifter-base.cc: LifterBase::CallExternalFunction"])
p("C58","The instruction marker is called once per executed instruction",
 "With ll_config_set_instr_marker, the lifted code calls the marker function exactly once for each guest instruction it executes, in execution order, with the instruction's address, and otherwise behaves as without it.",
 "all code, decode histories, CPU states and numbers of executed instructions",
 "Unbounded executions; all paths.",
 ["src/rellume.cc: ll_config_set_instr_marker","src/x86-64/lifter.cc: Lifter::Lift","src/rv64/lifter.cc: Lifter::Lift","src/a64/main.cc: Lifter::Lift"])
p("C59","Running a program by chaining lifted functions",
 "A program is executed by repeatedly calling the lifted function for the program counter in the CPU struct, either in a loop or with the dispatcher set as tail function (ll_config_set_tail_func): at every point the CPU struct, or the running function, has the state the guest machine has after some number of instructions; there is no undefined behaviour; every call makes the guest machine advance.",
 "all programs, tables of lifted functions, decode histories, CPU states, load addresses and numbers of steps",
 "Unbounded executions through arbitrary sequences of functions.",
 ["src/function.cc: LiftHelper::Lift","src/callconv.cc: CallConv::Call, CallConv::Return","src/lifter-base.h: LifterBase::ForceReturn","src/rellume.cc: ll_config_set_tail_func"])
p("C60","Only the guest state matters",
 "Two executions of lifted code from CPU structs with the same guest state take the same path block by block, leave the function at the same point and end with the same guest state, whatever else the CPU structs hold (undefined flags, unused bits of registers) and whatever values uninitialised temporaries have.",
 "all code, decode histories, pairs of CPU structs with the same guest state, numbers of steps",
 "Relates pairs of executions; unbounded.",
 ["src/function.cc: LiftHelper::Lift","src/callconv.cc: CallConv::Unpack, CallConv::Pack","src/regfile.cc: RegFile::impl"])
p("C61","Calls of guest functions through the call function return as in the guest",
 "With a dispatcher of lifted functions set as call function (ll_config_set_call_func) and as tail function, a guest function is run until it returns: if the guest machine returns from the function, with nested or recursive calls of any depth, the dispatcher returns, with the state the guest machine has then, and the guest machine that executes every instruction itself reaches this state.",
 "all programs, call depths, decode histories and CPU states",
 "Unbounded recursion: the call function runs code that was lifted with this call function.",
 ["src/x86-64/lifter-gp.cc: LiftCall, LiftRet","src/rv64/lifter.cc: Lifter::Lift","src/a64/main.cc: Lifter::Lift","src/lifter-base.h: LifterBase::ForceReturn","src/rellume.cc: ll_config_set_call_func"])
p("C62","Guest threads that share memory",
 "Several threads execute lifted code on the same memory, each with its own CPU struct. For every interleaving of the memory accesses of the lifted code there is an order of the guest's instructions, executed by as many guest processors, that gives the same memory and the same registers; in particular atomic read-modify-write instructions lose no update, and store-conditional instructions fail when another processor has written to the reserved memory.",
 "all numbers of threads, all code, all schedules, all memory contents and CPU states",
 "The schedule is chosen by the operating system and the hardware; the number of interleavings is exponential in the length of the execution.",
 ["src/x86-64/lifter-gp.cc: LiftArith, LiftCmpxchg, LiftXchg, LiftAndOrXor, LiftNot, LiftIncDec, LiftBittest","src/rv64/lifter.cc: LiftAmo, LiftLoad, LiftStore","src/a64/main.cc: LiftLoadStore"])
p("C63","Guest memory ordering survives lifting",
 "When guest code orders its memory accesses so that a value written by one thread must be seen by another (release/acquire accesses, barriers, or the order the architecture guarantees for ordinary accesses), the lifted code's loads and stores carry LLVM orderings under which LLVM's memory model also guarantees that value: no load returns undef because of a data race, and executions without data races behave like interleavings.",
 "all code, all executions of all numbers of threads, all interleavings and all values",
 "LLVM's memory model allows results that no interleaving gives; which ones appear depends on optimisations and hardware.",
 ["src/a64/main.cc: Lifter::Lift, Lifter::Ordering, LiftLoadStore","src/rv64/lifter.cc: LiftAmo, LiftLoad, LiftStore, Lifter::Lift","src/x86-64/lifter-gp.cc: LiftXchg, LiftArith","src/x86-64/lifter-sse.cc: LiftFence"])
p("C64","Registers that the code does not write keep their bytes",
 "A register that no decoded instruction writes has, whenever the CPU struct is passed to an external function or the lifted function returns, the value it had when the lifted function was called (unless an external function changed it); this also holds when instructions are lifted wrongly, for every way of decoding, and wherever the optimiser of stores puts the stores.",
 "all code, decode histories, registers, CPU structs, external functions and executions",
 "Unbounded executions; all ways of building the function object.",
 ["src/callconv.cc: CallConv::Pack, CallConv::OptimizePacks","src/regfile.cc: RegFile::DirtyRegs","src/function.cc: LiftHelper::Lift"])
p("C65","Functions decoded with ll_func_decode_cfg pass registers along the executed path",
 "In a function decoded by any number of ll_func_decode_cfg calls, a block that takes its registers from one predecessor has no other predecessor, and the optimised code (SSA values, PHI nodes, omitted and moved stores) returns the same CPU struct and passes the same CPU structs to external functions as code that keeps every register up to date along the executed path and stores all of them at every call and return; stores that are left out altogether concern undefined values only. (On x86-64 a system call function is set if there are SYSCALL instructions; on RV64 with a call function, JAL has x0 or a link register as destination.)",
 "all code of the three architectures, sequences of ll_func_decode_cfg and ll_func_lift calls, external functions, CPU structs, load addresses and executions",
 "Unbounded executions through arbitrary control-flow graphs.",
 ["src/lldecoder.cc: Function::Decode","src/function.cc: LiftHelper::Lift","src/basicblock.cc: ArchBasicBlock::FillPhis","src/callconv.cc: CallConv::OptimizePacks"])
p("C66","The list of deviations from the architecture is complete",
 "For every integer instruction of RV64 and every general-purpose and SSE instruction of x86-64, every general-purpose instruction of AArch64, and every guest state for which the architecture defines a result, the lifted code leaves the architectural registers, flags (except those listed for C19 and C22), memory and program counter exactly if the state is not among the listed ones: outside the list it is right, and in every listed state it is wrong or undefined.",
 "all instructions as the decoder delivers them (x86-64: string instructions with 64-bit addresses and no segment override; AArch64: no floating-point arithmetic; calls without a call function), operands and guest states",
 "All operand values; an equivalence, so the list can be neither too long nor too short.",
 ["src/rv64/lifter.cc: Lifter::Lift","src/x86-64/lifter-gp.cc","src/x86-64/lifter-sse.cc","src/a64/main.cc: Lifter::Lift"])
p("C67","The returned function is well-formed and has no dead blocks",
 "A function decoded by any number of ll_func_decode_cfg calls is lifted to a function in which every block can be reached, every block ends with a branch to a block of the function or with a return, nothing branches to the entry block, PHI nodes have one value for every incoming branch, and every value is computed before it is used on every way through the function; so the option to verify the function (ll_config_enable_verify_ir) never makes lifting fail for these reasons. Removing the blocks that cannot be reached changes neither results nor memory effects. (Exceptions as for C65.)",
 "all code of the three architectures, sequences of ll_func_decode_cfg and ll_func_lift calls, configurations, folded branch conditions, register accesses, CPU structs and executions",
 "Arbitrary control-flow graphs and ways through them.",
 ["src/function.cc: LiftHelper::Lift (EliminateUnreachableBlocks, verifyFunction)","src/basicblock.cc: ArchBasicBlock::InitWithPHIs, ArchBasicBlock::BranchTo, ArchBasicBlock::FillPhis","src/regfile.cc: RegFile::impl::GetRegFold"])
p("C68","Every x86-64 mnemonic gets the code of the operation that it names",
 "For every mnemonic that the x86-64 lifter supports and all of its operands, the code emitted is that of the operation which the processor manual gives this name: the right arithmetic or comparison, signedness, element size, scalar or packed form, saturation, rounding, alignment requirement and condition; so that what the other properties say about an operation holds for the machine instructions with that name. Every other mnemonic is not lifted.",
 "all mnemonics of the lifter's switch, operands, machine states, instruction lengths, configurations and addresses",
 "Each of 349 mnemonics would need tests on values that tell it from its neighbours (signed from unsigned, packed from scalar).",
 ["src/x86-64/lifter.cc: Lifter::Lift (switch)","src/x86-64/lifter-gp.cc: Lifter::LiftArith, Lifter::LiftAndOrXor, Lifter::LiftShift, Lifter::LiftBittest, Lifter::LiftMul","src/x86-64/lifter-sse.cc: Lifter::LiftSseUnpck, Lifter::LiftSseBinOp, Lifter::LiftSseCvt","src/facet.inc"])
p("C69","External functions may be marked always-inline",
 "Marking a call, system call or override function that is defined in the module as always-inline does not change what lifting does with the code around the call: the lifted function is built without undefined behaviour, and the CPU struct stores before the (then inlined) call and before every return are placed where they are without the mark.",
 "all code, all external functions with and without the attribute and with and without a body, all numbers and orders of calls",
 "Whether the use of a deleted instruction shows depends on the allocator; the sequences of calls are unbounded.",
 ["src/lifter-base.cc: LifterBase::CallExternalFunction","src/callconv.cc: Pack, CallConv::Call, CallConv::Return, CallConv::OptimizePacks","src/function-info.h: CallConvPack"])
p("C70","Operands are accessed with a type of their size",
 "The LLVM type with which a register or memory operand is accessed has exactly as many bits as the operand: a request for an integer, or for a vector of given elements, that fits an operand of 2^k bits gets the integer, or the vector of as many elements as fit, with 2^k bits; such a type exists for all sizes from one element to 128 bits; no type is larger than a vector register; and the view of a value that is stored is determined by its type, except for pointers and the high-byte registers.",
 "all views of registers, operand sizes that are powers of two, and types",
 "All operand sizes and combinations of element type and count; a wrong type silently reads or writes neighbouring bytes.",
 ["src/facet.cc: Facet::In, Facet::Vnt, Facet::FromType, Facet::Size, Facet::Type, Facet::Resolve","src/facet.inc","src/facet.h: Facet::Value"])
with open('/verif/properties.jsonl','w') as f:
    for x in P: f.write(json.dumps(x,ensure_ascii=False)+"\n")
print(len(P))
