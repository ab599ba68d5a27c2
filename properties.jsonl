{"id": "C01", "title": "Every guest address is decoded at most once", "statement": "After any sequence of ll_func_decode_instr / ll_func_decode_block / ll_func_decode_cfg calls on one LLFunc, no guest address appears twice among the decoded instructions, and looking an address up yields exactly the instruction decoded at it.", "quantifier": "all memory contents, all decoders, all configurations, all sequences of decode calls of any length", "why_tests_cant": "The set of CFGs and call histories is unbounded; a duplicate only shows up for particular overlaps of streams.", "anchors": ["src/lldecoder.cc: Function::Decode, classifyInstr", "src/function.h: Function::instr_map, Function::instrs", "src/rellume.cc: ll_func_decode_*"]}
{"id": "C02", "title": "ll_func_decode_cfg closes over the static control flow", "statement": "After ll_func_decode_cfg(addr), addr itself, the fall-through of every decoded instruction that can fall through, and every non-zero statically known branch target of a decoded instruction is either decoded or is an address at which decoding fails; everything decoded this way is reachable from addr; branch targets and the instruction after a conditional branch or call start a new basic block.", "quantifier": "all memory contents, all decoders, all entry addresses", "why_tests_cant": "Reachability closure quantifies over every control-flow graph, including overlapping instruction streams and loops.", "anchors": ["src/lldecoder.cc: Function::Decode, classifyInstr"]}
{"id": "C03", "title": "Decoding always terminates", "statement": "Every decode call finishes after finitely many steps, and makes at most one decode attempt per (stream, address): the number of successfully decoded instructions is bounded by the number of addresses and the work list only grows when an instruction is decoded.", "quantifier": "all memory contents (including adversarial self-overlapping code), all decoders, all entry addresses", "why_tests_cant": "Termination is a liveness property over all inputs; no finite set of runs shows it.", "anchors": ["src/lldecoder.cc: Function::Decode, classifyInstr"]}
{"id": "C04", "title": "Reported code ranges are exactly the decoded bytes", "statement": "ll_func_ranges after any history of decode calls returns a zero-terminated list of non-empty ranges whose union is exactly the union of the byte ranges of the decoded instructions.", "quantifier": "all memory contents and decode histories", "why_tests_cant": "Needs to hold for every history; tests look at a handful of functions.", "anchors": ["src/lldecoder.cc: Function::Decode, classifyInstr", "src/rellume.cc: ll_func_ranges", "src/function.h: Function::CodeRanges"]}
{"id": "C05", "title": "Stop modes of the decoder", "statement": "ll_func_decode_instr adds at most one instruction; ll_func_decode_block adds one straight-line run that contains at most one control-flow instruction, which is its last one.", "quantifier": "all memory contents, all prior histories", "why_tests_cant": "Quantifies over histories and memory.", "anchors": ["src/lldecoder.cc: Function::Decode, classifyInstr"]}
{"id": "C06", "title": "Basic blocks are contiguous straight-line runs", "statement": "In the decoded instruction list, an instruction that does not start a block directly follows (in the list and in guest memory) an instruction that can only fall through to it; the first instruction always starts a block. Hence each lifted block executes a contiguous run of guest code.", "quantifier": "all decode histories", "why_tests_cant": "The lifter's block formation relies on it for every interleaving of streams.", "anchors": ["src/lldecoder.cc: Function::Decode, classifyInstr", "src/function.cc: LiftHelper::Lift, LiftHelper::ResolveAddr"]}
{"id": "C07", "title": "Branches stay inside iff the target is a lifted block", "statement": "When a lifted block ends with known successor address a, the lifted function continues with the block for a iff a is non-zero and was decoded as the start of a block; otherwise the function exits.", "quantifier": "all decoded programs, all successor addresses", "why_tests_cant": "All CFG shapes and all target addresses.", "anchors": ["src/function.cc: LiftHelper::Lift, LiftHelper::ResolveAddr"]}
{"id": "C08", "title": "Predecessor counts never undercount lifted edges", "statement": "The number of predecessors recorded for a block while decoding is at least the number of CFG edges the lifter creates to it, so a block that inherits its registers from a unique predecessor really has only that predecessor.", "quantifier": "all decode histories and configurations", "why_tests_cant": "A violation yields silently wrong SSA only in particular layouts; unit tests have a single block mostly.", "anchors": ["src/lldecoder.cc: Function::Decode, classifyInstr", "src/function.cc: LiftHelper::Lift, LiftHelper::ResolveAddr", "src/basicblock.cc: ArchBasicBlock::InitWithPHIs, FillPhis", "src/x86-64/lifter-gp.cc: LiftSyscall"]}
{"id": "C09", "title": "End-to-end simulation by the lifted control flow", "statement": "Running the lifted function from the entry performs exactly the guest instructions, in guest order, that a guest machine starting at the entry address performs, until the first instruction address that is not covered; then it leaves with the guest state and the program counter the guest machine has at that moment.", "quantifier": "all programs, all initial CPU states, all execution lengths", "why_tests_cant": "Unbounded executions over unbounded programs.", "anchors": ["src/function.cc: LiftHelper::Lift, LiftHelper::ResolveAddr", "src/regfile.cc: GetPCBranch, GetPCValue", "src/basicblock.cc: BranchTo"]}
{"id": "C10", "title": "The program counter stored at exit is the next guest address", "statement": "Whatever way the function is left (fall-through out of the decoded region, branch, indirect branch, failed lifting of an instruction, call), the rip/pc stored in the CPU struct is the address of the next guest instruction, for absolute and position independent code.", "quantifier": "all instructions, PC modes, base values", "why_tests_cant": "64-bit wraparound and all combinations of modes.", "anchors": ["src/function.cc: LiftHelper::Lift, LiftHelper::ResolveAddr", "src/regfile.cc: RegFile::impl::GetPCValue, AddrPCBase, GetPCBranch"]}
{"id": "C11", "title": "Register file behaves like flat registers", "statement": "Within a lifted block, reading a register as any facet after any sequence of full writes, partial writes and reads (of any sizes) returns the low bits of the value a flat register would hold.", "quantifier": "all sequences of register accesses, all sizes, any number of cached views", "why_tests_cant": "Unbounded histories of overlapping partial writes and cached reads.", "anchors": ["src/regfile.cc: RegFile::impl, Register", "src/facet.cc: Facet"]}
{"id": "C12", "title": "Partial writes: 32-bit writes zero, 8/16-bit writes preserve", "statement": "Set replaces the whole register by the zero-extended value; Merge replaces exactly the low bits and leaves every other bit; the high-byte registers AH..DH touch exactly bits 8..15.", "quantifier": "all values, all sizes", "why_tests_cant": "All 2^64 register contents and all value combinations.", "anchors": ["src/regfile.cc: RegFile::impl, Register", "src/x86-64/lifter-private.h: StoreGpFacet", "src/x86-64/lifter-operand.cc"]}
{"id": "C13", "title": "Lazily computed flags equal eagerly computed flags", "statement": "A flag defined by a deferred computation reads as the value that computation had at definition time regardless of what is written to other registers in between and of how often or when it is read.", "quantifier": "all deferred computations, all operand values, all subsequent histories", "why_tests_cant": "All interleavings of accesses.", "anchors": ["src/regfile.cc: RegFile::impl, Register"]}
{"id": "C14", "title": "SSA construction: a register read sees the last write on the executed path", "statement": "For every execution path through the lifted CFG, a register read in a block returns the value last written to the register on that path (or the value loaded at function entry), however many PHI nodes and inherited register files lie in between.", "quantifier": "all CFGs (incl. irreducible, loops, self-loops), all paths of any length", "why_tests_cant": "Paths are unbounded, CFGs are unbounded.", "anchors": ["src/regfile.cc: RegFile::impl, Register", "src/basicblock.cc: InitWithPHIs, FillPhis", "src/function.cc: LiftHelper::Lift, LiftHelper::ResolveAddr"]}
{"id": "C15", "title": "Optimised register write-back stores the right CPU state", "statement": "At every point where the CPU struct is observable (return, tail call, external call), every register field of the struct equals the guest register, although clean registers are not stored and stores may be hoisted to predecessors.", "quantifier": "all CFGs, all paths, all dirty-register patterns", "why_tests_cant": "The data-flow argument covers all graphs and all paths.", "anchors": ["src/callconv.cc: CallConv::OptimizePacks, Pack, Unpack"]}
{"id": "C16", "title": "CPU struct layout is sound", "statement": "For every architecture, struct fields do not overlap, are naturally aligned, lie inside the struct, the struct covers the dereferenceable size promised to LLVM, rip/pc is at offset 0, and distinct fields hold distinct registers. The public header names every register except the flags (and x0 of RISC-V), with the offsets and sizes that the lifted code uses; a struct aligned to 16 bytes is aligned as LLVM is told. Fields that the lifted code uses by name (segment bases, thread pointer) are those with this name.", "quantifier": "all fields of all three architectures", "why_tests_cant": "It is a for-all over the generated table (finite), checked by the kernel over the whole table.", "anchors": ["data/rellume/cpustruct-*.json", "data/rellume/cpustruct_parser.py", "src/callconv.cc: CPUStructEntries, InitSptrs", "src/function.cc: addDereferenceableParamAttr"]}
{"id": "C17", "title": "Entry/exit round trip through the CPU struct", "statement": "A lifted function whose code does not touch a register leaves the register's bytes in the struct unchanged; loading all registers and storing all registers is the identity on the struct; storing then loading gives back the register values.", "quantifier": "all struct contents, all register values", "why_tests_cant": "All byte contents.", "anchors": ["src/callconv.cc: Pack, Unpack, OptimizePacks"]}
{"id": "C18", "title": "x86 ADD/SUB/CMP/NEG/INC/DEC flags", "statement": "The six status flags after ADD, SUB, CMP, NEG, INC, DEC equal the architectural definition (unsigned carry/borrow, signed overflow, zero, sign, low-byte parity, nibble carry; INC/DEC preserve CF), at 8, 16, 32 and 64 bits and with and without overflow intrinsics.", "quantifier": "all operand values, all operand sizes", "why_tests_cant": "2^128 operand pairs.", "anchors": ["src/x86-64/lifter-flags.cc: FlagCalcAdd, FlagCalcSub", "src/x86-64/lifter-gp.cc: LiftArith"]}
{"id": "C19", "title": "x86 ADC/SBB results and flags", "statement": "ADC/SBB results equal a+b+CF / a-b-CF and all flags equal the architectural definition.", "quantifier": "all operand values, all sizes, both carry inputs", "why_tests_cant": "Fails only on rare operands; needs all-operand reasoning.", "anchors": ["src/x86-64/lifter-gp.cc: LiftArith", "src/x86-64/lifter-flags.cc"]}
{"id": "C20", "title": "x86 condition codes after a comparison", "statement": "After CMP a,b each of the 16 conditions used by Jcc/SETcc/CMOVcc holds iff the corresponding relation on unsigned/signed integers holds; odd conditions are the negation of even ones.", "quantifier": "all operands, all sizes, all 16 conditions", "why_tests_cant": "All operand pairs.", "anchors": ["src/x86-64/lifter-flags.cc: FlagCond"]}
{"id": "C21", "title": "x86 flags image round trip", "statement": "PUSHF/LAHF build the architectural RFLAGS image; POPF/SAHF followed by PUSHF/LAHF reproduces all modelled bits and the fixed bits, and PUSHF followed by POPF leaves the flags unchanged.", "quantifier": "all flag states, all 64-bit images", "why_tests_cant": "All images.", "anchors": ["src/x86-64/lifter-flags.cc: FlagAsReg, FlagFromReg"]}
{"id": "C22", "title": "x86 shifts and rotates", "statement": "SHL/SHR/SAR/ROL/ROR/SHLD/SHRD compute the architectural result for every (masked) count; a zero count leaves the flags unchanged.", "quantifier": "all values, all counts, all sizes", "why_tests_cant": "Count-zero and count>=width corner cases for all values.", "anchors": ["src/x86-64/lifter-gp.cc: LiftShift, LiftRotate, LiftShiftdouble"]}
{"id": "C23", "title": "x86 multiply and divide", "statement": "MUL/IMUL produce the exact double-width product and overflow flags; DIV/IDIV produce quotient and remainder satisfying the division identity whenever the architecture does not raise #DE, also with the narrowing optimisation for sign/zero-extended dividends.", "quantifier": "all operands, all sizes", "why_tests_cant": "All operands, quotient range conditions.", "anchors": ["src/x86-64/lifter-gp.cc: LiftMul, LiftDiv"]}
{"id": "C24", "title": "x86 REP string instructions", "statement": "REP STOS/MOVS/LODS and REPZ/REPNZ SCAS/CMPS perform exactly the architectural number of iterations, leave RCX/RSI/RDI and flags with the architectural values, for both directions; RCX=0 does nothing, REP STOSB via memset is the same as the loop.", "quantifier": "all counts up to 2^64-1, all memory contents, both directions", "why_tests_cant": "Unbounded loops.", "anchors": ["src/x86-64/lifter-gp.cc: RepBegin, RepEnd, LiftStos, LiftMovs, LiftScas, LiftCmps, LiftLods"]}
{"id": "C25", "title": "x86 stack operations", "statement": "PUSH/POP/CALL/RET/LEAVE move RSP by the operand size and access exactly the architectural bytes; PUSH then POP restores the value; PUSH RSP/POP RSP use the architectural order.", "quantifier": "all register values, all memory contents", "why_tests_cant": "All values and memory, aliasing of operand and stack pointer.", "anchors": ["src/x86-64/lifter.cc", "src/x86-64/lifter-operand.cc: StackPush, StackPop"]}
{"id": "C26", "title": "x86 exchange instructions", "statement": "XCHG, XADD and CMPXCHG leave the operands as the architecture specifies for every choice of operand registers, including identical ones and the accumulator.", "quantifier": "all register choices, all values, all sizes", "why_tests_cant": "Aliasing combinations.", "anchors": ["src/x86-64/lifter-gp.cc: LiftXchg, LiftXadd, LiftCmpxchg"]}
{"id": "C27", "title": "RV64 integer ALU", "statement": "Every RV64I/M register-register and register-immediate instruction writes the value the ISA manual defines (incl. W-forms sign-extending, shift amounts masked, MULH/MULHSU/MULHU).", "quantifier": "all operand values and immediates", "why_tests_cant": "2^128 operands.", "anchors": ["src/rv64/lifter.cc"]}
{"id": "C28", "title": "RV64 division is total", "statement": "DIV/DIVU/REM/REMU and W forms return the ISA-defined values for division by zero and signed overflow and never execute an undefined LLVM division.", "quantifier": "all operands", "why_tests_cant": "Undefined behaviour on any operand must be excluded.", "anchors": ["src/rv64/lifter.cc: LiftDivRem"]}
{"id": "C29", "title": "RV64 bit-manipulation", "statement": "Zbb/Zbs/Zba/Zbc instructions compute the ISA-defined functions (clz, ctz, cpop, rev8, orc.b, rotates, min/max, shNadd, bset/bclr/binv/bext, clmul/clmulh/clmulr).", "quantifier": "all operands", "why_tests_cant": "2^128 operands; the carry-less product is an iterated computation.", "anchors": ["src/rv64/lifter.cc"]}
{"id": "C30", "title": "RV64 x0 is constant zero", "statement": "Writes to x0 have no effect and reads of x0 give zero for every instruction and history.", "quantifier": "all instructions and histories", "why_tests_cant": "Every instruction.", "anchors": ["src/rv64/lifter.cc: LoadGp, StoreGp"]}
{"id": "C31", "title": "RV64/A64 jumps and links", "statement": "JAL/JALR/BL/BLR write the address of the next instruction to the link register and continue at the architectural target computed from the register values before the instruction, including when link and target register coincide; JALR clears bit 0.", "quantifier": "all register choices and values", "why_tests_cant": "Aliasing of link and target register.", "anchors": ["src/rv64/lifter.cc: LiftJalr", "src/a64/main.cc: Lifter::Lift (A64_BLR)"]}
{"id": "C32", "title": "A64 add/subtract with flags", "statement": "ADDS/SUBS/CMP/CMN/ADCS/SBCS results and NZCV equal ARM's AddWithCarry.", "quantifier": "all operands, both widths, both carries", "why_tests_cant": "All operands; the carry-in wraparound is rare.", "anchors": ["src/a64/main.cc: FlagCalcAdd, FlagCalcSub, LiftBinOp, Lifter::Lift (A64_ADC, A64_SBC)"]}
{"id": "C33", "title": "A64 conditions and conditional instructions", "statement": "Every condition code evaluates per ARM's ConditionHolds; after CMP each condition equals its signed/unsigned relation; CCMP/CCMN/CSEL/CSINC/CSINV/CSNEG and aliases act accordingly.", "quantifier": "all flag states, operands, conditions", "why_tests_cant": "All operands.", "anchors": ["src/a64/main.cc: IsTrue, LiftCCmp"]}
{"id": "C34", "title": "A64 bitfield, extract, extend", "statement": "UBFX/SBFX/UBFIZ/SBFIZ/BFI/BFXIL/BFC/EXTR/extended-register operands equal the ARM bit-level definitions.", "quantifier": "all values, all legal lsb/width", "why_tests_cant": "All values and positions.", "anchors": ["src/a64/main.cc: Extract, MoveField, Extend, Shift"]}
{"id": "C35", "title": "A64 addressing and load/store pair", "statement": "Every addressing mode accesses the architectural address and applies pre/post-index write-back; LDP/STP access two consecutive elements; store then load round-trips.", "quantifier": "all register values, offsets, memory contents", "why_tests_cant": "All addresses and aliasing.", "anchors": ["src/a64/main.cc: Addr, LiftLoadStore, Load, Store"]}
{"id": "C36", "title": "Position independent lifting is equivalent to absolute lifting", "statement": "With position independent code (or a pc base value) the lifted function run at load offset d behaves like the absolutely lifted function with every code address shifted by d, and identically if d=0.", "quantifier": "all programs, offsets and states", "why_tests_cant": "All offsets and all PC-relative computations.", "anchors": ["src/regfile.cc: AddrPCBase, GetPCValue, GetPCBranch", "src/lifter-base.h: AddrIPRel, SetIP"]}
{"id": "C37", "title": "SSE/A64 lane-wise integer arithmetic", "statement": "Packed integer instructions (add/sub, saturating, averages, min/max, compares, multiplies, packs, absolute differences, halving adds) equal their per-lane mathematical definition.", "quantifier": "all 128-bit operands", "why_tests_cant": "2^256 operands.", "anchors": ["src/x86-64/lifter-sse.cc", "src/a64/simd.cc"]}
{"id": "C38", "title": "SSE/A64 permutations", "statement": "Shuffle-like instructions (PSHUFD/PSHUFLW/PSHUFHW/SHUFPS/UNPCK*/PALIGNR/PSLLDQ/PSRLDQ, ZIP/UZP/EXT/REV/TBL/INS/DUP/XTN) place exactly the architectural source lane in each destination lane.", "quantifier": "all operands, all immediates", "why_tests_cant": "All immediates times all operands.", "anchors": ["src/x86-64/lifter-sse.cc", "src/a64/simd.cc"]}
{"id": "C39", "title": "Lifting fails cleanly", "statement": "ll_func_lift returns NULL exactly when nothing was decoded or the first instruction cannot be lifted (or the architecture is unsupported); a failure in the middle only truncates the containing block, which exits with the PC of the unsupported instruction.", "quantifier": "all decoded programs, any subset of liftable instructions", "why_tests_cant": "Any subset of unsupported instructions at any position.", "anchors": ["src/function.cc: LiftHelper::Lift, LiftHelper::ResolveAddr"]}
{"id": "C40", "title": "Configuration API", "statement": "Setters only change their own option, last write wins, an unknown architecture name is rejected without side effects, and the calling convention always matches the architecture. A new configuration is one in which nothing has been asked for.", "quantifier": "all sequences of configuration calls", "why_tests_cant": "All histories.", "anchors": ["src/rellume.cc: ll_config_*", "src/config.h: LLConfig", "src/callconv.cc: ToArch, FromFunction"]}
{"id": "C41", "title": "x86 effective addresses", "statement": "The address used by a memory operand (and by LEA) is segment base + base + index*scale + displacement, truncated to the address size, for every addressing form and independent of the pointer/integer representation chosen.", "quantifier": "all register values, displacements and scales", "why_tests_cant": "All values; wraparound.", "anchors": ["src/x86-64/lifter-operand.cc: OpAddr", "src/x86-64/lifter-gp.cc: LiftLea"]}
{"id": "C42", "title": "A64 division, multiply and bit operations", "statement": "UDIV/SDIV are total with ARM semantics and never execute an undefined LLVM division; MADD/MSUB/SMADDL/UMADDL/SMULH/UMULH, CLZ/CLS/RBIT/REV/REV16/REV32 equal the ARM definitions.", "quantifier": "all operands", "why_tests_cant": "All operands.", "anchors": ["src/a64/main.cc"]}
{"id": "C43", "title": "RV64 loads, stores and atomics", "statement": "Loads and stores access exactly the addressed little-endian bytes and extend as the mnemonic says; LR/SC and AMO instructions return the old value sign-extended, store the specified combination and read their operands before writing the destination; aq/rl bits map to an LLVM ordering that is at least as strong.", "quantifier": "all addresses, register numbers (also overlapping), memory contents and operations", "why_tests_cant": "All addresses, alignments, register overlaps.", "anchors": ["src/rv64/lifter.cc: LiftLoad, LiftStore, LiftAmo, FRV_LRW, FRV_SCW"]}
{"id": "C44", "title": "RV64 floating-point moves and classification", "statement": "FP loads, stores and moves transfer bit patterns unchanged (narrow values NaN-boxed), sign injection and FCLASS compute the result defined by the ISA on every bit pattern.", "quantifier": "all bit patterns and registers", "why_tests_cant": "All 2^64 patterns.", "anchors": ["src/rv64/lifter.cc: LiftLoadFp, LiftStoreFp, LiftFsgn, LiftFclass, FRV_FMVXW"]}
{"id": "C45", "title": "x86 data movement, bit manipulation and jumps", "statement": "MOV/MOVSX/MOVZX/MOVBE/BSWAP, CBW..CQO, BSF/BSR/TZCNT/LZCNT/POPCNT, BT/BTS/BTR/BTC (including bit strings in memory), XLAT, JMP/JCXZ/LOOP and the flag instructions leave registers, memory, flags and the program counter as the SDM specifies.", "quantifier": "all operand values, operand kinds and sizes, all memory contents", "why_tests_cant": "All values and operand forms.", "anchors": ["src/x86-64/lifter-gp.cc", "src/x86-64/lifter.cc"]}
{"id": "C46", "title": "A64 scalar floating-point register moves", "statement": "FMOV between FP registers and from and to general-purpose registers, FABS and FNEG copy, clear or flip exactly the architectural bits and zero the rest of the destination vector register.", "quantifier": "all register contents, all register choices and sizes", "why_tests_cant": "All bit patterns (including NaN payloads).", "anchors": ["src/a64/main.cc: Lifter::Lift (A64_FMOV_*, A64_FABS, A64_FNEG)"]}
{"id": "C47", "title": "A64 system instructions, moves and barriers", "statement": "ADR/ADRP/MOV/MOVK/MRS/MSR/CFINV/DC ZVA leave registers, flags and memory as the architecture specifies; hints and barriers change no architectural state.", "quantifier": "all register and memory contents, all immediates", "why_tests_cant": "All values.", "anchors": ["src/a64/main.cc: Lifter::Lift"]}
{"id": "C48", "title": "SSE floating-point arithmetic, comparisons and conversions", "statement": "Packed and scalar SSE floating-point instructions (ADD/SUB/MUL/DIV/SQRT/MIN/MAX/CMP/COMIS/ADDSUB/HADD/CVT*) compute per lane the IEEE result under the default rounding mode, write the flags and lanes the SDM names, keep the other lanes of the destination, and conversions that do not fit give the integer indefinite value.", "quantifier": "all bit patterns (including NaN, infinities and signed zeros), all operand kinds and addresses", "why_tests_cant": "All bit patterns; order of MIN/MAX operands, misaligned scalar operands and out-of-range conversions.", "anchors": ["src/x86-64/lifter-sse.cc: LiftSseBinOp, LiftSseComis, LiftSseCmp, LiftSseMinmax, LiftSseSqrt, LiftSseCvt", "src/x86-64/lifter.cc: Lifter::Lift"]}
{"id": "C49", "title": "FXSAVE and FXRSTOR", "statement": "FXSAVE stores every XMM register at its architectural offset and touches no memory outside the area; FXRSTOR loads exactly these registers; saving, clobbering and restoring gives the old register contents.", "quantifier": "all register and memory contents, all aligned addresses", "why_tests_cant": "All contents and addresses; address wraparound.", "anchors": ["src/x86-64/lifter-sse.cc: LiftFxsave, LiftFxrstor"]}
{"id": "C50", "title": "Every PHI node of a lifted function is complete", "statement": "Lifting terminates, and in the returned function a block has at most one PHI node per register, and each PHI node has exactly one incoming value for each edge into its block, namely the value of that register at the end of that predecessor; no access hits the assertion on unset registers, and no list of PHI nodes is extended while it is being iterated over.", "quantifier": "all CFGs (loops, self-loops, irreducible), all orders of register accesses, all orders in which the blocks are visited", "why_tests_cant": "CFGs and access sequences are unbounded; hash map order varies; the failure modes are undefined behaviour or invalid IR.", "anchors": ["src/basicblock.cc: InitWithPHIs, FillPhis", "src/regfile.cc: RegFile::impl::GetRegFold", "src/function.cc: LiftHelper::Lift"]}
{"id": "C51", "title": "RV64 floating-point arithmetic, comparisons and conversions", "statement": "FADD/FSUB/FMUL/FDIV/FSQRT, the fused multiply-adds, FMIN/FMAX, FEQ/FLT/FLE and all FCVT instructions leave in the destination register the correctly rounded IEEE 754 result (canonical NaN, NaN-boxed single precision, clipped integers) under the rounding mode named by the instruction, and change nothing else.", "quantifier": "all operand bit patterns (including NaN, infinities, subnormals, signed zeros), all rounding modes and registers", "why_tests_cant": "2^64 to 2^192 operand patterns per instruction.", "anchors": ["src/rv64/lifter.cc: LiftFpArith, LiftFcvtIToF, LiftFcvtFToI, LiftFcmp, LiftFminmax, LiftFmadd, Lifter::Lift"]}
{"id": "C52", "title": "AArch64 floating-point arithmetic, rounding and conversions", "statement": "The scalar and vector forms of FADD/FSUB/FMUL/FNMUL/FDIV/FSQRT/FABD, the fused multiply-adds (also by element), FMAX/FMIN/FMAXNM/FMINNM (also pairwise and across a vector), FRINT*, FCVT between formats, conversions to and from integers and fixed-point numbers, and FMOV of an immediate leave in every element of the destination the correctly rounded IEEE 754 result with the NaN and saturation rules of the architecture, clear the rest of the register, and change nothing else.", "quantifier": "all operand bit patterns (including NaN, infinities, subnormals, signed zeros), all formats, arrangements, rounding directions, numbers of fraction bits and registers", "why_tests_cant": "2^64 to 2^384 operand patterns per instruction.", "anchors": ["src/a64/main.cc: Lifter::Lift, LiftBinOpFP, LiftFMA, LiftIntrinsicFP, Round", "src/a64/simd.cc: Lifter::LiftSIMD, LiftThreeSame, LiftMulAccElem, LiftPairwise, LiftIntrinsicFPVec"]}
{"id": "C53", "title": "CPUID and RDTSC", "statement": "CPUID passes EAX and ECX to the function registered with ll_config_set_cpuinfo_func and leaves the four words it returns in EAX, EBX, ECX and EDX with cleared upper halves (zero without such a function); RDTSC leaves the cycle counter in EDX:EAX; nothing else changes.", "quantifier": "all register contents, all functions and their results, all counter values", "why_tests_cant": "2^64 leaf/subleaf pairs and arbitrary functions.", "anchors": ["src/x86-64/lifter-gp.cc: LiftCpuid, LiftRdtsc", "src/rellume.cc: ll_config_set_cpuinfo_func"]}
{"id": "C54", "title": "Floating-point control and status registers", "statement": "Reading a floating-point control or status register (x86 FNSTCW/FNSTSW/STMXCSR, RV64 fflags/frm/fcsr, AArch64 FPCR/FPSR) gives the value last written to it by FLDCW/LDMXCSR, CSR writes or MSR, the initial value in a fresh process; other RV64 control and status registers are left to the caller without a change of the state.", "quantifier": "all values, all sequences of writes and reads, all operands", "why_tests_cant": "All written values and access sequences.", "anchors": ["src/x86-64/lifter-sse.cc: LiftFstcw, LiftFstsw, LiftStmxcsr", "src/x86-64/lifter.cc: Lifter::Lift", "src/rv64/lifter.cc: Lifter::Lift", "src/a64/main.cc: Lifter::Lift"]}
{"id": "C55", "title": "Lifting repeatedly and decoding further", "statement": "ll_func_lift may be called any number of times on a function object, also between calls that decode more code: it changes neither the decoded instructions nor the reported code ranges, it succeeds or fails as the first time, and each function it returns behaves the same as that of an object that was only decoded.", "quantifier": "all sequences of decode and lift calls, all code, all CPU states", "why_tests_cant": "Unbounded call histories; only the internal predecessor count of the entry differs between the calls.", "anchors": ["src/function.cc: LiftHelper::Lift, Function::Lift", "src/lldecoder.cc: Function::Decode", "src/rellume.cc: ll_func_lift, ll_func_ranges"]}
{"id": "C56", "title": "Addresses do not depend on how they are computed", "statement": "The address a memory operand refers to is the same whether or not the lifter knows the value of the base register as a constant, whether or not a global base is set with ll_config_set_global_base (to a value that is at the given address), and with ll_config_set_use_native_segment_base, when the executing processor has the guest's FS and GS bases.", "quantifier": "all operands, register contents, knowledge of the lifter about registers, global bases and segment bases", "why_tests_cant": "The form of the generated code depends on the surrounding code, the offset and the scale; 2^64 values each.", "anchors": ["src/x86-64/lifter-operand.cc: Lifter::OpAddr", "src/lifter-base.cc: LifterBase::AddrConst", "src/rv64/lifter.cc: Addr", "src/rellume.cc: ll_config_set_global_base, ll_config_set_use_native_segment_base"]}
{"id": "C57", "title": "Overridden instructions do what the given function does", "statement": "With ll_config_set_instr_impl, the lifted code runs the given function on the CPU struct, which then holds the guest state, in place of every instruction of the given type, and continues with the state and at the program counter the function leaves; all other instructions are unaffected.", "quantifier": "all functions, overridden types, code, decode histories and CPU states", "why_tests_cant": "Arbitrary functions at arbitrary places of arbitrary control flow, with cached registers around them.", "anchors": ["src/rellume.cc: ll_config_set_instr_impl", "src/x86-64/lifter.cc: Lifter::Lift", "src/rv64/lifter.cc: Lifter::Lift", "src/a64/main.cc: Lifter::Lift", "src/lifter-base.cc: LifterBase::CallExternalFunction"]}
{"id": "C58", "title": "The instruction marker is called once per executed instruction", "statement": "With ll_config_set_instr_marker, the lifted code calls the marker function exactly once for each guest instruction it executes, in execution order, with the instruction's address, and otherwise behaves as without it.", "quantifier": "all code, decode histories, CPU states and numbers of executed instructions", "why_tests_cant": "Unbounded executions; all paths.", "anchors": ["src/rellume.cc: ll_config_set_instr_marker", "src/x86-64/lifter.cc: Lifter::Lift", "src/rv64/lifter.cc: Lifter::Lift", "src/a64/main.cc: Lifter::Lift"]}
{"id": "C59", "title": "Running a program by chaining lifted functions", "statement": "A program is executed by repeatedly calling the lifted function for the program counter in the CPU struct, either in a loop or with the dispatcher set as tail function (ll_config_set_tail_func): at every point the CPU struct, or the running function, has the state the guest machine has after some number of instructions; there is no undefined behaviour; every call makes the guest machine advance.", "quantifier": "all programs, tables of lifted functions, decode histories, CPU states, load addresses and numbers of steps", "why_tests_cant": "Unbounded executions through arbitrary sequences of functions.", "anchors": ["src/function.cc: LiftHelper::Lift", "src/callconv.cc: CallConv::Call, CallConv::Return", "src/lifter-base.h: LifterBase::ForceReturn", "src/rellume.cc: ll_config_set_tail_func"]}
{"id": "C60", "title": "Only the guest state matters", "statement": "Two executions of lifted code from CPU structs with the same guest state take the same path block by block, leave the function at the same point and end with the same guest state, whatever else the CPU structs hold (undefined flags, unused bits of registers) and whatever values uninitialised temporaries have.", "quantifier": "all code, decode histories, pairs of CPU structs with the same guest state, numbers of steps", "why_tests_cant": "Relates pairs of executions; unbounded.", "anchors": ["src/function.cc: LiftHelper::Lift", "src/callconv.cc: CallConv::Unpack, CallConv::Pack", "src/regfile.cc: RegFile::impl"]}
{"id": "C61", "title": "Calls of guest functions through the call function return as in the guest", "statement": "With a dispatcher of lifted functions set as call function (ll_config_set_call_func) and as tail function, a guest function is run until it returns: if the guest machine returns from the function, with nested or recursive calls of any depth, the dispatcher returns, with the state the guest machine has then, and the guest machine that executes every instruction itself reaches this state.", "quantifier": "all programs, call depths, decode histories and CPU states", "why_tests_cant": "Unbounded recursion: the call function runs code that was lifted with this call function.", "anchors": ["src/x86-64/lifter-gp.cc: LiftCall, LiftRet", "src/rv64/lifter.cc: Lifter::Lift", "src/a64/main.cc: Lifter::Lift", "src/lifter-base.h: LifterBase::ForceReturn", "src/rellume.cc: ll_config_set_call_func"]}
{"id": "C62", "title": "Guest threads that share memory", "statement": "Several threads execute lifted code on the same memory, each with its own CPU struct. For every interleaving of the memory accesses of the lifted code there is an order of the guest's instructions, executed by as many guest processors, that gives the same memory and the same registers; in particular atomic read-modify-write instructions lose no update, and store-conditional instructions fail when another processor has written to the reserved memory.", "quantifier": "all numbers of threads, all code, all schedules, all memory contents and CPU states", "why_tests_cant": "The schedule is chosen by the operating system and the hardware; the number of interleavings is exponential in the length of the execution.", "anchors": ["src/x86-64/lifter-gp.cc: LiftArith, LiftCmpxchg, LiftXchg, LiftAndOrXor, LiftNot, LiftIncDec, LiftBittest", "src/rv64/lifter.cc: LiftAmo, LiftLoad, LiftStore", "src/a64/main.cc: LiftLoadStore"]}
{"id": "C63", "title": "Guest memory ordering survives lifting", "statement": "When guest code orders its memory accesses so that a value written by one thread must be seen by another (release/acquire accesses, barriers, or the order the architecture guarantees for ordinary accesses), the lifted code's loads and stores carry LLVM orderings under which LLVM's memory model also guarantees that value: no load returns undef because of a data race, and executions without data races behave like interleavings.", "quantifier": "all code, all executions of all numbers of threads, all interleavings and all values", "why_tests_cant": "LLVM's memory model allows results that no interleaving gives; which ones appear depends on optimisations and hardware.", "anchors": ["src/a64/main.cc: Lifter::Lift, Lifter::Ordering, LiftLoadStore", "src/rv64/lifter.cc: LiftAmo, LiftLoad, LiftStore, Lifter::Lift", "src/x86-64/lifter-gp.cc: LiftXchg, LiftArith", "src/x86-64/lifter-sse.cc: LiftFence"]}
{"id": "C64", "title": "Registers that the code does not write keep their bytes", "statement": "A register that no decoded instruction writes has, whenever the CPU struct is passed to an external function or the lifted function returns, the value it had when the lifted function was called (unless an external function changed it); this also holds when instructions are lifted wrongly, for every way of decoding, and wherever the optimiser of stores puts the stores.", "quantifier": "all code, decode histories, registers, CPU structs, external functions and executions", "why_tests_cant": "Unbounded executions; all ways of building the function object.", "anchors": ["src/callconv.cc: CallConv::Pack, CallConv::OptimizePacks", "src/regfile.cc: RegFile::DirtyRegs", "src/function.cc: LiftHelper::Lift"]}
{"id": "C65", "title": "Functions decoded with ll_func_decode_cfg pass registers along the executed path", "statement": "In a function decoded by any number of ll_func_decode_cfg calls, a block that takes its registers from one predecessor has no other predecessor, and the optimised code (SSA values, PHI nodes, omitted and moved stores) returns the same CPU struct and passes the same CPU structs to external functions as code that keeps every register up to date along the executed path and stores all of them at every call and return; stores that are left out altogether concern undefined values only. (On x86-64 a system call function is set if there are SYSCALL instructions; on RV64 with a call function, JAL has x0 or a link register as destination.)", "quantifier": "all code of the three architectures, sequences of ll_func_decode_cfg and ll_func_lift calls, external functions, CPU structs, load addresses and executions", "why_tests_cant": "Unbounded executions through arbitrary control-flow graphs.", "anchors": ["src/lldecoder.cc: Function::Decode", "src/function.cc: LiftHelper::Lift", "src/basicblock.cc: ArchBasicBlock::FillPhis", "src/callconv.cc: CallConv::OptimizePacks"]}
{"id": "C66", "title": "The list of deviations from the architecture is complete", "statement": "For every integer instruction of RV64 and every general-purpose and SSE instruction of x86-64, every general-purpose instruction of AArch64, and every guest state for which the architecture defines a result, the lifted code leaves the architectural registers, flags (except those listed for C19 and C22), memory and program counter exactly if the state is not among the listed ones: outside the list it is right, and in every listed state it is wrong or undefined.", "quantifier": "all instructions as the decoder delivers them (x86-64: string instructions with 64-bit addresses and no segment override; AArch64: no floating-point arithmetic; calls without a call function), operands and guest states", "why_tests_cant": "All operand values; an equivalence, so the list can be neither too long nor too short.", "anchors": ["src/rv64/lifter.cc: Lifter::Lift", "src/x86-64/lifter-gp.cc", "src/x86-64/lifter-sse.cc", "src/a64/main.cc: Lifter::Lift"]}
{"id": "C67", "title": "The returned function is well-formed and has no dead blocks", "statement": "A function decoded by any number of ll_func_decode_cfg calls is lifted to a function in which every block can be reached, every block ends with a branch to a block of the function or with a return, nothing branches to the entry block, PHI nodes have one value for every incoming branch, and every value is computed before it is used on every way through the function; so the option to verify the function (ll_config_enable_verify_ir) never makes lifting fail for these reasons. Removing the blocks that cannot be reached changes neither results nor memory effects. (Exceptions as for C65.)", "quantifier": "all code of the three architectures, sequences of ll_func_decode_cfg and ll_func_lift calls, configurations, folded branch conditions, register accesses, CPU structs and executions", "why_tests_cant": "Arbitrary control-flow graphs and ways through them.", "anchors": ["src/function.cc: LiftHelper::Lift (EliminateUnreachableBlocks, verifyFunction)", "src/basicblock.cc: ArchBasicBlock::InitWithPHIs, ArchBasicBlock::BranchTo, ArchBasicBlock::FillPhis", "src/regfile.cc: RegFile::impl::GetRegFold"]}
{"id": "C68", "title": "Every x86-64 mnemonic gets the code of the operation that it names", "statement": "For every mnemonic that the x86-64 lifter supports and all of its operands, the code emitted is that of the operation which the processor manual gives this name: the right arithmetic or comparison, signedness, element size, scalar or packed form, saturation, rounding, alignment requirement and condition; so that what the other properties say about an operation holds for the machine instructions with that name. Every other mnemonic is not lifted.", "quantifier": "all mnemonics of the lifter's switch, operands, machine states, instruction lengths, configurations and addresses", "why_tests_cant": "Each of 349 mnemonics would need tests on values that tell it from its neighbours (signed from unsigned, packed from scalar).", "anchors": ["src/x86-64/lifter.cc: Lifter::Lift (switch)", "src/x86-64/lifter-gp.cc: Lifter::LiftArith, Lifter::LiftAndOrXor, Lifter::LiftShift, Lifter::LiftBittest, Lifter::LiftMul", "src/x86-64/lifter-sse.cc: Lifter::LiftSseUnpck, Lifter::LiftSseBinOp, Lifter::LiftSseCvt", "src/facet.inc"]}
{"id": "C69", "title": "External functions may be marked always-inline", "statement": "Marking a call, system call or override function that is defined in the module as always-inline does not change what lifting does with the code around the call: the lifted function is built without undefined behaviour, and the CPU struct stores before the (then inlined) call and before every return are placed where they are without the mark.", "quantifier": "all code, all external functions with and without the attribute and with and without a body, all numbers and orders of calls", "why_tests_cant": "Whether the use of a deleted instruction shows depends on the allocator; the sequences of calls are unbounded.", "anchors": ["src/lifter-base.cc: LifterBase::CallExternalFunction", "src/callconv.cc: Pack, CallConv::Call, CallConv::Return, CallConv::OptimizePacks", "src/function-info.h: CallConvPack"]}
{"id": "C70", "title": "Operands are accessed with a type of their size", "statement": "The LLVM type with which a register or memory operand is accessed has exactly as many bits as the operand: a request for an integer, or for a vector of given elements, that fits an operand of 2^k bits gets the integer, or the vector of as many elements as fit, with 2^k bits; such a type exists for all sizes from one element to 128 bits; no type is larger than a vector register; and the view of a value that is stored is determined by its type, except for pointers and the high-byte registers.", "quantifier": "all views of registers, operand sizes that are powers of two, and types", "why_tests_cant": "All operand sizes and combinations of element type and count; a wrong type silently reads or writes neighbouring bytes.", "anchors": ["src/facet.cc: Facet::In, Facet::Vnt, Facet::FromType, Facet::Size, Facet::Type, Facet::Resolve", "src/facet.inc", "src/facet.h: Facet::Value"]}
