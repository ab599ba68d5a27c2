# Formal model of rellume: design

Target: `aengelke/rellume` at the commit in `/repo`.  Rellume decodes guest machine code
(x86-64, RV64, AArch64), builds a control-flow graph and emits an LLVM function that acts on a
"CPU struct".  The model is in Lean 4 (`lean/Verif`), the properties are in `properties.jsonl`,
the mapping property -> theorems is in `MANIFEST.json`.

## 1. Trusted base

* Lean 4.33.0's kernel, and the axioms `propext`, `Classical.choice`, `Quot.sound` (section 6).  No own
  axioms, no `sorry`, no `native_decide`, no `bv_decide`.
* The hand translation from C++ to Lean.  Every definition cites file and lines.
* The semantics given to LLVM IR operations (`Verif/IR`): integers are bit vectors; *poison* (and
  `undef`) is an explicit value (`none`) produced by over-wide shifts, `ctlz/cttz` with `zero_undef`,
  out-of-range `fptosi` etc. and propagated strictly except through the unselected arm of `select`;
  immediate undefined behaviour (division by zero, misaligned access with a promised alignment, null
  dereference, failed assertion) is a distinct outcome of the function that performs it.  IRBuilder
  constant folding is assumed to preserve values; where the lifter looks at the result of folding
  (constant branch conditions) the outcome of folding is a parameter and every outcome is covered.
* Floating point (`Verif/IR/Fp*`): binary32 and binary64 as sign, exponent and fraction; add, sub, mul, div,
  sqrt, fused multiply-add and conversions are computed exactly and rounded to nearest even (the default LLVM
  environment).  `arith_ieee`, `sqrt_ieee`, `conv_ieee`, `ofInt_ieee` and `fma_ieee` prove that the results are
  the ones IEEE 754 prescribes (`namespace Ieee` in `IR/FpIeee`, `IR/FpOps`: nearest representable number,
  ties to even, infinities, signed zeros), so only those short definitions are trusted.  NaN results: the model
  of the IR quiets the first NaN operand, else gives the x86 default NaN.  (LLVM leaves the payload open, so
  this is a choice among the allowed ones.)  `minnum`/`maxnum` of zeros of opposite sign are left open (`none`).
* The ISA specifications are written by hand from the Intel SDM, the RISC-V manual and the
  Arm ARM (files named `*Spec*`); they are small and separate from the model.  The spec files use from the model only
  the syntax of instructions and the state layout, no lifter function.

## 2. What is modelled and what is not

Modelled (module -> code):

| modules | code |
|---------|------|
| `Decode/*` | `Function::Decode`, `DecodeIteration`, the instruction map, block formation (`src/lldecoder.cc` 156-232, `src/function.h`) |
| `Lift/Model`, `Lift/Blocks`, `Lift/Final`, `Lift/Relift` | `Function::Lift`, `ResolveAddr`, `BasicBlock` (`src/function.cc`, `src/basicblock.cc`) |
| `Lift/Ssa`, `Lift/Dataflow`, `Lift/SsaProofs`, `Lift/Drop`, `Lift/Untouched`, `Lift/CfgDecoded` | register files along edges (PHIs, parent inheritance), `CallConv::Pack/Unpack/OptimizePacks`, hoisting, omitted undef stores (`src/callconv.cc` 188-358) |
| `Lift/FillPhis*` | `BasicBlock::FillPhis`, on-demand PHI creation in `RegFile::GetReg`, the fixpoint loop of `Function::Lift` |
| `RegFile/*` (`RegFile/Known`: when a block looks outside) | `RegFile::impl`: views, partial writes, canonicalisation, lazy flags, PC modes (`src/regfile.cc`) |
| `Facet/*` | `Facet::In`, `Vnt`, `FromType`, `Size`, `Type`, `Resolve` (`src/facet.cc`, `src/facet.inc`) |
| `CpuStruct/*` | `data/rellume/cpustruct-*.json`, `cpustruct_parser.py`, struct accesses of `src/callconv.cc` (tables are generated from /repo by `tools/mkcpustruct.py`) |
| `Config/*` | the configuration API of `src/rellume.cc`, `CallConv::FromFunction` |
| `RV64/*` | `src/rv64/lifter.cc`: I, M, Zba, Zbb, Zbc, Zbs, A, F and D (rounding modes other than RNE for conversions only) |
| `A64/*` | `src/a64/main.cc` and `src/a64/simd.cc`: integer, memory, branch, system, SIMD and floating-point instructions; all that the lifter knows (saturating and polynomial SIMD arithmetic, half precision, FRINT32/64 and cryptography are rejected there) |
| `X86/*` | `src/x86-64/lifter*.cc`: general-purpose, flags, strings, stack, SSE (integer and floating point); `X86/Rows`, `X86/Dispatch`: the switch over mnemonics in `lifter.cc`; `X86/Address`: also `AddrConst` and RV64 `Addr` |
| `Lift/RV64`, `Lift/RV64Fp`, `Lift/RV64Call` (call and system call functions), `Lift/A64`, `Lift/X86` | end to end: `classifyInstr` (`src/lldecoder.cc` 45-152) + lifter + lift loop + packs |
| `Lift/Chain`, `Lift/Returns`, `Lift/ChainArch` | tail functions (`src/function.cc` 211-217), dispatchers, call functions that run lifted code |
| `Conc/*` | the memory accesses of the lifted code of single instructions, as steps of threads that share memory |
| `Lift/Override*` | instruction overrides and markers (`src/x86-64/lifter.cc` 48-66, `src/rv64/lifter.cc` 362-382, `src/a64/main.cc` 51-68) |

Not modelled: the decoder libraries (fadec/frvdec/farmdec are submodules that are absent from
/repo; the decoder is a parameter of the model); LLVM itself (IRBuilder, passes, and of the verifier all but the conditions on
the control-flow graph, `Lift/Finish.lean`); floating-point environments other than the default (rounding modes, exception flags, flushing to zero); x87 arithmetic; concurrency beyond interleavings of
whole accesses (C62) and LLVM's happens-before for them (C63; for interleavings without the total order of sequentially consistent accesses; for other executions, Conc/Weak.lean, accesses are to the same or to disjoint bytes; no tearing of unaligned accesses); fast-math; the second argument of the marker function (metadata).

## 3. Modelling conventions

* *Value collapse.*  The lifter is a program generator.  We compose generator and generated
  program: an `llvm::Value*` is represented by the bit vector it has at run time.  Where the
  generator inspects a value at generation time (`isa<Constant>`, PC modes, cached types) the
  model carries an explicit tag.  Consequence: an assertion that fails while generating appears as the
  outcome `none` of executing the instruction.
* *Register file.*  Instruction lifters are written against flat registers.  C11/C12/C14 prove
  that the real register file (cached narrowed views, partial writes, lazy transforms, PHIs,
  parent inheritance) refines flat registers for all programs, which is what justifies this.
* *Undefined behaviour* is an explicit outcome (`none`/`Outcome.ub`), so "never undefined" is
  part of the statements.
* *Vectors* in registers: a register with one poison element counts as wholly poison, which is
  sound (weaker for the lifted code).
* *Layers.*  Instruction theorems have the form `Simulates`: the lifted code, started in a state that represents
  the guest state, ends in one that represents the guest state after the instruction.  The generic theorem
  `Verif.Lift.C09_simulation_partial` lifts this to whole functions; `Verif.Lift.{RV64,A64,X86}` instantiate it.
* When the code violates a property we prove the negation for a concrete witness
  (`..._counterexample`) and the strongest true restriction (`..._partial`), see section 5.
* `SseOk`, `Supported` and similar predicates collect the side conditions of the instruction theorems; each
  exclusion has a counterexample or is named in the theorem's comment.  For RV64 and for AArch64 without floating-point
  arithmetic the exclusions are exact: `RV64_exact` and `A64_exact` say that the lifted code is right if and only if none of them
  applies.  `X86_exact` says the same of all general-purpose x86-64 instructions (string instructions with 64-bit addresses and no
  segment override).

## 4. Plan per property

| id | modelled | proof |
|----|----------|-------|
| C01-C06 | `Function::Decode` as a step machine over an arbitrary decoder and classification; histories of API calls | invariants by induction over steps and calls; termination by a measure on undecoded addresses |
| C07, C39 | `ResolveAddr`, lift loop | case analysis + invariants of the decode stage |
| C08 | `preds` counting vs. edges created by lifting | counting invariants for `decode_cfg` and `decode_block` histories; `Counted` (no edge missed) is what C09, C14 and C15 need; counterexamples for the violating cases |
| C09, C10 | lift loop with abstract per-instruction semantics, PC modes; instances for the three architectures | simulation by induction on execution length; `Progress`: every executed block advances the guest machine |
| C11-C13 | `RegFile::impl` | refinement to flat registers by induction over access histories |
| C14 | values at block entry (PHIs, parent inheritance) | invariant over execution paths |
| C15, C17 | `OptimizePacks`, `Pack`, `Unpack` | data-flow invariant over execution paths; byte-level round trip |
| C16 | CPU struct tables and public header generated from JSON by `cpustruct_parser.py`, pointers into the struct and their names | kernel evaluation over the complete finite table + generic lemmas |
| C18-C26, C41, C45 | x86 lifters | bit-vector algebra for all widths, induction for REP loops |
| C27-C31, C43, C44 | RV64 lifters | bit-vector algebra, induction for carry-less multiplication |
| C31-C35, C42, C46, C47 | A64 lifters | bit-vector algebra, bitwise extensionality |
| C36 | PC base handling | the code of an instruction lifted at `start` and run with displacement `d` equals, as a function of the whole state, the code lifted at `start + d` (`C36_rv64_partial`, `C36_a64_partial`, `C36_x86_partial`); the end-to-end theorems hold for all displacements |
| C37, C38 | SSE / A64 SIMD lifters as lane functions | lane-wise extensionality, kernel evaluation over complete finite immediate tables |
| C40 | config API | induction over call histories |
| C48 | SSE floating point on exact rounding functions | lane-wise, comparison with the specified result per lane |
| C49 | FXSAVE/FXRSTOR as sequences of stores and loads | disjointness of the 16 slots for all addresses |
| C51 | RV64 floating point | IEEE correctness of the rounding functions; relation up to NaN-boxing |
| C52 | A64 floating point, scalar and vector | IEEE correctness of the rounding functions, lane by lane; scaling by powers of two is exact |
| C53, C54 | CPUID, RDTSC, accesses to floating-point control and status registers | bit-vector algebra; specification on a state extended by these registers |
| C55 | `ll_func_lift` calls as steps of histories; the count of predecessors it changes | lifting commutes with erasing the counts; C14 for both functions |
| C56 | `OpAddr`, `AddrConst` and RV64 `Addr` in detail (constants known while lifting, global base, native segments) | equal to the one formula used elsewhere |
| C57 | overridden instructions as one call of an external function, for any lifter | simulation (C09) against the guest machine in which the instructions do what the functions do |
| C58 | the marker call as appending to a log beside the memory, for any lifter | simulation against the guest machine with a record of its instructions; erasing the log |
| C59 | a dispatcher that calls lifted functions from a table, as a loop or as tail function | induction over the steps of the chain, C60 for each function |
| C60 | pairs of executions | the simulation of C09 for two CPU structs at once; both follow the same path of blocks (`Walk`) |
| C61 | the dispatcher as call function, with bounded call depth (any bound) | induction on the depth; a lifted function stops without calling the tail function exactly at a return; calls as shortcuts of the plain machine |
| C62 | the code of an instruction as a sequence of accesses to shared memory; threads and schedules | the accesses, run at once, are those of the sequential model; simulation of every interleaving by one of whole instructions |
| C63 | events of an interleaving, LLVM's happens-before and "may see" rule; x86-TSO as a machine with store buffers; executions that are not interleavings (every read is given the write it reads, LLVM's rules as conditions) | without races the only visible write is the last one (any program); an order that contains happens-before and the coherence order of sequentially consistent accesses is a schedule of the same program (topological sorting), and so is the modification order if all accesses are atomic read-modify-writes of one location, and the execution of a schedule satisfies LLVM's rules; invariant over the traces of a message-passing program; case analysis of the events of short programs (message passing with AMOs and XCHG, try-lock by any number of threads, a counter protected by a spin lock, store buffering) in an execution that need not be an interleaving; induction along the modification order of a lock for its critical sections and the values of the counter; case analysis for the orderings that each kind of instruction gets; exhaustive exploration of the guest for the counterexamples |
| C64 | dirty registers and placed stores | a register in no dirty set is in no set of the data-flow analysis and is stored nowhere; no assumption on edges or values |
| C65 | functions decoded with `ll_func_decode_cfg` | C08 gives exact predecessor counts, C14/C15 the rest, for the lifters of the three architectures |
| C66 | the instruction lifters | equivalences `RV64_exact`, `A64_exact`, `X86_exact_all`, `X86_sse_exact`: outside the list the code is right, inside it differs |
| C67 | `Lift/Finish.lean`: removal of unreachable blocks, conditions of the verifier on the graph | ways through the graph as an inductive predicate; dominance from the unique predecessors of C08, PHI nodes from C50; simulation for the removal |
| C68 | `X86/Rows.lean` (the switch of lifter.cc, written by tools/mkdispatch.py), `X86/Dispatch.lean` (what a row does; names of the manual by their naming scheme) | case by case over the whole switch, for all operands |
| C69 | `Lift/Inline.lean`: the call and return instructions that stores are placed at, in the order of their creation, and which of them are still in the function | invariant over the operations of lifting |
| C70 | `Facet/*`: the tables and functions of `src/facet.cc`, `src/facet.inc`, on LLVM types as terms | tables checked by the kernel as a whole; operand sizes by arithmetic on powers of two |
| C50 | on-demand PHI creation, `FillPhis` and its loop | invariant over access sequences, measure for the loop, rank for chains of parents |

## 5. Findings (properties the code violates)

Each row is a theorem about the model; the states and instructions are concrete and the failing step is evaluated
by the kernel.

<!-- findings -->
| id | theorem | what goes wrong |
|----|---------|-----------------|
| C03 | `Verif.Decode.C03_both_reserved_counterexample` | Both addresses have to be excluded: a conditional branch to either of them makes the decoder insert it into the map. |
| C03 | `Verif.Decode.C03_reserved_counterexample` | C03, the excluded case is real: a conditional branch to the reserved key `~0` makes the decoder insert it into the map. |
| C08 | `Verif.Decode.C08_decode_block_counterexample` | C08 fails for `decode_block` histories: after decoding the blocks at 0x10 and 0x12, address 0x12 has two static predecessors (fall-through and back edge) but only one is counted. |
| C09 | `Verif.Lift.RV64.C09_decode_block_counterexample` | **C09 and C14 are false for functions decoded with `ll_func_decode_block`**: with `x1 = 0` and `x2 = 5` the lifted function returns `x3 = 5`, although in the hart's run `x3` is 0 until it is set to 7 (the hart leaves the function after 5 instructions). The block at 1004 was decoded when only one of its two predecessors was known, and takes its registers from that one. |
| C09 | `Verif.Lift.RV64.C09_jal_counterexample` | **C09 is false with a call function and `JAL` to another register than x0, x1, x5**: the code is decoded with a single `ll_func_decode_cfg`. With `x1 = 0`, `x2 = 5` the hart sets `x2` to 7, jumps back and copies 7 to `x3`. The lifted function executes the jump as a branch, too, but the decoder has classified it as a call, so its target has one recorded predecessor and takes its registers from the first block: the lifted function returns with `x3 = 5`. |
| C09 | `Verif.Lift.X86.C09_syscall_counterexample` | **C09 is false for SYSCALL without a system call function**: the lifted function returns with RBX = 5, while the core leaves the code with RBX = 7. The block at 1013 is the target of one decoded jump and of the fall-through behind SYSCALL, which the decoder does not count as a predecessor, so that the block takes its registers from the decoded jump alone. |
| C11 | `Verif.RegFile.C11_high_byte_counterexample` | **C11 violated for the high-byte registers**: after a register was used as a pointer (e.g. as the base of an address), reading AH..DH of it fails the assertion "I8H from non-integer type": `mov rcx, [rax]; mov cl, ah`. |
| C17 | `Verif.CpuStruct.C17_flag_byte_counterexample` | The restriction on flags is needed: a flag byte 2 is not preserved, its value is not defined. |
| C18 | `Verif.X86.Spec.C18_locked_neg_counterexample` | A locked NEG is not lifted (assertion failure). |
| C19 | `Verif.X86.Spec.C19_adc_aux_counterexample` | `adc eax, 15` with CF = 1: AF is wrong. |
| C19 | `Verif.X86.Spec.C19_adc_carry_counterexample` | `adc rax, -1` with CF = 1: the carry out is lost. |
| C19 | `Verif.X86.Spec.C19_adc_overflow_counterexample` | `adc eax, 0x7fffffff` with CF = 1: OF is wrong. |
| C19 | `Verif.X86.Spec.C19_sbb_carry_counterexample` | `sbb rax, -1` with CF = 1: the borrow is lost. |
| C22 | `Verif.X86.Spec.C22_rotate_flags_counterexample` | `rol rax, 1` should set CF to the bit rotated out. |
| C22 | `Verif.X86.Spec.C22_shift_zero_counterexample` | `shl rax, 0` should keep CF, which becomes poison. |
| C22 | `Verif.X86.Spec.C22_shiftd_counterexample` | `shld ax, cx, 16` should copy CX to AX. |
| C22 | `Verif.X86.Spec.C22_shiftd_upper_counterexample` | `shrd r8d, ecx, 0` is no operation (SDM), but clears the upper half of R8. |
| C23 | `Verif.X86.Spec.C23_div_null_counterexample` | The lifter dereferences a null pointer if RDX was computed by `sar rdx, cl`. |
| C24 | `Verif.X86.Spec.C24_address_size_counterexample` | A string instruction with 32-bit address size uses and updates the full registers. |
| C24 | `Verif.X86.Spec.C24_alignment_counterexample` | `stosd` with a misaligned RDI is undefined behaviour in the lifted code. |
| C24 | `Verif.X86.Spec.C24_segment_counterexample` | `lodsb gs:` ignores the segment override. |
| C25 | `Verif.X86.Spec.C25_alignment_counterexample` | `push rax` with a misaligned stack pointer is undefined behaviour in the lifted code. |
| C25 | `Verif.X86.Spec.C25_pop16_counterexample` | `pop word ptr [rsi]` pops and stores eight bytes. |
| C25 | `Verif.X86.Spec.C25_popf16_counterexample` | `popf` with operand size 16 pops eight bytes. |
| C26 | `Verif.X86.Spec.C26_cmpxchg_counterexample` | `cmpxchg rax, rcx` should copy RCX to RAX. |
| C26 | `Verif.X86.Spec.C26_cmpxchg_upper_counterexample` | `cmpxchg r9d, ecx` that succeeds should not change RAX, but clears its upper half. |
| C26 | `Verif.X86.Spec.C26_xadd_counterexample` | `xadd rax, rax` should double RAX. |
| C28 | `Verif.RV64.C28_div_counterexample` | **C28 is false**: `div x3, x1, x2` with `x1 = 5`, `x2 = -1` must give -5; the lifted code gives 5, and likewise for `divw`. |
| C29 | `Verif.RV64.C29_clmulr_counterexample` | **C29 is false for `clmulr`**: with `x1 = 5`, `x2 = -1` (bit 63 set) the lifted code misses the last partial product. |
| C31 | `Verif.A64.Spec.C31_blr_x30_counterexample` | BLR X30 jumps to the next instruction instead of the address in X30: the link register is written before the target is read. |
| C31 | `Verif.A64.Spec.C31_blr_x30_wrong` | In fact it does so in every state whose X30 does not hold the address of the next instruction. |
| C31 | `Verif.RV64.C31_jalr_counterexample` | **C31 is false for odd targets**: `jalr x0, 0(x1)` with `x1 = 5` must go to 4; the lifted code goes to 5. |
| C32 | `Verif.A64.Spec.C32_adcs_counterexample` | ADCS X7, X0, X2 with carry: 5 + 0xffff… + 1 has a carry that the lifted code does not report. |
| C32 | `Verif.A64.Spec.C32_adcs_wrong` | The condition is exact: in every other state ADCS and SBCS set C or V wrongly. |
| C32 | `Verif.A64.Spec.C32_uxtx_counterexample` | ADD W0, W1, W2, UXTX (and SXTX) fails an assertion in the lifter. |
| C35 | `Verif.A64.Spec.C35_prefetch_counterexample` | Prefetch type 3 (unallocated, a NOP) fails an assertion. |
| C36 | `Verif.RV64.C36_ecall_counterexample` | **C36 is false for `ECALL`**: with the code loaded 0x1000 bytes above its link address the pc after the instruction is the link-time address. |
| C36 | `Verif.RV64.C36_unhandled_counterexample` | **C36 is false for unhandled instructions**: the lifter stores the link-time address of the instruction as the pc to resume at. |
| C37 | `Verif.A64.Spec.C37_fcmeq_scalar_counterexample` | FCMEQ S5, S1, S2 compares the registers as double-precision numbers: it finds 1.0 and 2.0 (whose lower halves are zero) different. |
| C37 | `Verif.A64.Spec.C37_sshr_counterexample` | and SSHR the signs. |
| C37 | `Verif.A64.Spec.C37_ushl_counterexample` | USHL by at least the element size gives 0 on the processor and poison in the lifted code. |
| C37 | `Verif.A64.Spec.C37_ushr_counterexample` | USHR by the element size gives 0 on the processor and poison in the lifted code ... |
| C37 | `Verif.X86.Spec.C37_movmsk_counterexample` | `pmovmskb eax, xmm0` with a destination operand of 32 bits: failing assertion. |
| C38 | `Verif.X86.Spec.C38_movddup_counterexample` | `movddup xmm0, [rsi+1]`: the emitted load claims alignment 8. |
| C38 | `Verif.X86.Spec.C38_pshufhw_counterexample` | `pshufhw xmm0, xmm1, 0x1b` should reverse the upper four words; the lifted code repeats word 4. |
| C39 | `Verif.Lift.C39_address_zero_counterexample` | **C39 is false for code at address 0**: `ll_func_decode_cfg(0)` succeeds and decodes two instructions, but lifting them branches to the exit block before it exists. |
| C40 | `Verif.Config.C40_default_counterexample` | Without x86-64 support and without selecting an architecture they do not match (as the header warns). |
| C40 | `Verif.Config.C40_syscall_null_counterexample` | C40: the implementation of system calls (or of an instruction) cannot be removed by passing NULL, unlike the call function, the tail function and the instruction marker. |
| C41 | `Verif.X86.Spec.C41_fs_rip_counterexample` | `mov rax, fs:[rip + x]` fails an assertion. |
| C41 | `Verif.X86.Spec.C41_gs_addr32_counterexample` | `mov rax, gs:[esi]` mixes 32-bit and 64-bit types. |
| C41 | `Verif.X86.Spec.C41_jmp_counterexample` | `jmp fs:[rsi]` ignores the segment override. |
| C41 | `Verif.X86.Spec.C41_lea_eip_counterexample` | `lea rax, [eip + x]` is not truncated to 32 bits. |
| C41 | `Verif.X86.Spec.C41_xlat_counterexample` | `xlatb fs:` ignores the segment override. |
| C43 | `Verif.RV64.C43_misaligned_counterexample` | The lifted code of a misaligned load or store has undefined behaviour: `lh x3, 0(x1)` with `x1 = 5`, and the same for `sh`. |
| C43 | `Verif.RV64.C43_sc_counterexample` | **C43 is false for SC with `rd = rs2`**: `sc.d x1, x1, (x0)` with `x1 = 5` must store 5; the lifted code stores 0. |
| C44 | `Verif.RV64.C44_fclass_counterexample` | **C44 is false for `FCLASS`**: 1.0 is a positive normal number, so `rd` must be `1 << 6 = 64`; the lifted code gives 6. |
| C44 | `Verif.RV64.C44_nanbox_counterexample` | **C44 is false**: `fmv.w.x f3, x1` with `x1 = 5` must leave the NaN-boxed value. |
| C45 | `Verif.X86.Spec.C45_lzcnt_counterexample` | LZCNT is lifted as BSR. |
| C45 | `Verif.X86.Spec.C45_movhps_counterexample` | `movhps [rsi+1], xmm0`: the emitted store claims alignment 8. |
| C45 | `Verif.X86.Spec.C45_movlps_counterexample` | `movlps [rsi+1], xmm0`: the emitted store claims alignment 8. |
| C45 | `Verif.X86.Spec.C45_movss_counterexample` | `movss [rsi+1], xmm0`: the emitted store claims alignment 4. |
| C45 | `Verif.X86.Spec.C45_tzcnt_counterexample` | TZCNT of zero should be the operand size, and ZF and CF differ from BSF. |
| C46 | `Verif.A64.Spec.C46_fmov_h_counterexample` | FMOV H4, W6 writes 32 bits instead of 16. |
| C47 | `Verif.A64.Spec.C47_dmb_counterexample` | DMB #0 fails an assertion in the lifter. |
| C48 | `Verif.X86.Spec.C48_cmpss_counterexample` | `cmpltss xmm0, [rsi+1]`: the emitted load claims alignment 4. |
| C48 | `Verif.X86.Spec.C48_compare_avx` | Predicates above 7 exist only for AVX and fail an assertion; shown for 8. |
| C48 | `Verif.X86.Spec.C48_cvttps2dq_counterexample` | `cvttps2dq xmm0, xmm1` of 3e9 should give 0x80000000; the lifted code gives poison. |
| C48 | `Verif.X86.Spec.C48_cvttsd2si_counterexample` | `cvttsd2si rax, xmm0` of 1e300 should give 0x8000000000000000; the lifted code gives poison. |
| C48 | `Verif.X86.Spec.C48_minss_counterexample` | `minss xmm0, [rsi+1]`: the emitted load claims alignment 4. |
| C49 | `Verif.X86.Spec.C49_mxcsr_counterexample` | The MXCSR field of the saved area (4 bytes at offset 24) is zero after the lifted FXSAVE, in every state: all floating-point exceptions unmasked. No guest of rellume has this MXCSR, its floating-point environment is the default one, 0x1F80. |
| C51 | `Verif.RV64.C51_fma_counterexample` | **C51 is false** for fused multiply-add, which the lifted code rounds twice: `(1 + 2^-27)^2 - (1 + 2^-26)` is `2^-54`, not 0. |
| C51 | `Verif.RV64.C51_minmax_counterexample` | **C51 is false** for the minimum of 0 and -0, which must be -0 (LLVM leaves the choice open), and of two NaNs, which must be the canonical NaN. |
| C51 | `Verif.RV64.C51_nan_counterexample` | **C51 is false** for NaN results: `fdiv.d` of 0 by 0 must give the canonical NaN, whose sign is clear. LLVM leaves the sign open, and x86 hosts set it. |
| C51 | `Verif.RV64.C51_ofInt_counterexample` | **C51 is false** for conversions from integers with a static rounding mode, which is ignored: `fcvt.d.lu f3, x2, rtz` of `2^64 - 1` must give the number below `2^64`. |
| C51 | `Verif.RV64.C51_range_counterexample` | **C51 is false** for conversions of values that do not fit, which must be clipped: the lifted code computes poison for infinity and for -1.5 converted to unsigned. |
| C51 | `Verif.RV64.C51_rm_counterexample` | **C51 is false** for static rounding modes of arithmetic instructions: `fadd.d f3, f1, f2, rne` is an assertion failure. |
| C51 | `Verif.RV64.C51_toInt_counterexample` | **C51 is false** for conversions to integers with the dynamic rounding mode, which truncate: 2.75 must become 3 when the mode is to nearest. With an explicit `rne` the lifter stops. |
| C51 | `Verif.RV64.C51_unboxed_counterexample` | **C51 is false** for single-precision operands that are not NaN-boxed: they count as NaN, the lifted code uses the low half. |
| C52 | `Verif.A64.Spec.C52_default_nan_counterexample` | 0 / 0 gives the positive default NaN on the processor; the lifted code may give another NaN (on an x86-64 host the negative one). |
| C52 | `Verif.A64.Spec.C52_fcvt_nan_counterexample` | and so does FCVTZS of NaN, here on vectors. |
| C52 | `Verif.A64.Spec.C52_fcvt_range_counterexample` | FCVTZS of a number that does not fit saturates on the processor and is poison in the lifted code ... |
| C52 | `Verif.A64.Spec.C52_fcvtzu_counterexample` | FCVTZU of a negative number gives 0 on the processor ... |
| C52 | `Verif.A64.Spec.C52_fmadd_counterexample` | FMADD is not fused in the lifted code: (1 + 2^-52)^2 - (1 + 2^-51) is 2^-104 on the processor and 0 in the lifted code. |
| C52 | `Verif.A64.Spec.C52_fmax_nan_counterexample` | FMAX with one NaN operand gives NaN on the processor and the other operand in the lifted code. |
| C52 | `Verif.A64.Spec.C52_fmaxnm_snan_counterexample` | FMAXNM with a signalling NaN gives NaN on the processor and may give the other operand in the lifted code. |
| C52 | `Verif.A64.Spec.C52_fmin_zero_counterexample` | FMIN of +0 and -0 gives -0 on the processor; llvm.minnum may return either. |
| C52 | `Verif.A64.Spec.C52_fmla_counterexample` | Nor is FMLA on vectors. |
| C52 | `Verif.A64.Spec.C52_fmul_elem_counterexample` | Vector FMUL by element of -1 and 0 gives -0 on the processor and +0 in the lifted code, which adds the product to zero. |
| C54 | `Verif.A64.Spec.C54_a64_counterexample` | **C54 is false** for written values: after `msr fpcr, x0` with `x0 = 5`, `mrs x7, fpcr` must give 5; the lifted code gives 0. |
| C54 | `Verif.RV64.C54_rv64_counterexample` | **C54 is false** for written values: after `fscsr x0, x2` with `x2 = -1` the hart reads 255 from fcsr, the lifted code 0. |
| C54 | `Verif.X86.Spec.C54_x86_counterexample` | **C54 is false** for values that are loaded into the control words: after `ldmxcsr` of `0x9fc0` (flush to zero) `stmxcsr` must store that value, and after `fldcw` of `0x27f` `fnstcw` must; the lifted code of the store gives `0x1f80` and `0x37f`. |
| C55 | `Verif.Lift.RV64.C55_missed_edge_counterexample` | **C55 is false for functions decoded with `ll_func_decode_block`**, when an edge to the entry is missed: the loop runs twice, so the hart leaves it with `x2 = 7`. The function lifted first returns `x2 = 6`, the one lifted by a second `ll_func_lift` on the same object 7: with the entry counted twice, its block gets PHI nodes. |
| C57 | `Verif.Lift.RV64.C57_rv64_pc_counterexample` | **A function that only changes registers is not enough on RV64 and AArch64**: the register is changed but the lifted function returns with the address of the overridden instruction itself, which will be executed again; with the lifter's own code it returns with the address of the next one. |
| C57 | `Verif.Lift.X86.C57_redirect_counterexample` | **C57 is false for functions that jump, given for an instruction that is not a jump**: the function given for the unknown instruction at 1003 continues at 1008, so that the core leaves the loop in the first round with RCX = 3, but the lifted code goes on with the next instruction. |
| C58 | `Verif.Lift.X86.C58_failed_counterexample` | **C58 is false for instructions that cannot be lifted**: the marker function is called for the unknown instruction at 1003 although the lifted function returns without having executed it, with its address in the program counter; whoever continues there and lifts it again is told of it twice. |
| C62 | `Verif.Conc.A64.C62_a64_exclusive_counterexample` | C62 fails for LDXR/STXR: the lifted STXR always stores and reports success. With the store of the other thread between LDXR and STXR it overwrites the store although LDXR has not seen it; no order of the instructions of the two processors gives this result. |
| C62 | `Verif.Conc.RV64.C62_lrsc_counterexample` | C62 fails for `LR`/`SC`: the lifted `SC` always stores and reports success. With the store of the other thread between `LR` and `SC` it overwrites the store although `LR` has not seen it; no order of the instructions of the two harts gives this result. |
| C63 | `Verif.Conc.A64.C63_a64_dmb_counterexample` | C63 fails for AArch64: DMB becomes a fence, but LLVM's fences order only atomic accesses, and ordinary loads and stores are not atomic. With a full barrier between the accesses the order of the instructions is that of the accesses on the processors, so that who reads the flag reads the data; in the lifted code the data are `undef`. |
| C63 | `Verif.Conc.A64.C63_a64_stlr_ldar_counterexample` | C63 fails for AArch64: two processors each store 1 with STLR and then load what the other has stored with LDAR. The architecture keeps a STLR before the LDARs that follow it, so that the accesses are those of an interleaving of the instructions, and at least one processor loads 1. In the lifted code STLR is a release store and LDAR an acquire load, for which LLVM does not guarantee this: there is an execution in which both load 0. |
| C63 | `Verif.Conc.RV64.C63_rv64_fence_counterexample` | C63 fails for RV64: FENCE emits nothing and ordinary loads and stores are not atomic. With a full fence between the accesses the order of the instructions is that of the accesses on the harts, so that who reads the flag reads the data; in the lifted code the data are `undef`. |
| C63 | `Verif.Conc.RV64.C63_rv64_lrsc_counterexample` | C63 fails for RV64: the bits aq and rl of LR and SC are ignored and the accesses are not atomic. On the harts LR.aq is before the load and SC.rl after the store, so that who reads the flag reads the data; in the lifted code the data are `undef`. |
| C63 | `Verif.Conc.X86.C63_x86_message_counterexample` | C63 fails for x86-64: on the processors stores become visible in the order of the program and loads are executed in order, so that who reads the flag reads the data; the lifted code has ordinary loads and stores, for which LLVM does not guarantee this, and the data are `undef`. |
| C67 | `Verif.Lift.RV64.C67_decode_block_counterexample` | **C67 is false for functions decoded with `ll_func_decode_block`**: the block at 1018 uses the registers of the block at 1004, although it is also reached from 1010 without having been there. The function returned is not valid; with verification enabled, lifting fails. |
| C69 | `Verif.Lift.C69_inline_counterexample` | C69 fails: a function with one system call, whose implementation has a body and is marked always-inline. The call is inlined while the function is lifted, and the stores in front of it are then created at the address of the deleted instruction. Without the mark the function has its two places for stores. |
| C70 | `Verif.Facet.C70_size_counterexample` | Why C70 is about powers of two: an operand of 40 bits viewed as a vector of 32-bit integers would get one element, without a failing assertion. |
<!-- end findings -->

Seen while reading, not formalised: a tail function whose type gives `CallConv::INVALID` is not checked
(`src/function.cc` 211-214); A64 ordered accesses to misaligned addresses; FMADD/FMLA are not fused; FMAX/FMIN use
`maxnum/minnum`, which differ from the ISAs for signalling NaNs and zeros.

## 6. Axioms

`vcheck` replays every module in the kernel.  `#print axioms` of every theorem in MANIFEST.json shows a
subset of `propext`, `Classical.choice`, `Quot.sound`.
