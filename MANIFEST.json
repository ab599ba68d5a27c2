{
 "claims": [
  {
   "property": "C01",
   "status": "proved",
   "theorems": [
    "Verif.Decode.C01_decoded_once",
    "Verif.Decode.C01_genuine",
    "Verif.Decode.C01_stable"
   ],
   "note": "For all classifications, decoders and histories of decode calls."
  },
  {
   "property": "C02",
   "status": "proved",
   "theorems": [
    "Verif.Decode.C02_decode_cfg_closed",
    "Verif.Decode.C02_decode_cfg_exact"
   ],
   "note": "Closure after any history; exact reachable set on a fresh function."
  },
  {
   "property": "C03",
   "status": "proved",
   "theorems": [
    "Verif.Decode.C03_decode_terminates",
    "Verif.Decode.C03_decode_returns",
    "Verif.Decode.C03_bounded",
    "Verif.Decode.C03_reserved_counterexample",
    "Verif.Decode.C03_returns_below",
    "Verif.Decode.C03_both_reserved_counterexample"
   ],
   "note": "Linear step bound. The two hash-map-reserved keys are an explicit UB outcome; without them the call returns."
  },
  {
   "property": "C04",
   "status": "proved",
   "theorems": [
    "Verif.Decode.C04_ranges_exact"
   ],
   "note": "Hypothesis: fewer than 2^64 code bytes in total (always met unless a stream wraps the whole address space)."
  },
  {
   "property": "C05",
   "status": "proved",
   "theorems": [
    "Verif.Decode.C05_decode_instr",
    "Verif.Decode.C05_decode_block"
   ],
   "note": ""
  },
  {
   "property": "C06",
   "status": "proved",
   "theorems": [
    "Verif.Decode.C06_blocks_contiguous",
    "Verif.Decode.C06_block_run"
   ],
   "note": ""
  },
  {
   "property": "C08",
   "status": "partial",
   "theorems": [
    "Verif.Decode.C08_preds_exact_partial",
    "Verif.Decode.C08_preds_le",
    "Verif.Decode.C08_preds_block",
    "Verif.Decode.C08_counted_block",
    "Verif.Decode.C08_counted_one_block",
    "Verif.Decode.C08_counted_one_instr",
    "Verif.Decode.C08_decode_block_counterexample",
    "Verif.Lift.C08_graph_preds_partial"
   ],
   "note": "False in general (counterexample); never too large; exact for decode_cfg histories, for a single decode_block call, and for decode_block histories in which no block starts right after a conditional branch or call."
  },
  {
   "property": "C11",
   "status": "partial",
   "theorems": [
    "Verif.RegFile.C11_flat_register_partial",
    "Verif.RegFile.C11_register_file_partial",
    "Verif.RegFile.C11_high_byte_counterexample"
   ],
   "note": "All access histories, caching choices and inheritance chains. AH..DH reads after a pointer view of the register fail an assertion (counterexample)."
  },
  {
   "property": "C12",
   "status": "proved",
   "theorems": [
    "Verif.RegFile.C12_partial_writes",
    "Verif.RegFile.C12_vector_merge"
   ],
   "note": ""
  },
  {
   "property": "C13",
   "status": "proved",
   "theorems": [
    "Verif.RegFile.C13_lazy_flags"
   ],
   "note": "Flag values stated arithmetically."
  },
  {
   "property": "C27",
   "status": "proved",
   "theorems": [
    "Verif.RV64.C27_rv64_alu"
   ],
   "note": "All RV64I computational instructions and M multiplications."
  },
  {
   "property": "C28",
   "status": "partial",
   "theorems": [
    "Verif.RV64.C28_rv64_divu_rem",
    "Verif.RV64.C28_rv64_div_partial",
    "Verif.RV64.C28_div_counterexample",
    "Verif.RV64.RV64_exact",
    "Verif.RV64.RV64_defect"
   ],
   "note": "RV64_exact and RV64_defect prove that the exceptions of C28, C29, C31 and C43 are exactly the states in which the code is wrong. Signed DIV/DIVW by -1 returns the dividend instead of its negation (counterexample); everything else proved."
  },
  {
   "property": "C29",
   "status": "partial",
   "theorems": [
    "Verif.RV64.C29_rv64_bitmanip_partial",
    "Verif.RV64.C29_clmulr_counterexample",
    "Verif.RV64.RV64_exact",
    "Verif.RV64.RV64_defect"
   ],
   "note": "clmulr misses the partial product of rs2 bit 63 (counterexample); everything else proved."
  },
  {
   "property": "C30",
   "status": "proved",
   "theorems": [
    "Verif.RV64.C30_x0"
   ],
   "note": "Non-interference for every instruction."
  },
  {
   "property": "C36",
   "status": "partial",
   "theorems": [
    "Verif.RV64.C36_rv64_partial",
    "Verif.A64.C36_a64_partial",
    "Verif.X86.C36_x86_partial",
    "Verif.RV64.C36_ecall_counterexample",
    "Verif.RV64.C36_unhandled_counterexample",
    "Verif.A64.Spec.C36_a64_svc",
    "Verif.A64.Spec.C36_a64_unhandled",
    "Verif.RV64.C27_rv64_alu",
    "Verif.RV64.C31_rv64_branch",
    "Verif.Lift.RV64.C09_rv64_partial",
    "Verif.Lift.RV64.C09_rv64_call_partial",
    "Verif.Lift.A64.C09_a64_partial",
    "Verif.Lift.X86.C09_x86_partial"
   ],
   "note": "For every instruction that can be lifted (except ECALL and SVC), offset and state, also those with undefined behaviour or wrong results: the code lifted at start and run with displacement d equals the code lifted at start+d.  ECALL, SVC and instructions that cannot be lifted violate it (counterexamples).  Whole functions: the end-to-end theorems hold for all displacements."
  },
  {
   "property": "C43",
   "status": "partial",
   "theorems": [
    "Verif.RV64.C43_rv64_load_partial",
    "Verif.RV64.C43_rv64_store_partial",
    "Verif.RV64.C43_misaligned_counterexample",
    "Verif.RV64.C43_rv64_amo",
    "Verif.RV64.C43_rv64_lr",
    "Verif.RV64.C43_rv64_sc_partial",
    "Verif.RV64.C43_sc_counterexample",
    "Verif.RV64.C43_amo_ordering",
    "Verif.RV64.RV64_does",
    "Verif.RV64.RV64_exact",
    "Verif.RV64.RV64_defect"
   ],
   "note": "Natural alignment assumed by the emitted loads/stores; SC with rd=rs1/rs2 wrong (counterexamples)."
  },
  {
   "property": "C44",
   "status": "partial",
   "theorems": [
    "Verif.RV64.C44_rv64_fmove",
    "Verif.RV64.C44_rv64_fmove32_partial",
    "Verif.RV64.C44_nanbox_counterexample",
    "Verif.RV64.C44_rv64_fclass_partial",
    "Verif.RV64.C44_fclass_counterexample",
    "Verif.RV64.C44_rv64_fsgnjd"
   ],
   "note": "No NaN boxing; FCLASS yields class number instead of mask (counterexamples)."
  },
  {
   "property": "C07",
   "status": "proved",
   "theorems": [
    "Verif.Lift.C07_branch_resolution"
   ],
   "note": "For every decode history and lifter; the program counter mode is the lifter's."
  },
  {
   "property": "C09",
   "status": "partial",
   "theorems": [
    "Verif.Lift.C09_simulation_partial",
    "Verif.Lift.C09_simulation_drop_partial",
    "Verif.Lift.C09_total_partial",
    "Verif.Lift.RV64.C09_rv64_partial",
    "Verif.Lift.RV64.C09_rv64_fp_partial",
    "Verif.Lift.RV64.C09_rv64_call_partial",
    "Verif.Lift.RV64.rvItems_lift",
    "Verif.Lift.A64.C09_a64_partial",
    "Verif.Lift.X86.C09_x86_partial",
    "Verif.X86.Spec.X86_instruction_partial",
    "Verif.Lift.X86.C09_syscall_counterexample",
    "Verif.Lift.RV64.C09_decode_block_counterexample",
    "Verif.Lift.RV64.C09_jal_counterexample"
   ],
   "note": "Whole-function simulation on top of per-instruction correctness, and end to end for RV64, AArch64 and x86-64 (general-purpose and SSE instructions); histories that miss no edge (decode_cfg, single decode_block; see C08); false for other decode_block histories and for JAL to a non-link register with a call function, and for SYSCALL without a system call function."
  },
  {
   "property": "C10",
   "status": "partial",
   "theorems": [
    "Verif.IR.Pc.C10_offset",
    "Verif.Lift.C10_exit_pc_partial",
    "Verif.Lift.C09_total_partial",
    "Verif.Lift.RV64.C09_rv64_call_partial",
    "Verif.Lift.A64.C09_a64_partial",
    "Verif.Lift.X86.C09_x86_partial"
   ],
   "note": "The returned CPU struct has the guest's next program counter."
  },
  {
   "property": "C14",
   "status": "partial",
   "theorems": [
    "Verif.Lift.C14_ssa_partial",
    "Verif.Lift.RV64.C09_decode_block_counterexample"
   ],
   "note": "Histories that miss no edge (decode_cfg, single decode_block; see C08); false for other decode_block histories."
  },
  {
   "property": "C15",
   "status": "partial",
   "theorems": [
    "Verif.Lift.C15_packs_terminate",
    "Verif.Lift.C15_observable_partial"
   ],
   "note": "Same observable CPU struct states as storing everything at every pack; histories that miss no edge (see C08)."
  },
  {
   "property": "C16",
   "status": "proved",
   "theorems": [
    "Verif.CpuStruct.C16_layout",
    "Verif.CpuStruct.C16_rejects",
    "Verif.CpuStruct.C16_x86",
    "Verif.CpuStruct.C16_rv64",
    "Verif.CpuStruct.C16_a64",
    "Verif.CpuStruct.C16_pointer_index",
    "Verif.CpuStruct.C16_x86_header",
    "Verif.CpuStruct.C16_rv64_header",
    "Verif.CpuStruct.C16_a64_header",
    "Verif.CpuStruct.C16_named_pointer",
    "Verif.CpuStruct.C16_pointers",
    "Verif.CpuStruct.C16_x86_segment_pointers",
    "Verif.CpuStruct.C16_a64_thread_pointer"
   ],
   "note": "Generic facts about the parser, and the three complete tables evaluated by the kernel."
  },
  {
   "property": "C17",
   "status": "partial",
   "theorems": [
    "Verif.Lift.C17_untouched",
    "Verif.Lift.C17_untouched_ssa",
    "Verif.CpuStruct.C17_pack",
    "Verif.CpuStruct.C17_frame",
    "Verif.CpuStruct.C17_inside",
    "Verif.CpuStruct.C17_identity",
    "Verif.CpuStruct.C17_flag_byte_counterexample"
   ],
   "note": "Untouched registers for every history (C64); pack/unpack laws for all struct contents, flags must be 0 or 1 in memory."
  },
  {
   "property": "C40",
   "status": "proved",
   "theorems": [
    "Verif.Config.C40_setter",
    "Verif.Config.C40_last_write",
    "Verif.Config.C40_commute",
    "Verif.Config.C40_architecture",
    "Verif.Config.C40_convention",
    "Verif.Config.C40_convention_new",
    "Verif.Config.C40_defaults",
    "Verif.Config.C40_default_architecture",
    "Verif.Config.C40_convention_set",
    "Verif.Config.C40_from_function",
    "Verif.Config.C40_lifted_accepted",
    "Verif.Config.C40_default_counterexample",
    "Verif.Config.C40_syscall_null_counterexample"
   ],
   "note": "All histories. The convention matches the architecture if x86-64 is built in or an architecture was selected (the header warns about the other case); NULL is no valid argument of two setters."
  },
  {
   "property": "C39",
   "status": "partial",
   "theorems": [
    "Verif.Lift.C39_null_iff_partial",
    "Verif.Lift.C39_address_zero_counterexample"
   ],
   "note": "Entry address 0 excluded. Verification: C67."
  },
  {
   "property": "C18",
   "status": "proved",
   "theorems": [
    "Verif.X86.Spec.C18_add_sub_cmp",
    "Verif.X86.Spec.C18_neg",
    "Verif.X86.Spec.C18_inc_dec",
    "Verif.X86.Spec.C18_logic",
    "Verif.X86.Spec.C18_not",
    "Verif.X86.Spec.C18_locked_neg_counterexample"
   ],
   "note": "All operand forms the lifter has code for, with and without overflow intrinsics; locked forms need an aligned destination, a locked NEG fails an assertion (counterexample)."
  },
  {
   "property": "C19",
   "status": "partial",
   "theorems": [
    "Verif.X86.Spec.C19_adc_sbb_partial",
    "Verif.X86.Spec.C19_adc_sbb_no_carry",
    "Verif.X86.Spec.C19_adc_carry_counterexample",
    "Verif.X86.Spec.C19_sbb_carry_counterexample",
    "Verif.X86.Spec.C19_adc_overflow_counterexample",
    "Verif.X86.Spec.C19_adc_aux_counterexample",
    "Verif.X86.Spec.adc_exact"
   ],
   "note": "Results and ZF/SF/PF always; CF, OF, AF are wrong for three operand patterns when CF=1 (counterexamples), right otherwise (adc_exact: if and only if)."
  },
  {
   "property": "C20",
   "status": "proved",
   "theorems": [
    "Verif.X86.Spec.C20_cmp_condition",
    "Verif.X86.Spec.C20_negation",
    "Verif.X86.Spec.C20_cmp_jcc",
    "Verif.X86.Spec.C20_setcc",
    "Verif.X86.Spec.C20_cmovcc",
    "Verif.X86.Spec.C20_jcc"
   ],
   "note": ""
  },
  {
   "property": "C21",
   "status": "partial",
   "theorems": [
    "Verif.X86.Spec.C21_pushf",
    "Verif.X86.Spec.C21_popf",
    "Verif.X86.Spec.C21_lahf",
    "Verif.X86.Spec.C21_sahf",
    "Verif.X86.Spec.rflags_image",
    "Verif.X86.Spec.C21_pushf_popf",
    "Verif.X86.Spec.C21_popf_pushf",
    "Verif.X86.Spec.C21_sahf_lahf",
    "Verif.X86.Spec.popf_wrong",
    "Verif.X86.Spec.lahf_exact",
    "Verif.X86.Spec.C25_popf16_counterexample"
   ],
   "note": "64-bit POPF only (16-bit POPF is wrong), aligned stack; LAHF needs OF and DF to be defined."
  },
  {
   "property": "C22",
   "status": "partial",
   "theorems": [
    "Verif.X86.Spec.C22_shift",
    "Verif.X86.Spec.C22_shift_partial",
    "Verif.X86.Spec.C22_shiftd_partial",
    "Verif.X86.Spec.C22_rotate_partial",
    "Verif.X86.Spec.shiftd_exact",
    "Verif.X86.Spec.X86_exact",
    "Verif.X86.Spec.C22_shift_zero_counterexample",
    "Verif.X86.Spec.C22_shiftd_upper_counterexample",
    "Verif.X86.Spec.C22_rotate_flags_counterexample",
    "Verif.X86.Spec.C22_shiftd_counterexample"
   ],
   "note": "Zero counts clobber the flags (and for double shifts the upper half); CF/OF of rotates and double shifts are undefined; 16-bit double shift by 16 wrong."
  },
  {
   "property": "C23",
   "status": "partial",
   "theorems": [
    "Verif.X86.Spec.C23_mul",
    "Verif.X86.Spec.C23_imul",
    "Verif.X86.Spec.C23_div_partial",
    "Verif.X86.Spec.C23_div_identity",
    "Verif.X86.Spec.X86_exact",
    "Verif.X86.Spec.C23_div_null_counterexample"
   ],
   "note": "Everything except IDIV with an upper half that is an arithmetic shift by a variable amount (null dereference in the lifter)."
  },
  {
   "property": "C24",
   "status": "partial",
   "theorems": [
    "Verif.X86.Spec.C24_strings_partial",
    "Verif.X86.Spec.rep_defined",
    "Verif.X86.Spec.C24_zero_count",
    "Verif.X86.Spec.str_exact",
    "Verif.X86.Spec.C24_alignment_counterexample",
    "Verif.X86.Spec.C24_segment_counterexample",
    "Verif.X86.Spec.C24_address_size_counterexample"
   ],
   "note": "All counts, directions, memories; 64-bit address size, no segment override, pointers aligned to the element size."
  },
  {
   "property": "C25",
   "status": "partial",
   "theorems": [
    "Verif.X86.Spec.C25_push",
    "Verif.X86.Spec.C25_pop_partial",
    "Verif.X86.Spec.C25_leave",
    "Verif.X86.Spec.C25_call",
    "Verif.X86.Spec.C25_call_rel",
    "Verif.X86.Spec.C25_call_rel_function",
    "Verif.X86.Spec.C25_ret",
    "Verif.X86.Spec.C25_push_pop",
    "Verif.X86.Spec.pop_wrong",
    "Verif.X86.Spec.call_exact",
    "Verif.X86.Spec.X86_exact",
    "Verif.X86.Spec.C25_pop16_counterexample",
    "Verif.X86.Spec.C25_popf16_counterexample",
    "Verif.X86.Spec.C25_alignment_counterexample"
   ],
   "note": "Aligned stack; 16-bit POP is wrong."
  },
  {
   "property": "C26",
   "status": "partial",
   "theorems": [
    "Verif.X86.Spec.C26_xchg",
    "Verif.X86.Spec.C26_xadd_partial",
    "Verif.X86.Spec.C26_cmpxchg_partial",
    "Verif.X86.Spec.cmpxchg_exact",
    "Verif.X86.Spec.xadd_same_exact",
    "Verif.X86.Spec.X86_exact",
    "Verif.X86.Spec.C26_xadd_counterexample",
    "Verif.X86.Spec.C26_cmpxchg_counterexample",
    "Verif.X86.Spec.C26_cmpxchg_upper_counterexample"
   ],
   "note": "XADD with identical registers and CMPXCHG with the accumulator as destination are wrong; aligned memory. X86_exact proves for all general-purpose instructions (C18, C19, C21-C26, C41, C45) that these exclusions are exactly the states in which the code is wrong."
  },
  {
   "property": "C41",
   "status": "partial",
   "theorems": [
    "Verif.X86.Spec.C41_lea_partial",
    "Verif.X86.Spec.C41_load_partial",
    "Verif.X86.Spec.C41_store_partial",
    "Verif.X86.Spec.lea_exact",
    "Verif.X86.Spec.xlat_exact",
    "Verif.X86.Spec.jmp_exact",
    "Verif.X86.Spec.X86_exact",
    "Verif.X86.Spec.C41_lea_eip_counterexample",
    "Verif.X86.Spec.C41_fs_rip_counterexample",
    "Verif.X86.Spec.C41_gs_addr32_counterexample",
    "Verif.X86.Spec.C41_xlat_counterexample",
    "Verif.X86.Spec.C41_jmp_counterexample"
   ],
   "note": "All forms except EIP-relative, FS/GS with RIP or 32-bit address size, FS/GS on XLAT, JMP, CALL."
  },
  {
   "property": "C45",
   "status": "partial",
   "theorems": [
    "Verif.X86.Spec.C45_mov",
    "Verif.X86.Spec.C45_movzx",
    "Verif.X86.Spec.C45_movbe",
    "Verif.X86.Spec.C45_bswap",
    "Verif.X86.Spec.C45_cext",
    "Verif.X86.Spec.C45_csep",
    "Verif.X86.Spec.C45_bitscan_partial",
    "Verif.X86.Spec.C45_popcnt",
    "Verif.X86.Spec.C45_bittest",
    "Verif.X86.Spec.C45_xlat",
    "Verif.X86.Spec.C45_jmp",
    "Verif.X86.Spec.C45_jmp_rel",
    "Verif.X86.Spec.C45_jcxz",
    "Verif.X86.Spec.C45_loop",
    "Verif.X86.Spec.C45_flag_instructions",
    "Verif.X86.Spec.bitcnt_wrong",
    "Verif.X86.Spec.X86_exact",
    "Verif.X86.Spec.C45_lzcnt_counterexample",
    "Verif.X86.Spec.C45_tzcnt_counterexample",
    "Verif.X86.Spec.C45_sse_movq",
    "Verif.X86.Spec.C45_sse_movs_partial",
    "Verif.X86.Spec.C45_sse_movdq",
    "Verif.X86.Spec.C45_sse_movnt",
    "Verif.X86.Spec.C45_sse_movlp_partial",
    "Verif.X86.Spec.C45_sse_movhp_partial",
    "Verif.X86.Spec.C45_sse_prefetch",
    "Verif.X86.Spec.C45_sse_fence",
    "Verif.X86.Spec.C45_movss_counterexample",
    "Verif.X86.Spec.C45_movlps_counterexample",
    "Verif.X86.Spec.C45_movhps_counterexample"
   ],
   "note": "LZCNT and TZCNT are lifted as BSR and BSF; MOVSS/MOVSD/MOVLP*/MOVHP* stores claim an alignment the ISA does not require (counterexamples)."
  },
  {
   "property": "C31",
   "status": "partial",
   "theorems": [
    "Verif.RV64.C31_rv64_branch",
    "Verif.RV64.C31_rv64_jump_partial",
    "Verif.RV64.C31_jalr_counterexample",
    "Verif.RV64.RV64_exact",
    "Verif.RV64.RV64_defect",
    "Verif.RV64.C31_rv64_ecall",
    "Verif.Lift.RV64.C09_rv64_call_partial",
    "Verif.A64.Spec.C31_a64_branch",
    "Verif.A64.Spec.C31_a64_bl",
    "Verif.A64.Spec.C31_a64_blr_partial",
    "Verif.A64.Spec.C31_a64_bl_function",
    "Verif.A64.Spec.C31_a64_blr_function_partial",
    "Verif.A64.Spec.C31_a64_ret",
    "Verif.A64.Spec.C31_blr_x30_counterexample",
    "Verif.A64.Spec.C31_blr_x30_wrong",
    "Verif.A64.Spec.blr_x30_exact",
    "Verif.A64.Spec.A64_exact"
   ],
   "note": "RV64: JALR does not clear bit 0 of an odd target (counterexample). A64: BLR X30 jumps to the next instruction (proved wrong in every state)."
  },
  {
   "property": "C32",
   "status": "partial",
   "theorems": [
    "Verif.A64.Spec.C32_binop_partial",
    "Verif.A64.Spec.C32_uxtx_counterexample",
    "Verif.A64.Spec.C32_adc_value",
    "Verif.A64.Spec.C32_adc_partial",
    "Verif.A64.Spec.C32_adcs_wrong",
    "Verif.A64.Spec.C32_adcs_counterexample",
    "Verif.A64.Spec.A64_exact"
   ],
   "note": "A64_exact proves that the exceptions of C31, C32, C35, C37 (except scalar floating-point comparisons), C46 and C47 are exactly the cases in which the code is wrong. 32-bit UXTX/SXTX operands assert; ADCS/SBCS set C or V wrongly exactly for two values of the second operand (C32_adcs_wrong is the converse of C32_adc_partial)."
  },
  {
   "property": "C33",
   "status": "proved",
   "theorems": [
    "Verif.A64.Spec.C33_condition",
    "Verif.A64.Spec.C33_cmp_condition",
    "Verif.A64.Spec.C33_cmp_bcond",
    "Verif.A64.Spec.C33_ccmp",
    "Verif.A64.Spec.C33_csel",
    "Verif.A64.Spec.C33_fcmp",
    "Verif.A64.Spec.C33_fccmp",
    "Verif.A64.Spec.C33_fcsel"
   ],
   "note": ""
  },
  {
   "property": "C34",
   "status": "partial",
   "theorems": [
    "Verif.A64.Spec.C34_bitfield",
    "Verif.A64.Spec.C34_bfc",
    "Verif.A64.Spec.C34_extr",
    "Verif.A64.Spec.C34_extend",
    "Verif.A64.Spec.C34_shift",
    "Verif.A64.Spec.C34_shift_reg",
    "Verif.A64.Spec.C32_binop_partial",
    "Verif.A64.Spec.C32_uxtx_counterexample"
   ],
   "note": "All bit fields; extended operands except UXTX/SXTX in 32-bit instructions, which fail an assertion."
  },
  {
   "property": "C35",
   "status": "partial",
   "theorems": [
    "Verif.A64.Spec.C35_load",
    "Verif.A64.Spec.C35_load_pair",
    "Verif.A64.Spec.C35_store",
    "Verif.A64.Spec.C35_store_pair",
    "Verif.A64.Spec.C35_fp",
    "Verif.A64.Spec.C35_store_load",
    "Verif.A64.Spec.C35_structures",
    "Verif.A64.Spec.C35_prefetch_partial",
    "Verif.A64.Spec.C35_prefetch_counterexample",
    "Verif.A64.Spec.A64_exact"
   ],
   "note": "Ordered accesses must be aligned; prefetch type 3 fails an assertion."
  },
  {
   "property": "C37",
   "status": "partial",
   "theorems": [
    "Verif.A64.Spec.C37_a64_partial",
    "Verif.A64.Spec.simdOk_of",
    "Verif.A64.Spec.C37_ushl_counterexample",
    "Verif.A64.Spec.C37_ushr_counterexample",
    "Verif.A64.Spec.C37_sshr_counterexample",
    "Verif.A64.Spec.C37_fcmeq_scalar_counterexample",
    "Verif.A64.Spec.A64_exact",
    "Verif.X86.Spec.C37_sse_binary",
    "Verif.X86.Spec.C37_sse_andn",
    "Verif.X86.Spec.C37_sse_average",
    "Verif.X86.Spec.C37_sse_mul_high",
    "Verif.X86.Spec.C37_sse_mul_long",
    "Verif.X86.Spec.C37_sse_pmaddwd",
    "Verif.X86.Spec.C37_sse_pmaddubsw",
    "Verif.X86.Spec.C37_sse_saturating",
    "Verif.X86.Spec.C37_sse_psadbw",
    "Verif.X86.Spec.C37_sse_pack",
    "Verif.X86.Spec.C37_sse_compare",
    "Verif.X86.Spec.C37_sse_minmax",
    "Verif.X86.Spec.C37_sse_abs",
    "Verif.X86.Spec.C37_sse_sign",
    "Verif.X86.Spec.C37_sse_shift",
    "Verif.X86.Spec.C37_sse_extend",
    "Verif.X86.Spec.C37_sse_movmsk_partial",
    "Verif.X86.Spec.C37_movmsk_counterexample",
    "Verif.X86.Spec.setXs_lane"
   ],
   "note": "SSE: everything but 32-bit MOVMSK destinations (assertion). AArch64: register shifts by at least the element size, right shifts by the element size and scalar single-precision compares are wrong."
  },
  {
   "property": "C38",
   "status": "partial",
   "theorems": [
    "Verif.A64.Spec.C38_a64",
    "Verif.A64.Spec.C38_zip_uzp",
    "Verif.A64.Spec.C38_rev_rev",
    "Verif.X86.Spec.C38_sse_unpack",
    "Verif.X86.Spec.C38_sse_shufpd",
    "Verif.X86.Spec.C38_sse_shufps",
    "Verif.X86.Spec.C38_sse_pshufd",
    "Verif.X86.Spec.C38_sse_pshufw_partial",
    "Verif.X86.Spec.C38_sse_insertps",
    "Verif.X86.Spec.C38_sse_pinsr",
    "Verif.X86.Spec.C38_sse_pextr",
    "Verif.X86.Spec.C38_sse_movdup_partial",
    "Verif.X86.Spec.C38_sse_byte_shift",
    "Verif.X86.Spec.C38_sse_palignr",
    "Verif.X86.Spec.C38_sse_movhlps",
    "Verif.X86.Spec.C38_pshufhw_counterexample",
    "Verif.X86.Spec.C38_movddup_counterexample"
   ],
   "note": "AArch64 completely. SSE except PSHUFHW, which reads its selectors from the wrong bits, and MOVDDUP from misaligned memory (counterexamples)."
  },
  {
   "property": "C48",
   "status": "partial",
   "theorems": [
    "Verif.X86.Spec.C37_sse_binary",
    "Verif.X86.Spec.C48_addsub",
    "Verif.X86.Spec.C48_sqrt",
    "Verif.X86.Spec.C48_minmax_partial",
    "Verif.X86.Spec.C48_compare_partial",
    "Verif.X86.Spec.C48_comis",
    "Verif.X86.Spec.C48_convert_partial",
    "Verif.X86.Spec.C48_cvttsi_partial",
    "Verif.X86.Spec.C48_cvtsi",
    "Verif.X86.Spec.C48_minss_counterexample",
    "Verif.X86.Spec.C48_cmpss_counterexample",
    "Verif.X86.Spec.C48_cvttsd2si_counterexample",
    "Verif.X86.Spec.C48_cvttps2dq_counterexample",
    "Verif.X86.Spec.C48_compare_avx",
    "Verif.Fp.arith_ieee",
    "Verif.Fp.sqrt_ieee",
    "Verif.Fp.conv_ieee",
    "Verif.Fp.ofInt_ieee"
   ],
   "note": "Out-of-range truncating conversions give poison, scalar MIN/MAX/CMP operands in misaligned memory are undefined (counterexamples). Rounding to nearest, results proved to be the IEEE values; NaN results as computed by x86 for both sides."
  },
  {
   "property": "C49",
   "status": "proved",
   "theorems": [
    "Verif.X86.Spec.C49_fxrstor",
    "Verif.X86.Spec.C49_fxsave",
    "Verif.X86.Spec.C49_fxsave_fxrstor",
    "Verif.X86.Spec.C49_mxcsr_counterexample"
   ],
   "note": "All operands for which there is code (see C41). Beyond the statement: the x87 and MXCSR fields of the saved area are zero (counterexample)."
  },
  {
   "property": "C42",
   "status": "proved",
   "theorems": [
    "Verif.A64.Spec.C42_div",
    "Verif.A64.Spec.C42_mul",
    "Verif.A64.Spec.C42_madd",
    "Verif.A64.Spec.C42_maddl",
    "Verif.A64.Spec.C42_mulh",
    "Verif.A64.Spec.C42_bits"
   ],
   "note": ""
  },
  {
   "property": "C46",
   "status": "partial",
   "theorems": [
    "Verif.A64.Spec.C46_fmov_partial",
    "Verif.A64.Spec.C46_fmov_h_counterexample",
    "Verif.A64.Spec.fmov_h_exact",
    "Verif.A64.Spec.A64_exact"
   ],
   "note": "FMOV to a half-precision register writes 32 or 64 bits (counterexample)."
  },
  {
   "property": "C47",
   "status": "partial",
   "theorems": [
    "Verif.A64.Spec.C47_move",
    "Verif.A64.Spec.C47_system",
    "Verif.A64.Spec.C47_barrier_partial",
    "Verif.A64.Spec.C47_dmb_counterexample",
    "Verif.A64.Spec.A64_exact"
   ],
   "note": "DMB with a reserved type fails an assertion."
  },
  {
   "property": "C50",
   "status": "proved",
   "theorems": [
    "Verif.Lift.C50_phi_nodes",
    "Verif.Lift.C50_reads_defined",
    "Verif.RegFile.C50_known_stays",
    "Verif.RegFile.C50_looked_up_once"
   ],
   "note": "For every decode history. The assertion on the number of predecessors in FillPhis is C08."
  },
  {
   "property": "C51",
   "status": "partial",
   "theorems": [
    "Verif.RV64.C51_rv64_fp_partial",
    "Verif.RV64.C51_nan_counterexample",
    "Verif.RV64.C51_rm_counterexample",
    "Verif.RV64.C51_fma_counterexample",
    "Verif.RV64.C51_minmax_counterexample",
    "Verif.RV64.C51_ofInt_counterexample",
    "Verif.RV64.C51_toInt_counterexample",
    "Verif.RV64.C51_range_counterexample",
    "Verif.RV64.C51_unboxed_counterexample",
    "Verif.RV64.Spec.canon_arith",
    "Verif.RV64.Spec.canon_sqrt",
    "Verif.RV64.Spec.canon_fma",
    "Verif.RV64.Spec.canon_conv",
    "Verif.Lift.RV64.C09_rv64_fp_partial",
    "Verif.Lift.RV64.C09_rv64_call_partial"
   ],
   "note": "All instructions and operands except those refuted by the counterexamples; arithmetic with rounding modes other than to nearest even is not specified. The specified results are proved to be the IEEE 754 results."
  },
  {
   "property": "C52",
   "status": "partial",
   "theorems": [
    "Verif.A64.Spec.C52_a64_fp_partial",
    "Verif.A64.Spec.C52_convert",
    "Verif.A64.Spec.C52_arith_lane",
    "Verif.A64.Spec.C52_sqrt_lane",
    "Verif.A64.Spec.C52_spec_ieee",
    "Verif.A64.Spec.C52_spec_fixed",
    "Verif.A64.Spec.C52_spec_ofFixed",
    "Verif.A64.Spec.C52_fmadd_counterexample",
    "Verif.A64.Spec.C52_fmla_counterexample",
    "Verif.A64.Spec.C52_fmax_nan_counterexample",
    "Verif.A64.Spec.C52_fmaxnm_snan_counterexample",
    "Verif.A64.Spec.C52_fmin_zero_counterexample",
    "Verif.A64.Spec.C52_fcvt_range_counterexample",
    "Verif.A64.Spec.C52_fcvtzu_counterexample",
    "Verif.A64.Spec.C52_fcvt_nan_counterexample",
    "Verif.A64.Spec.C52_fmul_elem_counterexample",
    "Verif.A64.Spec.C52_default_nan_counterexample",
    "Verif.A64.Spec.C52_frint32_rejected"
   ],
   "note": "All instructions and operands except those refuted by the counterexamples, for FPCR = 0 and without exception flags; half precision is not specified. The specified results are proved to be the IEEE 754 results."
  },
  {
   "property": "C53",
   "status": "proved",
   "theorems": [
    "Verif.X86.Spec.C53_cpuid",
    "Verif.X86.Spec.C53_rdtsc",
    "Verif.Lift.X86.C09_x86_partial"
   ],
   "note": "The cpuinfo function has no side effects on the guest; CPUID is also covered end to end."
  },
  {
   "property": "C54",
   "status": "partial",
   "theorems": [
    "Verif.X86.Spec.C54_x86_ctl_partial",
    "Verif.X86.Spec.C54_x86_counterexample",
    "Verif.RV64.C54_rv64_csr_partial",
    "Verif.RV64.C54_rv64_other",
    "Verif.RV64.C54_rv64_counterexample",
    "Verif.A64.Spec.C54_a64_fpctl_partial",
    "Verif.A64.Spec.C54_a64_counterexample"
   ],
   "note": "Right as long as the registers keep their initial values; written values are lost (counterexamples)."
  },
  {
   "property": "C55",
   "status": "partial",
   "theorems": [
    "Verif.Lift.C55_unchanged",
    "Verif.Lift.C55_lift_again",
    "Verif.Lift.C55_lift_again_ssa_partial",
    "Verif.Lift.RV64.C55_missed_edge_counterexample"
   ],
   "note": "Histories in all theorems contain ll_func_lift calls; the same outcome and the same code for every history, the same results with SSA and placed stores for histories that miss no edge (see C08); false otherwise."
  },
  {
   "property": "C56",
   "status": "proved",
   "theorems": [
    "Verif.X86.Spec.C56_x86_address",
    "Verif.X86.Spec.C56_x86_native",
    "Verif.X86.Spec.C56_x86_native_arch",
    "Verif.X86.Spec.C56_no_code",
    "Verif.X86.Spec.C56_global_base_needed",
    "Verif.RV64.C56_rv64_address"
   ],
   "note": "All operands. For RIP-relative operands with a segment or 32-bit address size there is no code in any configuration (C41). The AArch64 lifter uses none of these options."
  },
  {
   "property": "C57",
   "status": "partial",
   "theorems": [
    "Verif.Lift.X86.C57_x86_partial",
    "Verif.Lift.A64.C57_a64_partial",
    "Verif.Lift.RV64.C57_rv64_partial",
    "Verif.Lift.X86.C57_redirect_counterexample",
    "Verif.Lift.RV64.C57_rv64_pc_counterexample"
   ],
   "note": "All functions that continue behind an instruction that the decoder takes for a plain one; jumps from such functions are lost in the middle of a block. On RV64 and AArch64 the function finds the address of the overridden instruction in the program counter and has to advance it."
  },
  {
   "property": "C58",
   "status": "partial",
   "theorems": [
    "Verif.Lift.C58_unchanged",
    "Verif.Lift.X86.C58_x86_partial",
    "Verif.Lift.A64.C58_a64_partial",
    "Verif.Lift.RV64.C58_rv64_partial",
    "Verif.Lift.X86.C58_failed_counterexample"
   ],
   "note": "Also together with overrides. On x86-64 the address is the end of the instruction. False for instructions that cannot be lifted."
  },
  {
   "property": "C59",
   "status": "partial",
   "theorems": [
    "Verif.Lift.C59_chain_partial",
    "Verif.Lift.C59_loop_partial",
    "Verif.Lift.C59_progress_partial",
    "Verif.Lift.C59_shortcut_partial",
    "Verif.Lift.X86.C59_x86_partial",
    "Verif.Lift.A64.C59_a64_partial",
    "Verif.Lift.RV64.C59_rv64_partial"
   ],
   "note": "Under the conditions of C09 for each function of the table: up to an instruction outside the proved set."
  },
  {
   "property": "C60",
   "status": "partial",
   "theorems": [
    "Verif.Lift.C60_determined_partial",
    "Verif.Lift.C60_determined_drop_partial",
    "Verif.Lift.C60_chain_partial",
    "Verif.Lift.X86.C60_x86_partial",
    "Verif.Lift.A64.C60_a64_partial",
    "Verif.Lift.RV64.C60_rv64_partial"
   ],
   "note": "Under the conditions of C09. The guest state is the part of the CPU struct that the relation (XRel, ARel, rvRelF) determines."
  },
  {
   "property": "C61",
   "status": "partial",
   "theorems": [
    "Verif.Lift.C61_returns_partial",
    "Verif.Lift.C61_nested_partial",
    "Verif.Lift.C61_base_partial",
    "Verif.Lift.X86.C61_x86_partial",
    "Verif.Lift.A64.C61_a64_partial",
    "Verif.Lift.RV64.C61_rv64_partial"
   ],
   "note": "Under the conditions of C09, with a lifted function for every executed address; without the omission of stores of undefined values."
  },
  {
   "property": "C62",
   "status": "partial",
   "theorems": [
    "Verif.Conc.run_sync",
    "Verif.Conc.RV64.C62_rv64_partial",
    "Verif.Conc.RV64.C62_rv64_counter",
    "Verif.Conc.RV64.C62_lrsc_counterexample",
    "Verif.Conc.X86.C62_x86_partial",
    "Verif.Conc.X86.C62_x86_counter",
    "Verif.Conc.A64.C62_a64_partial",
    "Verif.Conc.A64.C62_a64_message",
    "Verif.Conc.A64.C62_a64_exclusive_counterexample"
   ],
   "note": "Interleavings of whole accesses (sequential consistency), single instructions as in C09, and on x86-64 and AArch64 instructions with one memory access, which includes those with the LOCK prefix. False for LR/SC and LDXR/STXR: the store never fails."
  },
  {
   "property": "C63",
   "status": "partial",
   "theorems": [
    "Verif.Conc.C63_race_free",
    "Verif.Conc.C63_run",
    "Verif.Conc.C63_release_acquire",
    "Verif.Conc.C63_message",
    "Verif.Conc.Exec.C63_weak_release_acquire",
    "Verif.Conc.Exec.C63_weak_read",
    "Verif.Conc.C63_interleaving",
    "Verif.Conc.C63_race_free_interleaving",
    "Verif.Conc.C63_rmw_interleaving",
    "Verif.Conc.X86.C63_x86_race_free",
    "Verif.Conc.X86.C63_x86_processors_partial",
    "Verif.Conc.X86.C63_x86_counter",
    "Verif.Conc.RV64.C63_rv64_processors_partial",
    "Verif.Conc.RV64.C63_rv64_counter",
    "Verif.Conc.RV64.C63_rv64_race_free",
    "Verif.Conc.A64.C63_a64_message",
    "Verif.Conc.A64.C63_a64_weak_message",
    "Verif.Conc.Exec.C63_weak_message",
    "Verif.Conc.RV64.C63_rv64_weak_message",
    "Verif.Conc.X86.C63_x86_weak_message",
    "Verif.Conc.Exec.C63_weak_mutex",
    "Verif.Conc.RV64.C63_rv64_mutex",
    "Verif.Conc.X86.C63_x86_mutex",
    "Verif.Conc.Exec.C63_weak_critical_sections",
    "Verif.Conc.Exec.C63_weak_locked_counter",
    "Verif.Conc.RV64.C63_rv64_locked_counter",
    "Verif.Conc.X86.C63_x86_locked_counter",
    "Verif.Conc.Exec.C63_weak_store_buffering",
    "Verif.Conc.RV64.C63_rv64_store_buffering",
    "Verif.Conc.X86.C63_x86_store_buffering",
    "Verif.Conc.RV64.C63_rv64_amo",
    "Verif.Conc.X86.C63_x86_lock",
    "Verif.Conc.X86.C63_x86_fence",
    "Verif.Conc.A64.C63_a64_ldar",
    "Verif.Conc.A64.C63_a64_stlr",
    "Verif.Conc.A64.C63_a64_dmb",
    "Verif.Conc.X86.C63_x86_message_counterexample",
    "Verif.Conc.RV64.C63_rv64_fence_counterexample",
    "Verif.Conc.A64.C63_a64_dmb_counterexample",
    "Verif.Conc.RV64.C63_rv64_lrsc_counterexample",
    "Verif.Conc.A64.C63_a64_stlr_ldar_counterexample"
   ],
   "note": "Race-free executions see the last write, for every program; every interleaving is an execution that LLVM allows, and every execution that LLVM allows, has no data race and whose atomic accesses are sequentially consistent (always so for x86-64 code) is an interleaving; also every one whose accesses are all atomic read-modify-writes of one location, with any orderings, so that counters lose no update (LOCK ADD, AMOADD); message passing with STLR/LDAR, for all interleavings and for all executions that LLVM's rules allow, for the latter also with AMOs and XCHG; mutual exclusion with AMOSWAP and XCHG, for any number of threads and all these executions; critical sections of a lock are ordered, so that a counter that is read and written with ordinary accesses in them loses no update; of two threads that announce themselves and then look at each other (XCHG, AMOSWAP.aqrl) at least one sees the other; the orderings that AMOs, locked instructions, LDAR/STLR and fences get. False for STLR followed by LDAR, which LLVM may exchange. False for ordinary accesses: they become non-atomic, and LLVM returns undef where the guest orders them (x86-64 always, RV64 with FENCE, AArch64 with DMB), and aq/rl of LR/SC are ignored."
  },
  {
   "property": "C64",
   "status": "proved",
   "theorems": [
    "Verif.Lift.C17_untouched_ssa",
    "Verif.Lift.RV64.C17_untouched_rv64",
    "Verif.Lift.X86.C17_untouched_x86",
    "Verif.Lift.A64.C17_untouched_a64"
   ],
   "note": "Every decode history, also those for which the lifted function is wrong (C09_decode_block_counterexample). Value of the register in the CPU struct, so the bytes of a flag are covered as long as they are not stored, which is what is proved."
  },
  {
   "property": "C65",
   "status": "proved",
   "theorems": [
    "Verif.Lift.RV64.C65_rv64",
    "Verif.Lift.A64.C65_a64",
    "Verif.Lift.X86.C65_x86",
    "Verif.Lift.C15_packs_terminate"
   ],
   "note": "The two excluded cases are stated in the property and real (C09_syscall_counterexample, C09_jal_counterexample); other ways of decoding are C08, C14 and C15."
  },
  {
   "property": "C66",
   "status": "proved",
   "theorems": [
    "Verif.RV64.RV64_exact",
    "Verif.RV64.RV64_defect",
    "Verif.A64.Spec.A64_exact",
    "Verif.X86.Spec.X86_exact",
    "Verif.X86.Spec.adc_exact",
    "Verif.X86.Spec.X86_sse_exact",
    "Verif.X86.Spec.X86_exact_all"
   ],
   "note": "Lists: Spec.does/NoDefect (RV64), A64.Spec.Exact, X86.Spec.Exact, X86.Spec.SseExact. x86-64: well-formed instructions as the decoder delivers them, without string instructions with 32-bit addresses or segment overrides; AArch64: without floating-point arithmetic; no call function."
  },
  {
   "property": "C67",
   "status": "proved",
   "theorems": [
    "Verif.Lift.RV64.C67_rv64",
    "Verif.Lift.A64.C67_a64",
    "Verif.Lift.X86.C67_x86",
    "Verif.Lift.C67_wellformed",
    "Verif.Lift.C67_values",
    "Verif.Lift.C67_alive",
    "Verif.Lift.C67_same",
    "Verif.Lift.C67_same_ssa",
    "Verif.Lift.RV64.C67_decode_block_counterexample"
   ],
   "note": "Of LLVM's verifier, the conditions that depend on the control-flow graph are modelled, not types and attributes. Functions decoded with ll_func_decode_block are outside of the statement; for them it is false (counterexample)."
  },
  {
   "property": "C68",
   "status": "proved",
   "theorems": [
    "Verif.X86.C68_mnemonics",
    "Verif.X86.C68_other",
    "Verif.X86.Spec.C68_exact"
   ],
   "note": "The switch is transcribed row by row from lifter.cc by a script. TZCNT, LZCNT, FLDCW and LDMXCSR get the code of their operation as modelled, which is wrong or ignores the operand (findings of C45 and C66)."
  },
  {
   "property": "C69",
   "status": "partial",
   "theorems": [
    "Verif.Lift.C69_calls_partial",
    "Verif.Lift.C69_exact",
    "Verif.Lift.C69_inline_counterexample"
   ],
   "note": "True for functions that are not inlined; false for every function that is: the address of the deleted call instruction is used afterwards (C69_exact: exactly then). The instructions of the inlined function are not modelled."
  },
  {
   "property": "C70",
   "status": "proved",
   "theorems": [
    "Verif.Facet.C70_size",
    "Verif.Facet.C70_size_le",
    "Verif.Facet.C70_from_type",
    "Verif.Facet.C70_resolve",
    "Verif.Facet.C70_resolve_bits",
    "Verif.Facet.C70_resolve_defined",
    "Verif.Facet.C70_int_defined",
    "Verif.Facet.C70_size_counterexample"
   ],
   "note": "About the choice of the type (facet.cc, facet.inc). Sizes that are not powers of two are outside of the statement (C70_size_counterexample). That the accesses then have the semantics of the operand is in the properties of the instructions."
  }
 ]
}