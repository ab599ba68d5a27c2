#!/usr/bin/env python3
"""Regenerates MANIFEST.json.  Run from anywhere."""
import json, os
C = []
def c(prop, status, theorems, note=""):
    C.append(dict(property=prop, status=status, theorems=theorems, note=note))
D = "Verif.Decode."
c("C01", "proved", [D+"C01_decoded_once", D+"C01_genuine", D+"C01_stable"],
  "For all classifications, decoders and histories of decode calls.")
c("C02", "proved", [D+"C02_decode_cfg_closed", D+"C02_decode_cfg_exact"],
  "Closure after any history; exact reachable set on a fresh function.")
c("C03", "proved", [D+"C03_decode_terminates", D+"C03_decode_returns", D+"C03_bounded", D+"C03_reserved_counterexample", D+"C03_returns_below", D+"C03_both_reserved_counterexample"],
  "Linear step bound. The two hash-map-reserved keys are an explicit UB outcome; without them the call returns.")
c("C04", "proved", [D+"C04_ranges_exact"],
  "Hypothesis: fewer than 2^64 code bytes in total (always met unless a stream wraps the whole address space).")
c("C05", "proved", [D+"C05_decode_instr", D+"C05_decode_block"], "")
c("C06", "proved", [D+"C06_blocks_contiguous", D+"C06_block_run"], "")
c("C08", "partial", [D+"C08_preds_exact_partial", D+"C08_preds_le", D+"C08_preds_block", D+"C08_counted_block", D+"C08_counted_one_block", D+"C08_counted_one_instr", D+"C08_decode_block_counterexample", "Verif.Lift.C08_graph_preds_partial"],
  "False in general (counterexample); never too large; exact for decode_cfg histories, for a single decode_block call, and for decode_block histories in which no block starts right after a conditional branch or call.")
F = "Verif.RegFile."
c("C11", "partial", [F+"C11_flat_register_partial", F+"C11_register_file_partial", F+"C11_high_byte_counterexample"],
  "All access histories, caching choices and inheritance chains. AH..DH reads after a pointer view of the register fail an assertion (counterexample).")
c("C12", "proved", [F+"C12_partial_writes", F+"C12_vector_merge"], "")
c("C13", "proved", [F+"C13_lazy_flags"], "Flag values stated arithmetically.")
R = "Verif.RV64."
c("C27", "proved", [R+"C27_rv64_alu"], "All RV64I computational instructions and M multiplications.")
c("C28", "partial", [R+"C28_rv64_divu_rem", R+"C28_rv64_div_partial", R+"C28_div_counterexample", R+"RV64_exact", R+"RV64_defect"],
  "RV64_exact and RV64_defect prove that the exceptions of C28, C29, C31 and C43 are exactly the states in which the code is wrong. Signed DIV/DIVW by -1 returns the dividend instead of its negation (counterexample); everything else proved.")
c("C29", "partial", [R+"C29_rv64_bitmanip_partial", R+"C29_clmulr_counterexample", R+"RV64_exact", R+"RV64_defect"],
  "clmulr misses the partial product of rs2 bit 63 (counterexample); everything else proved.")
c("C30", "proved", [R+"C30_x0"], "Non-interference for every instruction.")
c("C36", "partial", [R+"C36_rv64_partial", "Verif.A64.C36_a64_partial", "Verif.X86.C36_x86_partial", R+"C36_ecall_counterexample", R+"C36_unhandled_counterexample", "Verif.A64.Spec.C36_a64_svc", "Verif.A64.Spec.C36_a64_unhandled", R+"C27_rv64_alu", R+"C31_rv64_branch", "Verif.Lift.RV64.C09_rv64_partial", "Verif.Lift.RV64.C09_rv64_call_partial", "Verif.Lift.A64.C09_a64_partial", "Verif.Lift.X86.C09_x86_partial"],
  "For every instruction that can be lifted (except ECALL and SVC), offset and state, also those with undefined behaviour or wrong results: the code lifted at start and run with displacement d equals the code lifted at start+d.  ECALL, SVC and instructions that cannot be lifted violate it (counterexamples).  Whole functions: the end-to-end theorems hold for all displacements.")
c("C43", "partial", [R+"C43_rv64_load_partial", R+"C43_rv64_store_partial", R+"C43_misaligned_counterexample", R+"C43_rv64_amo", R+"C43_rv64_lr", R+"C43_rv64_sc_partial", R+"C43_sc_counterexample", R+"C43_amo_ordering", R+"RV64_does", R+"RV64_exact", R+"RV64_defect"],
  "Natural alignment assumed by the emitted loads/stores; SC with rd=rs1/rs2 wrong (counterexamples).")
c("C44", "partial", [R+"C44_rv64_fmove", R+"C44_rv64_fmove32_partial", R+"C44_nanbox_counterexample", R+"C44_rv64_fclass_partial", R+"C44_fclass_counterexample", R+"C44_rv64_fsgnjd"],
  "No NaN boxing; FCLASS yields class number instead of mask (counterexamples).")
L = "Verif.Lift."
c("C07", "proved", [L+"C07_branch_resolution"], "For every decode history and lifter; the program counter mode is the lifter's.")
c("C09", "partial", [L+"C09_simulation_partial", L+"C09_simulation_drop_partial", L+"C09_total_partial", L+"RV64.C09_rv64_partial", L+"RV64.C09_rv64_fp_partial", L+"RV64.C09_rv64_call_partial", L+"RV64.rvItems_lift", L+"A64.C09_a64_partial", L+"X86.C09_x86_partial", "Verif.X86.Spec.X86_instruction_partial", L+"X86.C09_syscall_counterexample", L+"RV64.C09_decode_block_counterexample", L+"RV64.C09_jal_counterexample"],
  "Whole-function simulation on top of per-instruction correctness, and end to end for RV64, AArch64 and x86-64 (general-purpose and SSE instructions); histories that miss no edge (decode_cfg, single decode_block; see C08); false for other decode_block histories and for JAL to a non-link register with a call function, and for SYSCALL without a system call function.")
c("C10", "partial", ["Verif.IR.Pc.C10_offset", L+"C10_exit_pc_partial", L+"C09_total_partial", L+"RV64.C09_rv64_call_partial", L+"A64.C09_a64_partial", L+"X86.C09_x86_partial"], "The returned CPU struct has the guest's next program counter.")
c("C14", "partial", [L+"C14_ssa_partial", L+"RV64.C09_decode_block_counterexample"], "Histories that miss no edge (decode_cfg, single decode_block; see C08); false for other decode_block histories.")
c("C15", "partial", [L+"C15_packs_terminate", L+"C15_observable_partial"],
  "Same observable CPU struct states as storing everything at every pack; histories that miss no edge (see C08).")
S = "Verif.CpuStruct."
c("C16", "proved", [S+"C16_layout", S+"C16_rejects", S+"C16_x86", S+"C16_rv64", S+"C16_a64", S+"C16_pointer_index", S+"C16_x86_header", S+"C16_rv64_header", S+"C16_a64_header", S+"C16_named_pointer", S+"C16_pointers", S+"C16_x86_segment_pointers", S+"C16_a64_thread_pointer"],
  "Generic facts about the parser, and the three complete tables evaluated by the kernel.")
c("C17", "partial", [L+"C17_untouched", L+"C17_untouched_ssa", S+"C17_pack", S+"C17_frame", S+"C17_inside", S+"C17_identity", S+"C17_flag_byte_counterexample"],
  "Untouched registers for every history (C64); pack/unpack laws for all struct contents, flags must be 0 or 1 in memory.")
G = "Verif.Config."
c("C40", "proved", [G+"C40_setter", G+"C40_last_write", G+"C40_commute", G+"C40_architecture", G+"C40_convention", G+"C40_convention_new", G+"C40_defaults", G+"C40_default_architecture", G+"C40_convention_set", G+"C40_from_function", G+"C40_lifted_accepted", G+"C40_default_counterexample", G+"C40_syscall_null_counterexample"],
  "All histories. The convention matches the architecture if x86-64 is built in or an architecture was selected (the header warns about the other case); NULL is no valid argument of two setters.")
c("C39", "partial", [L+"C39_null_iff_partial", L+"C39_address_zero_counterexample"], "Entry address 0 excluded. Verification: C67.")
X = "Verif.X86.Spec."
def xs(*names): return [X+n for n in names]
c("C18", "proved", xs("C18_add_sub_cmp","C18_neg","C18_inc_dec","C18_logic","C18_not","C18_locked_neg_counterexample"),
  "All operand forms the lifter has code for, with and without overflow intrinsics; locked forms need an aligned destination, a locked NEG fails an assertion (counterexample).")
c("C19", "partial", xs("C19_adc_sbb_partial","C19_adc_sbb_no_carry","C19_adc_carry_counterexample","C19_sbb_carry_counterexample","C19_adc_overflow_counterexample","C19_adc_aux_counterexample","adc_exact"),
  "Results and ZF/SF/PF always; CF, OF, AF are wrong for three operand patterns when CF=1 (counterexamples), right otherwise (adc_exact: if and only if).")
c("C20", "proved", xs("C20_cmp_condition","C20_negation","C20_cmp_jcc","C20_setcc","C20_cmovcc","C20_jcc"), "")
c("C21", "partial", xs("C21_pushf","C21_popf","C21_lahf","C21_sahf","rflags_image","C21_pushf_popf","C21_popf_pushf","C21_sahf_lahf","popf_wrong","lahf_exact","C25_popf16_counterexample"),
  "64-bit POPF only (16-bit POPF is wrong), aligned stack; LAHF needs OF and DF to be defined.")
c("C22", "partial", xs("C22_shift","C22_shift_partial","C22_shiftd_partial","C22_rotate_partial","shiftd_exact","X86_exact","C22_shift_zero_counterexample","C22_shiftd_upper_counterexample","C22_rotate_flags_counterexample","C22_shiftd_counterexample"),
  "Zero counts clobber the flags (and for double shifts the upper half); CF/OF of rotates and double shifts are undefined; 16-bit double shift by 16 wrong.")
c("C23", "partial", xs("C23_mul","C23_imul","C23_div_partial","C23_div_identity","X86_exact","C23_div_null_counterexample"),
  "Everything except IDIV with an upper half that is an arithmetic shift by a variable amount (null dereference in the lifter).")
c("C24", "partial", xs("C24_strings_partial","rep_defined","C24_zero_count","str_exact","C24_alignment_counterexample","C24_segment_counterexample","C24_address_size_counterexample"),
  "All counts, directions, memories; 64-bit address size, no segment override, pointers aligned to the element size.")
c("C25", "partial", xs("C25_push","C25_pop_partial","C25_leave","C25_call","C25_call_rel","C25_call_rel_function","C25_ret","C25_push_pop","pop_wrong","call_exact","X86_exact","C25_pop16_counterexample","C25_popf16_counterexample","C25_alignment_counterexample"),
  "Aligned stack; 16-bit POP is wrong.")
c("C26", "partial", xs("C26_xchg","C26_xadd_partial","C26_cmpxchg_partial","cmpxchg_exact","xadd_same_exact","X86_exact","C26_xadd_counterexample","C26_cmpxchg_counterexample","C26_cmpxchg_upper_counterexample"),
  "XADD with identical registers and CMPXCHG with the accumulator as destination are wrong; aligned memory. X86_exact proves for all general-purpose instructions (C18, C19, C21-C26, C41, C45) that these exclusions are exactly the states in which the code is wrong.")
c("C41", "partial", xs("C41_lea_partial","C41_load_partial","C41_store_partial","lea_exact","xlat_exact","jmp_exact","X86_exact","C41_lea_eip_counterexample","C41_fs_rip_counterexample","C41_gs_addr32_counterexample","C41_xlat_counterexample","C41_jmp_counterexample"),
  "All forms except EIP-relative, FS/GS with RIP or 32-bit address size, FS/GS on XLAT, JMP, CALL.")
c("C45", "partial", xs("C45_mov","C45_movzx","C45_movbe","C45_bswap","C45_cext","C45_csep","C45_bitscan_partial","C45_popcnt","C45_bittest","C45_xlat","C45_jmp","C45_jmp_rel","C45_jcxz","C45_loop","C45_flag_instructions","bitcnt_wrong","X86_exact","C45_lzcnt_counterexample","C45_tzcnt_counterexample","C45_sse_movq","C45_sse_movs_partial","C45_sse_movdq","C45_sse_movnt","C45_sse_movlp_partial","C45_sse_movhp_partial","C45_sse_prefetch","C45_sse_fence","C45_movss_counterexample","C45_movlps_counterexample","C45_movhps_counterexample"),
  "LZCNT and TZCNT are lifted as BSR and BSF; MOVSS/MOVSD/MOVLP*/MOVHP* stores claim an alignment the ISA does not require (counterexamples).")
A = "Verif.A64.Spec."
def a(*names): return [A+n for n in names]
c("C31", "partial", [R+"C31_rv64_branch", R+"C31_rv64_jump_partial", R+"C31_jalr_counterexample", R+"RV64_exact", R+"RV64_defect", R+"C31_rv64_ecall", "Verif.Lift.RV64.C09_rv64_call_partial"] + a("C31_a64_branch","C31_a64_bl","C31_a64_blr_partial","C31_a64_bl_function","C31_a64_blr_function_partial","C31_a64_ret","C31_blr_x30_counterexample","C31_blr_x30_wrong","blr_x30_exact","A64_exact"),
  "RV64: JALR does not clear bit 0 of an odd target (counterexample). A64: BLR X30 jumps to the next instruction (proved wrong in every state).")
c("C32", "partial", a("C32_binop_partial","C32_uxtx_counterexample","C32_adc_value","C32_adc_partial","C32_adcs_wrong","C32_adcs_counterexample","A64_exact"),
  "A64_exact proves that the exceptions of C31, C32, C35, C37 (except scalar floating-point comparisons), C46 and C47 are exactly the cases in which the code is wrong. 32-bit UXTX/SXTX operands assert; ADCS/SBCS set C or V wrongly exactly for two values of the second operand (C32_adcs_wrong is the converse of C32_adc_partial).")
c("C33", "proved", a("C33_condition","C33_cmp_condition","C33_cmp_bcond","C33_ccmp","C33_csel","C33_fcmp","C33_fccmp","C33_fcsel"), "")
c("C34", "partial", a("C34_bitfield","C34_bfc","C34_extr","C34_extend","C34_shift","C34_shift_reg","C32_binop_partial","C32_uxtx_counterexample"),
  "All bit fields; extended operands except UXTX/SXTX in 32-bit instructions, which fail an assertion.")
c("C35", "partial", a("C35_load","C35_load_pair","C35_store","C35_store_pair","C35_fp","C35_store_load","C35_structures","C35_prefetch_partial","C35_prefetch_counterexample","A64_exact"),
  "Ordered accesses must be aligned; prefetch type 3 fails an assertion.")
c("C37", "partial", a("C37_a64_partial","simdOk_of","C37_ushl_counterexample","C37_ushr_counterexample","C37_sshr_counterexample","C37_fcmeq_scalar_counterexample","A64_exact") + xs("C37_sse_binary","C37_sse_andn","C37_sse_average","C37_sse_mul_high","C37_sse_mul_long","C37_sse_pmaddwd","C37_sse_pmaddubsw","C37_sse_saturating","C37_sse_psadbw","C37_sse_pack","C37_sse_compare","C37_sse_minmax","C37_sse_abs","C37_sse_sign","C37_sse_shift","C37_sse_extend","C37_sse_movmsk_partial","C37_movmsk_counterexample","setXs_lane"),
  "SSE: everything but 32-bit MOVMSK destinations (assertion). AArch64: register shifts by at least the element size, right shifts by the element size and scalar single-precision compares are wrong.")
c("C38", "partial", a("C38_a64","C38_zip_uzp","C38_rev_rev") + xs("C38_sse_unpack","C38_sse_shufpd","C38_sse_shufps","C38_sse_pshufd","C38_sse_pshufw_partial","C38_sse_insertps","C38_sse_pinsr","C38_sse_pextr","C38_sse_movdup_partial","C38_sse_byte_shift","C38_sse_palignr","C38_sse_movhlps","C38_pshufhw_counterexample","C38_movddup_counterexample"),
  "AArch64 completely. SSE except PSHUFHW, which reads its selectors from the wrong bits, and MOVDDUP from misaligned memory (counterexamples).")
c("C48", "partial", xs("C37_sse_binary","C48_addsub","C48_sqrt","C48_minmax_partial","C48_compare_partial","C48_comis","C48_convert_partial","C48_cvttsi_partial","C48_cvtsi","C48_minss_counterexample","C48_cmpss_counterexample","C48_cvttsd2si_counterexample","C48_cvttps2dq_counterexample","C48_compare_avx") + ["Verif.Fp.arith_ieee", "Verif.Fp.sqrt_ieee", "Verif.Fp.conv_ieee", "Verif.Fp.ofInt_ieee"],
  "Out-of-range truncating conversions give poison, scalar MIN/MAX/CMP operands in misaligned memory are undefined (counterexamples). Rounding to nearest, results proved to be the IEEE values; NaN results as computed by x86 for both sides.")
c("C49", "proved", xs("C49_fxrstor","C49_fxsave","C49_fxsave_fxrstor","C49_mxcsr_counterexample"),
  "All operands for which there is code (see C41). Beyond the statement: the x87 and MXCSR fields of the saved area are zero (counterexample).")
c("C42", "proved", a("C42_div","C42_mul","C42_madd","C42_maddl","C42_mulh","C42_bits"), "")
c("C46", "partial", a("C46_fmov_partial","C46_fmov_h_counterexample","fmov_h_exact","A64_exact"), "FMOV to a half-precision register writes 32 or 64 bits (counterexample).")
c("C47", "partial", a("C47_move","C47_system","C47_barrier_partial","C47_dmb_counterexample","A64_exact"), "DMB with a reserved type fails an assertion.")
c("C50", "proved", [L+"C50_phi_nodes", L+"C50_reads_defined", "Verif.RegFile.C50_known_stays", "Verif.RegFile.C50_looked_up_once"], "For every decode history. The assertion on the number of predecessors in FillPhis is C08.")
c("C51", "partial", [R+n for n in ("C51_rv64_fp_partial", "C51_nan_counterexample", "C51_rm_counterexample", "C51_fma_counterexample", "C51_minmax_counterexample", "C51_ofInt_counterexample", "C51_toInt_counterexample", "C51_range_counterexample", "C51_unboxed_counterexample", "Spec.canon_arith", "Spec.canon_sqrt", "Spec.canon_fma", "Spec.canon_conv")] + [L+"RV64.C09_rv64_fp_partial", L+"RV64.C09_rv64_call_partial"],
  "All instructions and operands except those refuted by the counterexamples; arithmetic with rounding modes other than to nearest even is not specified. The specified results are proved to be the IEEE 754 results.")
c("C52", "partial", a("C52_a64_fp_partial", "C52_convert", "C52_arith_lane", "C52_sqrt_lane", "C52_spec_ieee", "C52_spec_fixed", "C52_spec_ofFixed", "C52_fmadd_counterexample", "C52_fmla_counterexample", "C52_fmax_nan_counterexample", "C52_fmaxnm_snan_counterexample", "C52_fmin_zero_counterexample", "C52_fcvt_range_counterexample", "C52_fcvtzu_counterexample", "C52_fcvt_nan_counterexample", "C52_fmul_elem_counterexample", "C52_default_nan_counterexample", "C52_frint32_rejected"),
  "All instructions and operands except those refuted by the counterexamples, for FPCR = 0 and without exception flags; half precision is not specified. The specified results are proved to be the IEEE 754 results.")
c("C53", "proved", xs("C53_cpuid", "C53_rdtsc") + [L+"X86.C09_x86_partial"], "The cpuinfo function has no side effects on the guest; CPUID is also covered end to end.")
c("C54", "partial", xs("C54_x86_ctl_partial", "C54_x86_counterexample") + [R+"C54_rv64_csr_partial", R+"C54_rv64_other", R+"C54_rv64_counterexample"] + a("C54_a64_fpctl_partial", "C54_a64_counterexample"),
  "Right as long as the registers keep their initial values; written values are lost (counterexamples).")
c("C55", "partial", [L+"C55_unchanged", L+"C55_lift_again", L+"C55_lift_again_ssa_partial", L+"RV64.C55_missed_edge_counterexample"],
  "Histories in all theorems contain ll_func_lift calls; the same outcome and the same code for every history, the same results with SSA and placed stores for histories that miss no edge (see C08); false otherwise.")
c("C56", "proved", xs("C56_x86_address", "C56_x86_native", "C56_x86_native_arch", "C56_no_code", "C56_global_base_needed") + [R+"C56_rv64_address"],
  "All operands. For RIP-relative operands with a segment or 32-bit address size there is no code in any configuration (C41). The AArch64 lifter uses none of these options.")
c("C57", "partial", [L+"X86.C57_x86_partial", L+"A64.C57_a64_partial", L+"RV64.C57_rv64_partial", L+"X86.C57_redirect_counterexample", L+"RV64.C57_rv64_pc_counterexample"],
  "All functions that continue behind an instruction that the decoder takes for a plain one; jumps from such functions are lost in the middle of a block. On RV64 and AArch64 the function finds the address of the overridden instruction in the program counter and has to advance it.")
c("C58", "partial", [L+"C58_unchanged", L+"X86.C58_x86_partial", L+"A64.C58_a64_partial", L+"RV64.C58_rv64_partial", L+"X86.C58_failed_counterexample"],
  "Also together with overrides. On x86-64 the address is the end of the instruction. False for instructions that cannot be lifted.")
def arch3(n): return [L+"X86."+n+"_x86_partial", L+"A64."+n+"_a64_partial", L+"RV64."+n+"_rv64_partial"]
c("C59", "partial", [L+"C59_chain_partial", L+"C59_loop_partial", L+"C59_progress_partial", L+"C59_shortcut_partial"] + arch3("C59"),
  "Under the conditions of C09 for each function of the table: up to an instruction outside the proved set.")
c("C60", "partial", [L+"C60_determined_partial", L+"C60_determined_drop_partial", L+"C60_chain_partial"] + arch3("C60"),
  "Under the conditions of C09. The guest state is the part of the CPU struct that the relation (XRel, ARel, rvRelF) determines.")
c("C61", "partial", [L+"C61_returns_partial", L+"C61_nested_partial", L+"C61_base_partial"] + arch3("C61"),
  "Under the conditions of C09, with a lifted function for every executed address; without the omission of stores of undefined values.")
V = "Verif.Conc."
c("C62", "partial", [V+"run_sync", V+"RV64.C62_rv64_partial", V+"RV64.C62_rv64_counter", V+"RV64.C62_lrsc_counterexample", V+"X86.C62_x86_partial", V+"X86.C62_x86_counter", V+"A64.C62_a64_partial", V+"A64.C62_a64_message", V+"A64.C62_a64_exclusive_counterexample"],
  "Interleavings of whole accesses (sequential consistency), single instructions as in C09, and on x86-64 and AArch64 instructions with one memory access, which includes those with the LOCK prefix. False for LR/SC and LDXR/STXR: the store never fails.")
c("C63", "partial", [V+"C63_race_free", V+"C63_run", V+"C63_release_acquire", V+"C63_message", V+"Exec.C63_weak_release_acquire", V+"Exec.C63_weak_read", V+"C63_interleaving", V+"C63_race_free_interleaving", V+"C63_rmw_interleaving", V+"X86.C63_x86_race_free", V+"X86.C63_x86_processors_partial", V+"X86.C63_x86_counter", V+"RV64.C63_rv64_processors_partial", V+"RV64.C63_rv64_counter", V+"RV64.C63_rv64_race_free", V+"A64.C63_a64_message", V+"A64.C63_a64_weak_message", V+"Exec.C63_weak_message", V+"RV64.C63_rv64_weak_message", V+"X86.C63_x86_weak_message", V+"Exec.C63_weak_mutex", V+"RV64.C63_rv64_mutex", V+"X86.C63_x86_mutex", V+"Exec.C63_weak_critical_sections", V+"Exec.C63_weak_locked_counter", V+"RV64.C63_rv64_locked_counter", V+"X86.C63_x86_locked_counter", V+"Exec.C63_weak_store_buffering", V+"RV64.C63_rv64_store_buffering", V+"X86.C63_x86_store_buffering", V+"RV64.C63_rv64_amo", V+"X86.C63_x86_lock", V+"X86.C63_x86_fence", V+"A64.C63_a64_ldar", V+"A64.C63_a64_stlr", V+"A64.C63_a64_dmb", V+"X86.C63_x86_message_counterexample", V+"RV64.C63_rv64_fence_counterexample", V+"A64.C63_a64_dmb_counterexample", V+"RV64.C63_rv64_lrsc_counterexample", V+"A64.C63_a64_stlr_ldar_counterexample"],
  "Race-free executions see the last write, for every program; every interleaving is an execution that LLVM allows, and every execution that LLVM allows, has no data race and whose atomic accesses are sequentially consistent (always so for x86-64 code) is an interleaving; also every one whose accesses are all atomic read-modify-writes of one location, with any orderings, so that counters lose no update (LOCK ADD, AMOADD); message passing with STLR/LDAR, for all interleavings and for all executions that LLVM's rules allow, for the latter also with AMOs and XCHG; mutual exclusion with AMOSWAP and XCHG, for any number of threads and all these executions; critical sections of a lock are ordered, so that a counter that is read and written with ordinary accesses in them loses no update; of two threads that announce themselves and then look at each other (XCHG, AMOSWAP.aqrl) at least one sees the other; the orderings that AMOs, locked instructions, LDAR/STLR and fences get. False for STLR followed by LDAR, which LLVM may exchange. False for ordinary accesses: they become non-atomic, and LLVM returns undef where the guest orders them (x86-64 always, RV64 with FENCE, AArch64 with DMB), and aq/rl of LR/SC are ignored.")
c("C64", "proved", [L+"C17_untouched_ssa", L+"RV64.C17_untouched_rv64", L+"X86.C17_untouched_x86", L+"A64.C17_untouched_a64"],
  "Every decode history, also those for which the lifted function is wrong (C09_decode_block_counterexample). Value of the register in the CPU struct, so the bytes of a flag are covered as long as they are not stored, which is what is proved.")
c("C65", "proved", [L+"RV64.C65_rv64", L+"A64.C65_a64", L+"X86.C65_x86", L+"C15_packs_terminate"],
  "The two excluded cases are stated in the property and real (C09_syscall_counterexample, C09_jal_counterexample); other ways of decoding are C08, C14 and C15.")
c("C66", "proved", [R+"RV64_exact", R+"RV64_defect"] + a("A64_exact") + [X+"X86_exact", X+"adc_exact", X+"X86_sse_exact", X+"X86_exact_all"],
  "Lists: Spec.does/NoDefect (RV64), A64.Spec.Exact, X86.Spec.Exact, X86.Spec.SseExact. x86-64: well-formed instructions as the decoder delivers them, without string instructions with 32-bit addresses or segment overrides; AArch64: without floating-point arithmetic; no call function.")
c("C67", "proved", [L+"RV64.C67_rv64", L+"A64.C67_a64", L+"X86.C67_x86", L+"C67_wellformed", L+"C67_values", L+"C67_alive", L+"C67_same", L+"C67_same_ssa", L+"RV64.C67_decode_block_counterexample"],
  "Of LLVM's verifier, the conditions that depend on the control-flow graph are modelled, not types and attributes. Functions decoded with ll_func_decode_block are outside of the statement; for them it is false (counterexample).")
c("C68", "proved", ["Verif.X86.C68_mnemonics", "Verif.X86.C68_other", X+"C68_exact"],
  "The switch is transcribed row by row from lifter.cc by a script. TZCNT, LZCNT, FLDCW and LDMXCSR get the code of their operation as modelled, which is wrong or ignores the operand (findings of C45 and C66).")
c("C69", "partial", [L+"C69_calls_partial", L+"C69_exact", L+"C69_inline_counterexample"],
  "True for functions that are not inlined; false for every function that is: the address of the deleted call instruction is used afterwards (C69_exact: exactly then). The instructions of the inlined function are not modelled.")
F = "Verif.Facet."
c("C70", "proved", [F+n for n in ("C70_size", "C70_size_le", "C70_from_type", "C70_resolve", "C70_resolve_bits", "C70_resolve_defined", "C70_int_defined", "C70_size_counterexample")],
  "About the choice of the type (facet.cc, facet.inc). Sizes that are not powers of two are outside of the statement (C70_size_counterexample). That the accesses then have the semantics of the operand is in the properties of the instructions.")
out = os.path.join(os.path.dirname(os.path.abspath(__file__)), "..", "MANIFEST.json")
json.dump({"claims": C}, open(out, "w"), indent=1)
