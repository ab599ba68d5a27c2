import Verif.X86.SsePerm
import Verif.X86.Props

/-!
Theorems about the SSE instructions (C37, C38, C45, C48, C49).  `Simulates` is the statement used for all
x86-64 instructions (`Verif.X86.Flow`); the instructions themselves are specified lane by lane in
`Verif.X86.SseSpec`.
-/

set_option linter.unusedSimpArgs false
set_option linter.constructorNameAsVariable false
set_option maxRecDepth 4000

namespace Verif.X86.Spec

open Verif.IR Verif.Bits

variable {cfg : Cfg} {slide : BitVec 64} {len : Nat} {s s' : S}

theorem Simulates.sse {i : Sse} (hs : step (.sse i) len s = some s')
    (hb : ∀ m, Rel slide m (s.nx len) → (s.nx len).sse i = some s' → BodyOk slide m i s') :
    Simulates cfg slide (.sse i) len s s' :=
  .of_body (fun m => i.lift slide m) (fun _ _ => rfl) (fun m h => hb m h hs)

/-- What `setXs` means: lane `i` of the register is the `i`-th value, other registers keep their value. -/
theorem setXs_lane (r q : Fin 16) (z : Sz) (f : Nat → BitVec z.bits) {i : Nat} (hi : i < 128 / z.bits) :
    lane z.bits ((s.setXs r z.bits f).vec r) i = f i ∧ (q ≠ r → (s.setXs r z.bits f).vec q = s.vec q) := by
  constructor
  · show lane z.bits (if r = r then _ else _) i = _
    rw [if_pos rfl]
    refine Eq.trans ?_ (lane_ofLanes z.bits (128 / z.bits) f i hi)
    apply BitVec.eq_of_getLsbD_eq
    intro j hj
    have hb : z.bits * i + j < 128 := by
      have h1 : z.bits * (128 / z.bits) = 128 := by cases z <;> rfl
      have h2 : z.bits * (i + 1) ≤ z.bits * (128 / z.bits) := Nat.mul_le_mul (Nat.le_refl _) hi
      rw [Nat.mul_add] at h2
      omega
    simp only [lane, BitVec.getLsbD_extractLsb', BitVec.getLsbD_setWidth, hb, decide_true, Bool.true_and]
  · intro h; exact if_neg h

/-- Refutation by the value of an XMM register. -/
theorem refuted_vec {i : Instr} {s : S} (r : Fin 16)
    (h : ((step i 4 s).map (·.vec r)).isSome = true ∧
      (lift {} 0 i s.ip 4 (s.rep 0)).map (·.st.vec r) ≠ ((step i 4 s).map (·.vec r)).map some) :
    ∃ s', step i 4 s = some s' ∧ ¬ Simulates {} 0 i 4 s s' := by
  obtain ⟨h1, h2⟩ := h
  cases hst : step i 4 s with
  | none => rw [hst] at h1; cases h1
  | some s' =>
    refine ⟨s', rfl, fun hsim => h2 ?_⟩
    obtain ⟨m', e, hr⟩ := hsim s.ip (s.rep 0) (rep_rel 0 s) (by simp)
    rw [e, hst]
    simp only [Option.map_some, hr.vec]

/-! ### C37: lane arithmetic -/

/-- PADD*, PSUB*, PMULL*, PHADD*, PHSUB*, PAND, POR, PXOR and the floating-point additions, subtractions,
multiplications and divisions (`op = .f _`), packed, horizontal and scalar; an exclusive or of a register with
itself needs no operand. -/
theorem C37_sse_binary (op : VBin) (horz scalar : Bool) (z : Sz) (d : Fin 16) (o : XOp) (ho : XOp.plain o = true)
    (hs : step (.sse (.bin op horz scalar z d o)) len s = some s') : Simulates cfg slide (.sse (.bin op horz scalar z d o)) len s s' :=
  .sse hs fun _ h hs => sim_bin h ho hs

/-- PANDN, ANDNPS, ANDNPD. -/
theorem C37_sse_andn (z : Sz) (d : Fin 16) (o : XOp) (ho : XOp.plain o = true)
    (hs : step (.sse (.andn z d o)) len s = some s') : Simulates cfg slide (.sse (.andn z d o)) len s s' :=
  .sse hs fun _ h hs => sim_andn h ho hs

/-- PAVGB, PAVGW: rounded average. -/
theorem C37_sse_average (z : Sz) (d : Fin 16) (o : XOp) (ho : XOp.plain o = true)
    (hs : step (.sse (.pavg z d o)) len s = some s') : Simulates cfg slide (.sse (.pavg z d o)) len s s' :=
  .sse hs fun _ h hs => sim_pavg h ho hs

/-- PMULHW, PMULHUW: high half of the product. -/
theorem C37_sse_mul_high (sgn : Bool) (d : Fin 16) (o : XOp) (ho : XOp.plain o = true)
    (hs : step (.sse (.pmulh sgn d o)) len s = some s') : Simulates cfg slide (.sse (.pmulh sgn d o)) len s s' :=
  .sse hs fun _ h hs => sim_pmulh h ho hs

/-- PMULDQ, PMULUDQ: products of the even elements. -/
theorem C37_sse_mul_long (sgn : Bool) (d : Fin 16) (o : XOp) (ho : XOp.plain o = true)
    (hs : step (.sse (.pmuld sgn d o)) len s = some s') : Simulates cfg slide (.sse (.pmuld sgn d o)) len s s' :=
  .sse hs fun _ h hs => sim_pmuld h ho hs

/-- PMADDWD: sums of two products. -/
theorem C37_sse_pmaddwd (d : Fin 16) (o : XOp) (ho : XOp.plain o = true)
    (hs : step (.sse (.pmaddwd d o)) len s = some s') : Simulates cfg slide (.sse (.pmaddwd d o)) len s s' :=
  .sse hs fun _ h hs => sim_pmaddwd h ho hs

/-- PMADDUBSW: saturated sums of products of unsigned with signed bytes. -/
theorem C37_sse_pmaddubsw (d : Fin 16) (o : XOp) (ho : XOp.plain o = true)
    (hs : step (.sse (.pmaddubsw d o)) len s = some s') : Simulates cfg slide (.sse (.pmaddubsw d o)) len s s' :=
  .sse hs fun _ h hs => sim_pmaddubsw h ho hs

/-- PADDS*, PADDUS*, PSUBS*, PSUBUS*, PHADDSW, PHSUBSW: the exact sum or difference, clamped. -/
theorem C37_sse_saturating (sub sgn horz : Bool) (z : Sz) (d : Fin 16) (o : XOp) (ho : XOp.plain o = true)
    (hs : step (.sse (.padds sub sgn horz z d o)) len s = some s') : Simulates cfg slide (.sse (.padds sub sgn horz z d o)) len s s' :=
  .sse hs fun _ h hs => sim_padds h ho hs

/-- PSADBW: sums of absolute differences. -/
theorem C37_sse_psadbw (d : Fin 16) (o : XOp) (ho : XOp.plain o = true)
    (hs : step (.sse (.psadbw d o)) len s = some s') : Simulates cfg slide (.sse (.psadbw d o)) len s s' :=
  .sse hs fun _ h hs => sim_psadbw h ho hs

/-- PACKSSWB, PACKSSDW, PACKUSWB, PACKUSDW: elements of both operands clamped to half their size. -/
theorem C37_sse_pack (sgn : Bool) (z : Sz) (d : Fin 16) (o : XOp) (ho : XOp.plain o = true)
    (hs : step (.sse (.pack sgn z d o)) len s = some s') : Simulates cfg slide (.sse (.pack sgn z d o)) len s s' :=
  .sse hs fun _ h hs => sim_pack h ho hs

/-- PCMPEQ*, PCMPGT*. -/
theorem C37_sse_compare (gt : Bool) (z : Sz) (d : Fin 16) (o : XOp) (ho : XOp.plain o = true)
    (hs : step (.sse (.pcmp gt z d o)) len s = some s') : Simulates cfg slide (.sse (.pcmp gt z d o)) len s s' :=
  .sse hs fun _ h hs => sim_pcmp h ho hs

/-- PMINU*, PMINS*, PMAXU*, PMAXS*. -/
theorem C37_sse_minmax (mx sgn : Bool) (z : Sz) (d : Fin 16) (o : XOp) (ho : XOp.plain o = true)
    (hs : step (.sse (.pminmax mx sgn z d o)) len s = some s') : Simulates cfg slide (.sse (.pminmax mx sgn z d o)) len s s' :=
  .sse hs fun _ h hs => sim_pminmax h ho hs

/-- PABSB, PABSW, PABSD. -/
theorem C37_sse_abs (z : Sz) (d : Fin 16) (o : XOp) (ho : XOp.plain o = true)
    (hs : step (.sse (.pabs z d o)) len s = some s') : Simulates cfg slide (.sse (.pabs z d o)) len s s' :=
  .sse hs fun _ h hs => sim_pabs h ho hs

/-- PSIGNB, PSIGNW, PSIGND. -/
theorem C37_sse_sign (z : Sz) (d : Fin 16) (o : XOp) (ho : XOp.plain o = true)
    (hs : step (.sse (.psign z d o)) len s = some s') : Simulates cfg slide (.sse (.psign z d o)) len s s' :=
  .sse hs fun _ h hs => sim_psign h ho hs

/-- PSLL*, PSRL*, PSRA* by an immediate or by the low 64 bits of a register or of memory, for every count. -/
theorem C37_sse_shift (k : Shift) (z : Sz) (d : Fin 16) (c : XOp ⊕ BitVec 64) (ho : ∀ o, c = .inl o → XOp.plain o = true) (hi : ∀ imm, c = .inr imm → ImmOk imm)
    (hs : step (.sse (.pshift k z d c)) len s = some s') : Simulates cfg slide (.sse (.pshift k z d c)) len s s' :=
  .sse hs fun _ h hs => sim_pshift h ho hi hs

/-- PMOVSX*, PMOVZX*: the elements keep their value. -/
theorem C37_sse_extend (sgn : Bool) (zf zt : Sz) (d : Fin 16) (o : XOp) (ho : XOp.plain o = true)
    (hs : step (.sse (.pmovx sgn zf zt d o)) len s = some s') : Simulates cfg slide (.sse (.pmovx sgn zf zt d o)) len s s' :=
  .sse hs fun _ h hs => sim_pmovx h ho hs

/-- PMOVMSKB, MOVMSKPS, MOVMSKPD: the sign bits.  Missing: a destination operand of 32 bits, on which
`OpStoreGp` asserts (`C37_movmsk_counterexample`). -/
theorem C37_sse_movmsk_partial (z : Sz) (d r : Fin 16) 
    (hs : step (.sse (.movmsk z .q d r)) len s = some s') : Simulates cfg slide (.sse (.movmsk z .q d r)) len s s' :=
  .sse hs fun _ h hs => sim_movmsk h hs

/-! ### C38: permutations -/

/-- PUNPCKL*, PUNPCKH*, UNPCKLP*, UNPCKHP*. -/
theorem C38_sse_unpack (hi : Bool) (z : Sz) (d : Fin 16) (o : XOp) (ho : XOp.plain o = true)
    (hs : step (.sse (.unpck hi z d o)) len s = some s') : Simulates cfg slide (.sse (.unpck hi z d o)) len s s' :=
  .sse hs fun _ h hs => sim_unpck h ho hs

/-- SHUFPD. -/
theorem C38_sse_shufpd (d : Fin 16) (o : XOp) (imm : BitVec 64) (ho : XOp.plain o = true)
    (hs : step (.sse (.shufpd d o imm)) len s = some s') : Simulates cfg slide (.sse (.shufpd d o imm)) len s s' :=
  .sse hs fun _ h hs => sim_shufpd h ho hs

/-- SHUFPS. -/
theorem C38_sse_shufps (d : Fin 16) (o : XOp) (imm : BitVec 64) (ho : XOp.plain o = true)
    (hs : step (.sse (.shufps d o imm)) len s = some s') : Simulates cfg slide (.sse (.shufps d o imm)) len s s' :=
  .sse hs fun _ h hs => sim_shufps h ho hs

/-- PSHUFD. -/
theorem C38_sse_pshufd (d : Fin 16) (o : XOp) (imm : BitVec 64) (ho : XOp.plain o = true)
    (hs : step (.sse (.pshufd d o imm)) len s = some s') : Simulates cfg slide (.sse (.pshufd d o imm)) len s s' :=
  .sse hs fun _ h hs => sim_pshufd h ho hs

/-- PSHUFLW.  PSHUFHW takes the selectors from bits 8 to 15 of the immediate operand instead of bits 0 to 7
and is right only if these agree (`C38_pshufhw_counterexample`). -/
theorem C38_sse_pshufw_partial (hi : Bool) (d : Fin 16) (o : XOp) (imm : BitVec 64) (ho : XOp.plain o = true) (hok : PshufwOk hi imm)
    (hs : step (.sse (.pshufw hi d o imm)) len s = some s') : Simulates cfg slide (.sse (.pshufw hi d o imm)) len s s' :=
  .sse hs fun _ h hs => sim_pshufw h ho hok hs

/-- INSERTPS: source and destination index and zero mask. -/
theorem C38_sse_insertps (d : Fin 16) (o : XOp) (imm : BitVec 64) (ho : XOp.plain o = true)
    (hs : step (.sse (.insertps d o imm)) len s = some s') : Simulates cfg slide (.sse (.insertps d o imm)) len s s' :=
  .sse hs fun _ h hs => sim_insertps h ho hs

/-- PINSRB, PINSRW, PINSRD, PINSRQ; excess bits of the index are ignored. -/
theorem C38_sse_pinsr (z : Sz) (d : Fin 16) (o : XOp) (imm : BitVec 64) (ho : XOp.plain o = true)
    (hs : step (.sse (.pinsr z d o imm)) len s = some s') : Simulates cfg slide (.sse (.pinsr z d o imm)) len s s' :=
  .sse hs fun _ h hs => sim_pinsr h ho hs

/-- PEXTRB, PEXTRW, PEXTRD, PEXTRQ, EXTRACTPS. -/
theorem C38_sse_pextr (z : Sz) (d : XOp) (r : Fin 16) (imm : BitVec 64) (hd : XOp.plain d = true)
    (hs : step (.sse (.pextr z d r imm)) len s = some s') : Simulates cfg slide (.sse (.pextr z d r imm)) len s s' :=
  .sse hs fun _ h hs => sim_pextr h hd hs

/-- MOVSLDUP, MOVSHDUP, MOVDDUP.  Missing: MOVDDUP from misaligned memory (`C38_movddup_counterexample`). -/
theorem C38_sse_movdup_partial (odd : Bool) (z : Sz) (d : Fin 16) (o : XOp) (ho : XOp.plain o = true)
    (ha : z = .q → ∀ a, o = .mem a → ((s.nx len).ea a).toNat % 8 = 0)
    (hs : step (.sse (.movdup odd z d o)) len s = some s') : Simulates cfg slide (.sse (.movdup odd z d o)) len s s' :=
  .sse hs fun _ h hs => sim_movdup h ho ha hs

/-- PSLLDQ, PSRLDQ, for every count. -/
theorem C38_sse_byte_shift (right : Bool) (d : Fin 16) (imm : BitVec 64) (hi : ImmOk imm)
    (hs : step (.sse (.pshiftBytes right d imm)) len s = some s') : Simulates cfg slide (.sse (.pshiftBytes right d imm)) len s s' :=
  .sse hs fun _ h hs => sim_pshiftBytes h hi hs

/-- PALIGNR, for every count. -/
theorem C38_sse_palignr (d : Fin 16) (o : XOp) (imm : BitVec 64) (ho : XOp.plain o = true) (hi : ImmOk imm)
    (hs : step (.sse (.palignr d o imm)) len s = some s') : Simulates cfg slide (.sse (.palignr d o imm)) len s s' :=
  .sse hs fun _ h hs => sim_palignr h ho hi hs

/-- MOVHLPS. -/
theorem C38_sse_movhlps (d r : Fin 16) 
    (hs : step (.sse (.movhlps d r)) len s = some s') : Simulates cfg slide (.sse (.movhlps d r)) len s s' :=
  .sse hs fun _ h hs => sim_movhlps h hs

/-! ### C45: data movement -/

/-- MOVD, MOVQ. -/
theorem C45_sse_movq (z : Sz) (d o : XOp) (hd : XOp.plain d = true) (ho : XOp.plain o = true)
    (hs : step (.sse (.movq z d o)) len s = some s') : Simulates cfg slide (.sse (.movq z d o)) len s s' :=
  .sse hs fun _ h hs => sim_movq h hd ho hs

/-- MOVSS, MOVSD.  Missing: stores to misaligned memory (`C45_movss_counterexample`). -/
theorem C45_sse_movs_partial (z : Sz) (d o : XOp) (hd : XOp.plain d = true) (ho : XOp.plain o = true)
    (ha : ∀ a, d = .mem a → ((s.nx len).ea a).toNat % z.bytes = 0)
    (hs : step (.sse (.movs z d o)) len s = some s') : Simulates cfg slide (.sse (.movs z d o)) len s s' :=
  .sse hs fun _ h hs => sim_movs h hd ho ha hs

/-- MOVAPS, MOVAPD, MOVDQA, MOVNTDQA, MOVUPS, MOVUPD, MOVDQU, LDDQU. -/
theorem C45_sse_movdq (aligned : Bool) (d o : XOp) (hd : XOp.plain d = true) (ho : XOp.plain o = true)
    (hs : step (.sse (.movdq aligned d o)) len s = some s') : Simulates cfg slide (.sse (.movdq aligned d o)) len s s' :=
  .sse hs fun _ h hs => sim_movdq h hd ho hs

/-- MOVNTPS, MOVNTPD, MOVNTDQ. -/
theorem C45_sse_movnt (o : MemOp) (r : Fin 16) (ho : MemOp.plain o = true)
    (hs : step (.sse (.movnt o r)) len s = some s') : Simulates cfg slide (.sse (.movnt o r)) len s s' :=
  .sse hs fun _ h hs => sim_movnt h ho hs

/-- MOVLPS, MOVLPD.  Missing: stores to misaligned memory (`C45_movlps_counterexample`). -/
theorem C45_sse_movlp_partial (d o : XOp) (hd : XOp.plain d = true) (ho : XOp.plain o = true)
    (ha : ∀ a, d = .mem a → ((s.nx len).ea a).toNat % 8 = 0)
    (hs : step (.sse (.movlp d o)) len s = some s') : Simulates cfg slide (.sse (.movlp d o)) len s s' :=
  .sse hs fun _ h hs => sim_movlp h hd ho ha hs

/-- MOVHPS, MOVLHPS, MOVHPD.  Missing: stores to misaligned memory (`C45_movhps_counterexample`). -/
theorem C45_sse_movhp_partial (pd : Bool) (d o : XOp) (hd : XOp.plain d = true) (ho : XOp.plain o = true)
    (ha : ∀ a, d = .mem a → ((s.nx len).ea a).toNat % 8 = 0)
    (hs : step (.sse (.movhp pd d o)) len s = some s') : Simulates cfg slide (.sse (.movhp pd d o)) len s s' :=
  .sse hs fun _ h hs => sim_movhp h hd ho ha hs

/-- PREFETCH* does nothing. -/
theorem C45_sse_prefetch (o : MemOp) (ho : MemOp.plain o = true)
    (hs : step (.sse (.prefetch o)) len s = some s') : Simulates cfg slide (.sse (.prefetch o)) len s s' :=
  .sse hs fun _ h hs => sim_sse_body h _ ho hs

/-- Fences do nothing that a single thread can observe. -/
theorem C45_sse_fence  
    (hs : step (.sse (.fence)) len s = some s') : Simulates cfg slide (.sse (.fence)) len s s' :=
  .sse hs fun _ h hs => sim_sse_body h _ trivial hs

/-! ### C48: floating-point arithmetic, comparisons and conversions -/

/-- ADDSUBPS, ADDSUBPD.  (ADD*, SUB*, MUL*, DIV*, HADDP*, HSUBP* are in `C37_sse_binary`.) -/
theorem C48_addsub (z : Sz) (d : Fin 16) (o : XOp) (ho : XOp.plain o = true)
    (hs : step (.sse (.addsub z d o)) len s = some s') : Simulates cfg slide (.sse (.addsub z d o)) len s s' :=
  .sse hs fun _ h hs => sim_addsub h ho hs

/-- SQRTSS, SQRTSD, SQRTPS, SQRTPD. -/
theorem C48_sqrt (scalar : Bool) (z : Sz) (d : Fin 16) (o : XOp) (ho : XOp.plain o = true)
    (hs : step (.sse (.sqrt scalar z d o)) len s = some s') : Simulates cfg slide (.sse (.sqrt scalar z d o)) len s s' :=
  .sse hs fun _ h hs => sim_sqrt h ho hs

/-- MINSS to MAXPD: the second operand unless the first is strictly smaller (greater), so that NaN and equal
zeros give the second operand.  Missing: scalar operands in misaligned memory (`C48_minss_counterexample`). -/
theorem C48_minmax_partial (mx scalar : Bool) (z : Sz) (d : Fin 16) (o : XOp) (ho : XOp.plain o = true)
    (ha : scalar = true → ∀ a, o = .mem a → ((s.nx len).ea a).toNat % z.bytes = 0)
    (hs : step (.sse (.fminmax mx scalar z d o)) len s = some s') : Simulates cfg slide (.sse (.fminmax mx scalar z d o)) len s s' :=
  .sse hs fun _ h hs => sim_fminmax h ho ha hs

/-- CMPSS to CMPPD with all eight predicates.  Missing: scalar operands in misaligned memory. -/
theorem C48_compare_partial (scalar : Bool) (z : Sz) (d : Fin 16) (o : XOp) (imm : BitVec 64) (ho : XOp.plain o = true) (hi : ImmOk imm)
    (ha : scalar = true → ∀ a, o = .mem a → ((s.nx len).ea a).toNat % z.bytes = 0)
    (hs : step (.sse (.cmp scalar z d o imm)) len s = some s') : Simulates cfg slide (.sse (.cmp scalar z d o imm)) len s s' :=
  .sse hs fun _ h hs => sim_cmp h ho hi ha hs

/-- COMISS, COMISD, UCOMISS, UCOMISD: all six flags. -/
theorem C48_comis (z : Sz) (d : Fin 16) (o : XOp) (ho : XOp.plain o = true)
    (hs : step (.sse (.comis z d o)) len s = some s') : Simulates cfg slide (.sse (.comis z d o)) len s s' :=
  .sse hs fun _ h hs => sim_comis h ho hs

/-- Conversions between vector formats and between the scalar precisions.  Missing: CVTTPD2DQ and CVTTPS2DQ of
values outside the range of the integers (`C48_cvttps2dq_counterexample`). -/
theorem C48_convert_partial (k : Cvt) (d : Fin 16) (o : XOp) (ho : XOp.plain o = true) (hk : CvtOk (s.nx len) k o)
    (hs : step (.sse (.cvt k d o)) len s = some s') : Simulates cfg slide (.sse (.cvt k d o)) len s s' :=
  .sse hs fun _ h hs => sim_cvt h ho hk hs

/-- CVTTSS2SI, CVTTSD2SI.  Missing: values outside the range of the integers, NaN (`C48_cvttsd2si_counterexample`). -/
theorem C48_cvttsi_partial (z iz : Sz) (d : Fin 16) (o : XOp) (ho : XOp.plain o = true)
    (hk : ∀ b, (s.nx len).xsrc z.bytes 1 o = some b → FitsSi iz.bits b)
    (hs : step (.sse (.cvttsi z iz d o)) len s = some s') : Simulates cfg slide (.sse (.cvttsi z iz d o)) len s s' :=
  .sse hs fun _ h hs => sim_cvttsi h ho hk hs

/-- CVTSI2SS, CVTSI2SD. -/
theorem C48_cvtsi (z iz : Sz) (d : Fin 16) (o : XOp) (ho : XOp.plain o = true)
    (hs : step (.sse (.cvtsi z iz d o)) len s = some s') : Simulates cfg slide (.sse (.cvtsi z iz d o)) len s s' :=
  .sse hs fun _ h hs => sim_cvtsi h ho hs

/-! ### C49: FXSAVE and FXRSTOR -/

/-- FXRSTOR loads all XMM registers. -/
theorem C49_fxrstor (o : MemOp) (ho : MemOp.plain o = true)
    (hs : step (.sse (.fxrstor o)) len s = some s') : Simulates cfg slide (.sse (.fxrstor o)) len s s' :=
  .sse hs fun _ h hs => sim_fxrstor h ho hs

/-- The lifted FXSAVE stores every XMM register where the architecture puts it, changes no register and no byte
outside the 416 bytes it writes.  The rest of the area: `C49_mxcsr_counterexample`. -/
theorem C49_fxsave (o : MemOp) (ho : MemOp.plain o = true) (ha : ((s.nx len).ea o).toNat % 16 = 0)
    {start : BitVec 64} {m : St} (h : Rel slide m s) (hip : s.ip = start + slide) :
    ∃ m' mem', lift cfg slide (.sse (.fxsave o)) start len m = some { st := m' } ∧
      Rel slide m' { s.nx len with mem := mem' } ∧
      (∀ r, mem'.read ((s.nx len).ea o + BitVec.ofNat 64 (160 + 16 * r.val)) 16 = s.vec r) ∧
      ∀ p, 416 ≤ (p - (s.nx len).ea o).toNat → mem' p = s.mem p := by
  have hn : s.ip + BitVec.ofNat 64 len = stopPc start len + slide := by
    simp only [stopPc, hip]
    rw [BitVec.add_assoc, BitVec.add_assoc, BitVec.add_comm slide]
  have h' : Rel slide { m with pc := .const (stopPc start len) } (s.nx len) :=
    h.setPc _ _ (by simp only [Pc.val_const, hn])
  obtain ⟨m', mem', h1, h2, h3, h4, _⟩ := fxsave_saves h' ho ha
  refine ⟨m', mem', ?_, h2, h3, h4⟩
  show Option.map _ ((Sse.fxsave o).lift slide _) = _
  rw [h1]
  rfl

/-- The MXCSR field of the saved area (4 bytes at offset 24) is zero after the lifted FXSAVE, in every state: all floating-point
exceptions unmasked.  No guest of rellume has this MXCSR, its floating-point environment is the default one, 0x1F80. -/
theorem C49_mxcsr_counterexample (o : MemOp) (ho : MemOp.plain o = true) (ha : (s.ea o).toNat % 16 = 0)
    {m : St} (h : Rel slide m s) :
    ∃ m' mem', (Sse.fxsave o).lift slide m = some m' ∧ Rel slide m' { s with mem := mem' } ∧
      mem'.read (s.ea o + 24) 4 = 0 ∧ mem'.read (s.ea o + 24) 4 ≠ 0x1F80 := by
  obtain ⟨m1, mem', h1, h2, _, _, h5⟩ := fxsave_saves h ho ha
  have h7 : mem'.read (s.ea o + 24) 4 = 0 := by
    simp only [Mem.read]
    rw [h5 _ (by bv_omega), h5 _ (by bv_omega), h5 _ (by bv_omega), h5 _ (by bv_omega)]
    rfl
  exact ⟨m1, mem', h1, h2, h7, by rw [h7]; decide⟩

/-- Round trip on lifted code: FXSAVE, then any change of the XMM registers, then FXRSTOR from the same place:
all XMM registers have their old values, and nothing else has changed but the saved area. -/
theorem C49_fxsave_fxrstor (o : MemOp) (ho : MemOp.plain o = true) (ha : (s.ea o).toNat % 16 = 0)
    {m : St} (h : Rel slide m s) (junk : Fin 16 → BitVec 128) :
    ∃ m1 m2 mem', (Sse.fxsave o).lift slide m = some m1 ∧
      (Sse.fxrstor o).lift slide { m1 with vec := fun r => some (junk r) } = some m2 ∧
      Rel slide m2 { s with mem := mem' } ∧ ∀ p, 416 ≤ (p - s.ea o).toNat → mem' p = s.mem p := by
  obtain ⟨m1, mem', h1, h2, h3, h4, _⟩ := fxsave_saves h ho ha
  have h5 : Rel slide { m1 with vec := fun r => some (junk r) } { s with mem := mem', vec := junk } :=
    { gp := h2.gp, vec := fun _ => rfl, fs := h2.fs, gs := h2.gs, mem := h2.mem, pc := h2.pc, fl := h2.fl }
  have hs : ({ s with mem := mem', vec := junk } : S).sse (.fxrstor o) = some { s with mem := mem' } := by
    simp only [S.sse]
    rw [if_neg (by
      show ¬ ((s.ea o).toNat % 16 ≠ 0)
      simpa using ha)]
    congr 1
    have : (fun r : Fin 16 => mem'.read (s.ea o + BitVec.ofNat 64 (160 + 16 * r.val)) 16) = s.vec := funext h3
    show ({ s with mem := mem', vec := fun r => mem'.read (s.ea o + BitVec.ofNat 64 (160 + 16 * r.val)) 16 } : S) = _
    rw [this]
  obtain ⟨m2, h6, h7⟩ := sim_fxrstor h5 ho hs
  exact ⟨m1, m2, mem', h1, h6, h7, h4⟩

/-! ### Defects -/

/-- `pshufhw xmm0, xmm1, 0x1b` should reverse the upper four words; the lifted code repeats word 4. -/
theorem C38_pshufhw_counterexample : ∃ s', step (.sse (.pshufw true 0 (.x 1) 0x1b)) 4 s0 = some s' ∧
    ¬ Simulates {} 0 (.sse (.pshufw true 0 (.x 1) 0x1b)) 4 s0 s' := refuted_vec 0 (by decide +kernel)

/-- `pmovmskb eax, xmm0` with a destination operand of 32 bits: failing assertion. -/
theorem C37_movmsk_counterexample : ∃ s', step (.sse (.movmsk .b .d 0 0)) 4 s0 = some s' ∧
    ¬ Simulates {} 0 (.sse (.movmsk .b .d 0 0)) 4 s0 s' := refuted_ub (by decide +kernel)

/-- `movddup xmm0, [rsi+1]`: the emitted load claims alignment 8. -/
theorem C38_movddup_counterexample : ∃ s', step (.sse (.movdup false .q 0 (.mem { base := .reg 6, off := 1 }))) 4 s0 = some s' ∧
    ¬ Simulates {} 0 (.sse (.movdup false .q 0 (.mem { base := .reg 6, off := 1 }))) 4 s0 s' := refuted_ub (by decide +kernel)

/-- `movss [rsi+1], xmm0`: the emitted store claims alignment 4. -/
theorem C45_movss_counterexample : ∃ s', step (.sse (.movs .d (.mem { base := .reg 6, off := 1 }) (.x 0))) 4 s0 = some s' ∧
    ¬ Simulates {} 0 (.sse (.movs .d (.mem { base := .reg 6, off := 1 }) (.x 0))) 4 s0 s' := refuted_ub (by decide +kernel)

/-- `movlps [rsi+1], xmm0`: the emitted store claims alignment 8. -/
theorem C45_movlps_counterexample : ∃ s', step (.sse (.movlp (.mem { base := .reg 6, off := 1 }) (.x 0))) 4 s0 = some s' ∧
    ¬ Simulates {} 0 (.sse (.movlp (.mem { base := .reg 6, off := 1 }) (.x 0))) 4 s0 s' := refuted_ub (by decide +kernel)

/-- `movhps [rsi+1], xmm0`: the emitted store claims alignment 8. -/
theorem C45_movhps_counterexample : ∃ s', step (.sse (.movhp false (.mem { base := .reg 6, off := 1 }) (.x 0))) 4 s0 = some s' ∧
    ¬ Simulates {} 0 (.sse (.movhp false (.mem { base := .reg 6, off := 1 }) (.x 0))) 4 s0 s' := refuted_ub (by decide +kernel)

/-- `minss xmm0, [rsi+1]`: the emitted load claims alignment 4. -/
theorem C48_minss_counterexample : ∃ s', step (.sse (.fminmax false true .d 0 (.mem { base := .reg 6, off := 1 }))) 4 s0 = some s' ∧
    ¬ Simulates {} 0 (.sse (.fminmax false true .d 0 (.mem { base := .reg 6, off := 1 }))) 4 s0 s' := refuted_ub (by decide +kernel)

/-- `cmpltss xmm0, [rsi+1]`: the emitted load claims alignment 4. -/
theorem C48_cmpss_counterexample : ∃ s', step (.sse (.cmp true .d 0 (.mem { base := .reg 6, off := 1 }) 1)) 4 s0 = some s' ∧
    ¬ Simulates {} 0 (.sse (.cmp true .d 0 (.mem { base := .reg 6, off := 1 }) 1)) 4 s0 s' := refuted_ub (by decide +kernel)

/-- The same state with the double 1e300 in XMM0 and single 3e9 in all elements of XMM1. -/
def s1 : S := { s0 with vec := fun r => if r = 0 then 0x7e37e43c8800759c#128 else 0x4f32d05e4f32d05e4f32d05e4f32d05e#128 }

/-- `cvttsd2si rax, xmm0` of 1e300 should give 0x8000000000000000; the lifted code gives poison. -/
theorem C48_cvttsd2si_counterexample : ∃ s', step (.sse (.cvttsi .q .q 0 (.x 0))) 4 s1 = some s' ∧
    ¬ Simulates {} 0 (.sse (.cvttsi .q .q 0 (.x 0))) 4 s1 s' := refuted_gp 0 (by decide +kernel)

/-- `cvttps2dq xmm0, xmm1` of 3e9 should give 0x80000000; the lifted code gives poison. -/
theorem C48_cvttps2dq_counterexample : ∃ s', step (.sse (.cvt .ps2dq 0 (.x 1))) 4 s1 = some s' ∧
    ¬ Simulates {} 0 (.sse (.cvt .ps2dq 0 (.x 1))) 4 s1 s' := refuted_vec 0 (by decide +kernel)

/-- Predicates above 7 exist only for AVX and fail an assertion; shown for 8. -/
theorem C48_compare_avx (z : Sz) (scalar : Bool) (d : Fin 16) (o : XOp) (m : St) (start : BitVec 64) :
    lift cfg slide (.sse (.cmp scalar z d o 8)) start len m = none := by
  cases scalar <;> rfl

/-! ### Instances -/

example : (step (.sse (.bin .add false false .w 0 (.x 1))) 4 s0).map (·.vec 0) = some 40022753436544980677706866553468027649#128 ∧
    (lift {} 0 (.sse (.bin .add false false .w 0 (.x 1))) (s0).ip 4 ((s0).rep 0)).map (·.st.vec 0) = some (some 40022753436544980677706866553468027649#128) := by decide +kernel
example : (step (.sse (.bin (.f .add) false true .d 0 (.x 3))) 4 s0).map (·.vec 0) = some 20011376718272490348076946053266902535#128 ∧
    (lift {} 0 (.sse (.bin (.f .add) false true .d 0 (.x 3))) (s0).ip 4 ((s0).rep 0)).map (·.st.vec 0) = some (some 20011376718272490348076946053266902535#128) := by decide +kernel
example : (step (.sse (.padds false true false .b 0 (.x 2))) 4 s0).map (·.vec 0) = some 40022753436544980685921562018194030594#128 ∧
    (lift {} 0 (.sse (.padds false true false .b 0 (.x 2))) (s0).ip 4 ((s0).rep 0)).map (·.st.vec 0) = some (some 40022753436544980685921562018194030594#128) := by decide +kernel
example : (step (.sse (.pavg .b 0 (.x 2))) 4 s0).map (·.vec 0) = some 20011376718272490348076946053233082881#128 ∧
    (lift {} 0 (.sse (.pavg .b 0 (.x 2))) (s0).ip 4 ((s0).rep 0)).map (·.st.vec 0) = some (some 20011376718272490348076946053233082881#128) := by decide +kernel
example : (step (.sse (.pmulh true 0 (.x 2))) 4 s0).map (·.vec 0) = some 1173472558962779991464374420036664834#128 ∧
    (lift {} 0 (.sse (.pmulh true 0 (.x 2))) (s0).ip 4 ((s0).rep 0)).map (·.st.vec 0) = some (some 1173472558962779991464374420036664834#128) := by decide +kernel
example : (step (.sse (.pmaddubsw 0 (.x 1))) 4 s0).map (·.vec 0) = some 2185981776125204691120924183212769410#128 ∧
    (lift {} 0 (.sse (.pmaddubsw 0 (.x 1))) (s0).ip 4 ((s0).rep 0)).map (·.st.vec 0) = some (some 2185981776125204691120924183212769410#128) := by decide +kernel
example : (step (.sse (.psadbw 0 (.x 2))) 4 s0).map (·.vec 0) = some 8#128 ∧
    (lift {} 0 (.sse (.psadbw 0 (.x 2))) (s0).ip 4 ((s0).rep 0)).map (·.st.vec 0) = some (some 8#128) := by decide +kernel
example : (step (.sse (.pack true .w 0 (.x 2))) 4 s0).map (·.vec 0) = some 169473963133483972636644677401406636160#128 ∧
    (lift {} 0 (.sse (.pack true .w 0 (.x 2))) (s0).ip 4 ((s0).rep 0)).map (·.st.vec 0) = some (some 169473963133483972636644677401406636160#128) := by decide +kernel
example : (step (.sse (.pcmp true .b 0 (.x 2))) 4 s0).map (·.vec 0) = some 0#128 ∧
    (lift {} 0 (.sse (.pcmp true .b 0 (.x 2))) (s0).ip 4 ((s0).rep 0)).map (·.st.vec 0) = some (some 0#128) := by decide +kernel
example : (step (.sse (.pminmax false true .b 0 (.x 2))) 4 s0).map (·.vec 0) = some 20011376718272490348076946053216239872#128 ∧
    (lift {} 0 (.sse (.pminmax false true .b 0 (.x 2))) (s0).ip 4 ((s0).rep 0)).map (·.st.vec 0) = some (some 20011376718272490348076946053216239872#128) := by decide +kernel
example : (step (.sse (.psign .b 0 (.x 2))) 4 s0).map (·.vec 0) = some 20011376718272490347068128741468307200#128 ∧
    (lift {} 0 (.sse (.psign .b 0 (.x 2))) (s0).ip 4 ((s0).rep 0)).map (·.st.vec 0) = some (some 20011376718272490347068128741468307200#128) := by decide +kernel
example : (step (.sse (.pshift .sar .w 0 (.inr 3))) 4 s0).map (·.vec 0) = some 2497527827525776700342084180818063392#128 ∧
    (lift {} 0 (.sse (.pshift .sar .w 0 (.inr 3))) (s0).ip 4 ((s0).rep 0)).map (·.st.vec 0) = some (some 2497527827525776700342084180818063392#128) := by decide +kernel
example : (step (.sse (.unpck true .b 0 (.x 1))) 4 s0).map (·.vec 0) = some 20016589456619564884958665110605858824#128 ∧
    (lift {} 0 (.sse (.unpck true .b 0 (.x 1))) (s0).ip 4 ((s0).rep 0)).map (·.st.vec 0) = some (some 20016589456619564884958665110605858824#128) := by decide +kernel
example : (step (.sse (.shufps 0 (.x 1) 0x1b)) 4 s0).map (·.vec 0) = some 175476309168449494967731502407150865676#128 ∧
    (lift {} 0 (.sse (.shufps 0 (.x 1) 0x1b)) (s0).ip 4 ((s0).rep 0)).map (·.st.vec 0) = some (some 175476309168449494967731502407150865676#128) := by decide +kernel
example : (step (.sse (.pshufd 0 (.x 1) 0x1b)) 4 s0).map (·.vec 0) = some 175476309168449494967731502407150865676#128 ∧
    (lift {} 0 (.sse (.pshufd 0 (.x 1) 0x1b)) (s0).ip 4 ((s0).rep 0)).map (·.st.vec 0) = some (some 175476309168449494967731502407150865676#128) := by decide +kernel
example : (step (.sse (.pshufw false 0 (.x 1) 0x1b)) 4 s0).map (·.vec 0) = some 20011376718272490347715249604370138886#128 ∧
    (lift {} 0 (.sse (.pshufw false 0 (.x 1) 0x1b)) (s0).ip 4 ((s0).rep 0)).map (·.st.vec 0) = some (some 20011376718272490347715249604370138886#128) := by decide +kernel
example : (step (.sse (.insertps 0 (.x 1) 0x61)) 4 s0).map (·.vec 0) = some 20011376756644381362302175597360578560#128 ∧
    (lift {} 0 (.sse (.insertps 0 (.x 1) 0x61)) (s0).ip 4 ((s0).rep 0)).map (·.st.vec 0) = some (some 20011376756644381362302175597360578560#128) := by decide +kernel
example : (step (.sse (.pinsr .w 0 (.gp 2) 9)) 4 s0).map (·.vec 0) = some 20011376718272490348076946055313195264#128 ∧
    (lift {} 0 (.sse (.pinsr .w 0 (.gp 2) 9)) (s0).ip 4 ((s0).rep 0)).map (·.st.vec 0) = some (some 20011376718272490348076946055313195264#128) := by decide +kernel
example : (step (.sse (.movdup true .d 0 (.x 1))) 4 s0).map (·.vec 0) = some 20011376719515285053893692618300622084#128 ∧
    (lift {} 0 (.sse (.movdup true .d 0 (.x 1))) (s0).ip 4 ((s0).rep 0)).map (·.st.vec 0) = some (some 20011376719515285053893692618300622084#128) := by decide +kernel
example : (step (.sse (.pshiftBytes true 0 3)) 4 s0).map (·.vec 0) = some 1192771000759153982882317665411#128 ∧
    (lift {} 0 (.sse (.pshiftBytes true 0 3)) (s0).ip 4 ((s0).rep 0)).map (·.st.vec 0) = some (some 1192771000759153982882317665411#128) := by decide +kernel
example : (step (.sse (.palignr 0 (.x 1) 20)) 4 s0).map (·.vec 0) = some 4659261721715445245634053380#128 ∧
    (lift {} 0 (.sse (.palignr 0 (.x 1) 20)) (s0).ip 4 ((s0).rep 0)).map (·.st.vec 0) = some (some 4659261721715445245634053380#128) := by decide +kernel
example : (step (.sse (.sqrt true .d 0 (.x 1))) 4 s0).map (·.vec 0) = some 20011376718272490348076946055309033472#128 ∧
    (lift {} 0 (.sse (.sqrt true .d 0 (.x 1))) (s0).ip 4 ((s0).rep 0)).map (·.st.vec 0) = some (some 20011376718272490348076946055309033472#128) := by decide +kernel
example : (step (.sse (.fminmax true false .d 0 (.x 2))) 4 s0).map (·.vec 0) = some 20011376718272490348076946053216239872#128 ∧
    (lift {} 0 (.sse (.fminmax true false .d 0 (.x 2))) (s0).ip 4 ((s0).rep 0)).map (·.st.vec 0) = some (some 20011376718272490348076946053216239872#128) := by decide +kernel
example : (step (.sse (.cmp false .d 0 (.x 2) 1)) 4 s0).map (·.vec 0) = some 0#128 ∧
    (lift {} 0 (.sse (.cmp false .d 0 (.x 2) 1)) (s0).ip 4 ((s0).rep 0)).map (·.st.vec 0) = some (some 0#128) := by decide +kernel
example : (step (.sse (.cvt .ss2sd 0 (.x 1))) 4 s0).map (·.vec 0) = some 20011376718272490351642085274526154752#128 ∧
    (lift {} 0 (.sse (.cvt .ss2sd 0 (.x 1))) (s0).ip 4 ((s0).rep 0)).map (·.st.vec 0) = some (some 20011376718272490351642085274526154752#128) := by decide +kernel
example : (step (.sse (.movhp false (.x 0) (.x 1))) 4 s0).map (·.vec 0) = some 179479631130361049546704391860606107904#128 ∧
    (lift {} 0 (.sse (.movhp false (.x 0) (.x 1))) (s0).ip 4 ((s0).rep 0)).map (·.st.vec 0) = some (some 179479631130361049546704391860606107904#128) := by decide +kernel
example : (step (.sse (.pmovx true .b .w 0 (.x 1))) 4 s0).map (·.vec 0) = some 339654099555504189136558998630858620929#128 ∧
    (lift {} 0 (.sse (.pmovx true .b .w 0 (.x 1))) (s0).ip 4 ((s0).rep 0)).map (·.st.vec 0) = some (some 339654099555504189136558998630858620929#128) := by decide +kernel

-- hypotheses of the theorems with side conditions
example : PshufwOk false 0x1b := by intro h; cases h
example : ImmOk 200 ∧ ImmOk (-56) := ⟨.inl (by decide), .inr (by decide)⟩
example : ∃ s', step (.sse (.cvttsi .d .d 2 (.x 0))) 4 s0 = some s' ∧
    Simulates {} 0 (.sse (.cvttsi .d .d 2 (.x 0))) 4 s0 s' :=
  ⟨_, rfl, C48_cvttsi_partial .d .d 2 (.x 0) rfl (fun b hb => by
    obtain rfl := Option.some.inj hb
    exact ⟨0, by decide +kernel, by decide, by decide⟩) rfl⟩
example : ∃ s', step (.sse (.movs .d (.mem { base := .reg 6, off := 4 }) (.x 0))) 4 s0 = some s' ∧
    Simulates {} 0 (.sse (.movs .d (.mem { base := .reg 6, off := 4 }) (.x 0))) 4 s0 s' :=
  ⟨_, rfl, C45_sse_movs_partial .d _ _ rfl rfl (fun a ha => by cases ha; decide +kernel) rfl⟩
example : ∃ s', step (.sse (.movdup false .q 0 (.mem { base := .reg 6 }))) 4 s0 = some s' ∧
    Simulates {} 0 (.sse (.movdup false .q 0 (.mem { base := .reg 6 }))) 4 s0 s' :=
  ⟨_, rfl, C38_sse_movdup_partial false .q 0 _ rfl (fun _ a ha => by cases ha; decide +kernel) rfl⟩
example : MemOp.plain { base := .reg 6 } = true ∧ (s0.ea { base := .reg 6 }).toNat % 16 = 0 := by decide +kernel

end Verif.X86.Spec
