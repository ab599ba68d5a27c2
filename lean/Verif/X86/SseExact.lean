import Verif.X86.Exact
import Verif.X86.SseProps

/-!
The exceptions of the SSE properties (C37, C38, C45, C48) are exactly the cases in which they are false: for every specified SSE
instruction, the lifted code is right if and only if `SseExact` holds.  With `X86_exact` this covers all x86-64 instructions but the
string instructions with 32-bit addresses or segment override.
-/

set_option linter.unusedSimpArgs false
set_option linter.constructorNameAsVariable false

namespace Verif.X86.Spec

open Verif.IR Verif.Bits

variable {cfg : Cfg} {slide : BitVec 64} {len : Nat} {s s' : S} {m m' : St}

/-- Operands that have an encoding: no RIP-relative operand with an index. -/
def XOp.wf : XOp → Prop
  | .mem o => o.base = .ip → o.idx = none
  | _ => True

/-- Instructions as the decoder delivers them: encodable operands and an immediate operand of one byte, zero- or sign-extended. -/
def SseWf : Sse → Prop
  | .movq _ d o | .movs _ d o | .movdq _ d o | .movlp d o | .movhp _ d o => XOp.wf d ∧ XOp.wf o
  | .movnt o _ | .fxrstor o | .prefetch o => o.base = .ip → o.idx = none
  | .movhlps .. | .movmsk .. | .fxsave _ | .fence => True
  | .pshiftBytes _ _ imm => ImmOk imm
  | .cmp _ _ _ o imm | .palignr _ o imm => XOp.wf o ∧ ImmOk imm
  | .pshift _ _ _ c => (∀ o, c = .inl o → XOp.wf o) ∧ ∀ imm, c = .inr imm → ImmOk imm
  | .pextr _ d _ _ => XOp.wf d
  | .bin _ _ _ _ _ o | .addsub _ _ o | .andn _ _ o | .comis _ _ o | .fminmax _ _ _ _ o | .sqrt _ _ _ o | .cvt _ _ o
  | .cvttsi _ _ _ o | .cvtsi _ _ _ o | .unpck _ _ _ o | .shufpd _ o _ | .shufps _ o _ | .pshufd _ o _ | .pshufw _ _ o _
  | .insertps _ o _ | .pinsr _ _ o _ | .movdup _ _ _ o | .pavg _ _ o | .pmulh _ _ o | .pmuld _ _ o | .pmaddwd _ o
  | .padds _ _ _ _ _ o | .psadbw _ o | .pmaddubsw _ o | .pack _ _ _ o | .pcmp _ _ _ o | .pminmax _ _ _ _ o | .pabs _ _ o
  | .psign _ _ o | .pmovx _ _ _ _ o => XOp.wf o

/-- The words that PSHUFHW takes by mistake equal those it should take. -/
def PshufhwSame (s : S) (o : XOp) (imm : BitVec 64) : Prop :=
  ∀ b, s.xsrc 16 16 o = some b → ∀ i, i < 4 →
    lane 16 b (4 + field imm (8 + 2 * i) 2) = lane 16 b (4 + field imm (2 * i) 2)

/-- Where the lifted code of the SSE instructions is right.  `XOp.plain`: the lifter has code for the operand. -/
def SseExact (s : S) : Sse → Prop
  | .movs z d o => XOp.plain d = true ∧ XOp.plain o = true ∧ ∀ a, d = .mem a → (s.ea a).toNat % z.bytes = 0
  | .movlp d o | .movhp _ d o => XOp.plain d = true ∧ XOp.plain o = true ∧ ∀ a, d = .mem a → (s.ea a).toNat % 8 = 0
  | .movq _ d o | .movdq _ d o => XOp.plain d = true ∧ XOp.plain o = true
  | .movnt o _ | .fxrstor o | .prefetch o => MemOp.plain o = true
  | .movhlps .. | .fxsave _ | .fence | .pshiftBytes .. => True
  | .cmp scalar z _ o _ | .fminmax _ scalar z _ o => XOp.plain o = true ∧
    (scalar = true → ∀ a, o = .mem a → (s.ea a).toNat % z.bytes = 0)
  | .cvt k _ o => XOp.plain o = true ∧ CvtOk s k o
  | .cvttsi z iz _ o => XOp.plain o = true ∧ ∀ b, s.xsrc z.bytes 1 o = some b → FitsSi iz.bits b
  | .pshufw hi _ o imm => XOp.plain o = true ∧ (hi = true → PshufhwSame s o imm)
  | .movdup _ z _ o => XOp.plain o = true ∧ (z = .q → ∀ a, o = .mem a → (s.ea a).toNat % 8 = 0)
  | .movmsk _ rz _ _ => rz = .q
  | .pshift _ _ _ c => ∀ o, c = .inl o → XOp.plain o = true
  | .pextr _ d _ _ => XOp.plain d = true
  | .bin _ _ _ _ _ o | .addsub _ _ o | .andn _ _ o | .comis _ _ o | .sqrt _ _ _ o
  | .cvtsi _ _ _ o | .unpck _ _ _ o | .shufpd _ o _ | .shufps _ o _ | .pshufd _ o _
  | .insertps _ o _ | .pinsr _ _ o _ | .pavg _ _ o | .pmulh _ _ o | .pmuld _ _ o | .pmaddwd _ o
  | .padds _ _ _ _ _ o | .psadbw _ o | .pmaddubsw _ o | .pack _ _ _ o | .pcmp _ _ _ o | .pminmax _ _ _ _ o | .pabs _ _ o
  | .psign _ _ o | .pmovx _ _ _ _ o | .palignr _ o _ => XOp.plain o = true

/-! ### What successful lifting tells -/

theorem xload_plain {n al : Nat} {o : XOp} {v : Val (8 * n)} (hw : XOp.wf o) (h : xload slide m n al o = some v) :
    XOp.plain o = true := by
  cases o with
  | mem o =>
    simp only [xload, Option.bind_eq_bind, Option.bind_eq_some_iff] at h
    obtain ⟨a, h1, _⟩ := h
    exact addr_plain hw h1
  | _ => rfl

theorem xload_aligned (hm : Rel slide m s) {n al : Nat} {o : XOp} {v : Val (8 * n)} (hw : XOp.wf o)
    (h : xload slide m n al o = some v) : ∀ a, o = .mem a → (s.ea a).toNat % al = 0 := by
  rintro a rfl
  have hp := xload_plain hw h
  simp only [xload, Option.bind_eq_bind, Option.bind_eq_some_iff] at h
  obtain ⟨b, h1, h2⟩ := h
  rw [opAddr_plain hm a hp, Option.some.injEq] at h1
  subst h1
  exact load_aligned h2

theorem xloadV_plain {z : Sz} {n al : Nat} {o : XOp} {v : Vec z.bits} (hw : XOp.wf o) (h : xloadV slide m z n al o = some v) :
    XOp.plain o = true := by
  simp only [xloadV, Option.map_eq_some_iff] at h
  obtain ⟨x, h, -⟩ := h
  exact xload_plain hw h

theorem bin128_plain {z : Sz} {al : Nat} {d : Fin 16} {o : XOp} {w n : Nat} {f : Vec z.bits → Vec z.bits → Vec w} (hw : XOp.wf o)
    (h : bin128 slide m z al d o n f = some m') : XOp.plain o = true := by
  simp only [bin128, Option.bind_eq_bind, Option.bind_eq_some_iff] at h
  obtain ⟨x, h, -⟩ := h
  exact xloadV_plain hw h

theorem mem_ok (hm : Rel slide m s) {o : MemOp} {n al : Nat} {v : Val (8 * n)} (hw : o.base = .ip → o.idx = none)
    (h : (do
      let a ← opAddr slide m o
      store m a n al v) = some m') : MemOp.plain o = true ∧ (s.ea o).toNat % al = 0 := by
  simp only [Option.bind_eq_bind, Option.bind_eq_some_iff] at h
  obtain ⟨b, h1, h2⟩ := h
  have hp := addr_plain hw h1
  rw [opAddr_plain hm o hp, Option.some.injEq] at h1
  subst h1
  exact ⟨hp, store_aligned h2⟩

theorem xstore_ok (hm : Rel slide m s) {n al : Nat} {d : XOp} {v : Val (8 * n)} (hw : XOp.wf d)
    (h : xstore slide m n al d v = some m') : XOp.plain d = true ∧ ∀ a, d = .mem a → (s.ea a).toNat % al = 0 := by
  cases d with
  | mem o =>
    obtain ⟨h1, h2⟩ := mem_ok hm hw h
    exact ⟨h1, fun a e => by cases e; exact h2⟩
  | _ => exact ⟨rfl, fun a e => nomatch e⟩

theorem toBits_none {w n : Nat} {v : Vec w} {i : Nat} (hi : i < n) (h : v i = none) : v.toBits n = none := by
  unfold Vec.toBits
  rw [if_neg]
  simp only [List.all_eq_true, List.mem_range, Classical.not_forall]
  exact ⟨i, hi, by simp [h]⟩

/-- A register with a poison element represents nothing. -/
theorem setX_none {d : Fin 16} {w n : Nat} {v : Vec w} {i : Nat} (hi : i < n) (h : v i = none) {t : S} :
    ¬ Rel slide (m.setX d n v) t := by
  intro hr
  have := hr.vec d
  simp only [St.setX, toBits_none hi h, St.mergeX, if_true] at this
  split at this
  · cases this
  · rw [show zext 128 (none : Val (w * n)) = none from rfl] at this
    cases hx : IR.and (m.vec d) (some (BitVec.allOnes 128 <<< (w * n))) <;> rw [hx] at this <;> cases this

theorem fptosi_none {v w : Nat} {a : BitVec w} (h : ¬ FitsSi v a) : fptosi v (some a) = none := by
  simp only [fptosi, Option.bind_some]
  cases e : Fp.toInt a with
  | none => rfl
  | some z =>
    simp only
    rw [if_neg fun hz => h ⟨z, e, hz⟩]

theorem store_none {d : Fin 16} {z : Sz} {t : S} : ¬ Rel slide (m.store d z none) t := by
  intro hr
  have := hr.gp d
  cases z <;> simp [St.store, St.setGp, St.merge, zext_none, or_none_right] at this

/-- The words of the result if the selectors are taken from bit `k` of the immediate operand on: PSHUFHW takes them from bit 0, the
lifted code from bit 8. -/
def hwWords (k : Nat) (imm : BitVec 64) (b : Nat → BitVec (Sz.bits .w)) (i : Nat) : BitVec (Sz.bits .w) :=
  if i < 4 then b i else b (4 + field imm (k + 2 * (i - 4)) 2)

theorem sim_pshufhw_raw (h : Rel slide m s) {d : Fin 16} {o : XOp} {imm : BitVec 64} (ho : XOp.plain o = true) {t : S}
    (hs : s.packed .w d o (fun _ b => hwWords 8 imm b) = some t) : BodyOk slide m (.pshufw true d o imm) t := by
  unfold BodyOk
  simp only [Sse.lift]
  refine h.bin128 ho (by decide) (show Sz.bits .w * 8 = 128 from rfl) hs (fun a b i hl => ?_)
  have e := range_map_get (n := 8) (fun i => if (if true = true then 4 else 0) ≤ i ∧ i < (if true = true then 4 else 0) + 4 then
    (if true = true then 4 else 0) + immField imm (2 * i) 3 else i) hl
  simp only [immField3 imm (show 2 * i ≤ 62 by omega)] at e
  have e' : (pshufwMask true imm)[i]? = _ := e
  have hf := field_lt imm (2 * i) 2
  simp only [if_true] at e'
  unfold hwWords
  by_cases h4 : i < 4
  · rw [if_neg (by omega)] at e'
    rw [if_pos h4, shuffle_get e' (by omega), if_pos (by omega)]
  · rw [if_pos (by omega)] at e'
    rw [if_neg h4, shuffle_get e' (by omega), if_pos (by omega), show 8 + 2 * (i - 4) = 2 * i by omega]

theorem setXs_inj {d : Fin 16} {z : Sz} {f g : Nat → BitVec z.bits} (h : (s.setXs d z.bits f).vec d = (s.setXs d z.bits g).vec d)
    {i : Nat} (hi : i < 128 / z.bits) : f i = g i := by
  rw [← (setXs_lane (s := s) d d z f hi).1, ← (setXs_lane (s := s) d d z g hi).1, h]

theorem setXs_congr {d : Fin 16} {w : Nat} {f g : Nat → BitVec w} (hw : 0 < w) (h : ∀ i, i < 128 / w → f i = g i) :
    s.setXs d w f = s.setXs d w g := by
  unfold S.setXs
  have : ofLanes w (128 / w) f = ofLanes w (128 / w) g := by
    apply BitVec.eq_of_getLsbD_eq
    intro i hi
    rw [getLsbD_ofLanes _ _ _ _ hw, getLsbD_ofLanes _ _ _ _ hw, h (i / w) ((Nat.div_lt_iff_lt_mul hw).2 (by rw [Nat.mul_comm]; exact hi))]
  rw [this]

theorem pshufhw_exact (d : Fin 16) (o : XOp) (imm : BitVec 64) (ho : XOp.plain o = true)
    (hs : step (.sse (.pshufw true d o imm)) len s = some s') :
    Simulates cfg slide (.sse (.pshufw true d o imm)) len s s' ↔ PshufhwSame (s.nx len) o imm := by
  have hs1 : (s.nx len).packed .w d o (fun _ b => hwWords 0 imm b) = some s' := by
    have e : (fun (_ b : Nat → BitVec (Sz.bits .w)) => hwWords 0 imm b) =
        fun _ b i => if i < 4 then b i else b (4 + field imm (2 * (i - 4)) 2) := by
      funext a b i
      simp only [hwWords, Nat.zero_add]
    rw [e]
    exact hs
  have hb : ∃ b, (s.nx len).xsrc 16 16 o = some b ∧ s' = (s.nx len).setXs d (Sz.bits .w) (hwWords 0 imm (fun i => lane (Sz.bits .w) b i)) := by
    unfold S.packed at hs1
    obtain ⟨b, hb, h1⟩ := Option.bind_eq_some_iff.1 hs1
    exact ⟨b, hb, (Option.some.inj h1).symm⟩
  obtain ⟨b, hb, hs2⟩ := hb
  have hs3 : (s.nx len).packed .w d o (fun _ b => hwWords 8 imm b) =
      some ((s.nx len).setXs d (Sz.bits .w) (hwWords 8 imm (fun i => lane (Sz.bits .w) b i))) := by
    unfold S.packed
    rw [hb]
    rfl
  have hraw : Simulates cfg slide (.sse (.pshufw true d o imm)) len s
      ((s.nx len).setXs d (Sz.bits .w) (hwWords 8 imm (fun i => lane (Sz.bits .w) b i))) :=
    .of_body (fun m => (Sse.pshufw true d o imm).lift slide m) (fun _ _ => rfl) (fun _ h => sim_pshufhw_raw h ho hs3)
  constructor
  · intro h b' hb' i hi
    rw [hb] at hb'
    cases hb'
    obtain ⟨m1, e1, r1⟩ := h (s.ip - slide) (s.rep slide) (rep_rel slide s) (BitVec.sub_add_cancel _ _).symm
    obtain ⟨m2, e2, r2⟩ := hraw (s.ip - slide) (s.rep slide) (rep_rel slide s) (BitVec.sub_add_cancel _ _).symm
    rw [e1] at e2
    cases e2
    rw [hs2] at r1
    have hv := Option.some.inj ((r2.vec d).symm.trans (r1.vec d))
    have := setXs_inj (z := .w) hv (i := i + 4) (show i + 4 < 8 by omega)
    simp only [hwWords, show ¬ (i + 4 < 4) by omega, if_false, Nat.add_sub_cancel, Nat.zero_add] at this
    exact this
  · intro h
    have e : (s.nx len).setXs d (Sz.bits .w) (hwWords 0 imm (fun i => lane (Sz.bits .w) b i)) =
        (s.nx len).setXs d (Sz.bits .w) (hwWords 8 imm (fun i => lane (Sz.bits .w) b i)) := by
      refine setXs_congr (by decide) fun i hi => ?_
      have hi : i < 8 := hi
      unfold hwWords
      by_cases h4 : i < 4
      · rw [if_pos h4, if_pos h4]
      · rw [if_neg h4, if_neg h4, Nat.zero_add]
        exact (h b hb (i - 4) (by omega)).symm
    rw [hs2, e]
    exact hraw

/-- The lifted code of a specified SSE instruction is right if and only if `SseExact` holds. -/
theorem X86_sse_exact (i : Sse) (hw : SseWf i) (hs : step (.sse i) len s = some s') :
    Simulates cfg slide (.sse i) len s s' ↔ SseExact (s.nx len) i := by
  have hrel := rep_rel slide (s.nx len)
  have back : SseOk (s.nx len) i → Simulates cfg slide (.sse i) len s s' :=
    fun h => .sse hs fun _ hm hs => sim_sse_body hm i h hs
  have hrun : Simulates cfg slide (.sse i) len s s' → ∃ m', i.lift slide ((s.nx len).rep slide) = some m' ∧ Rel slide m' s' :=
    fun h => h.run (fun m => i.lift slide m) (fun _ _ => rfl)
  have hs1 : (s.nx len).sse i = some s' := hs
  cases i with
  | movq z d o =>
    refine ⟨fun h => ?_, fun h => back h⟩
    obtain ⟨m', e, -⟩ := hrun h
    simp only [Sse.lift, Option.bind_eq_bind, Option.bind_eq_some_iff] at e
    obtain ⟨v, e1, e2⟩ := e
    refine ⟨?_, xload_plain hw.2 e1⟩
    cases d with
    | mem a => exact (mem_ok hrel hw.1 e2).1
    | _ => rfl
  | movs z d o =>
    refine ⟨fun h => ?_, fun h => back h⟩
    obtain ⟨m', e, -⟩ := hrun h
    simp only [Sse.lift, Option.bind_eq_bind, Option.bind_eq_some_iff] at e
    obtain ⟨v, e1, e2⟩ := e
    cases d with
    | mem a =>
      have e3 : xstore slide ((s.nx len).rep slide) z.bytes z.bytes (.mem a) v = some m' := by
        cases o <;> exact e2
      obtain ⟨h1, h2⟩ := xstore_ok hrel hw.1 e3
      exact ⟨h1, xload_plain hw.2 e1, h2⟩
    | _ => exact ⟨rfl, xload_plain hw.2 e1, fun a ha => nomatch ha⟩
  | movdq al d o =>
    refine ⟨fun h => ?_, fun h => back h⟩
    obtain ⟨m', e, -⟩ := hrun h
    simp only [Sse.lift, Option.bind_eq_bind, Option.bind_eq_some_iff] at e
    obtain ⟨v, e1, e2⟩ := e
    exact ⟨(xstore_ok hrel hw.1 e2).1, xload_plain hw.2 e1⟩
  | movnt o r =>
    refine ⟨fun h => ?_, fun h => back h⟩
    obtain ⟨m', e, -⟩ := hrun h
    exact (mem_ok hrel hw e).1
  | movlp d o =>
    refine ⟨fun h => ?_, fun h => back h⟩
    obtain ⟨m', e, -⟩ := hrun h
    simp only [Sse.lift, Option.bind_eq_bind, Option.bind_eq_some_iff] at e
    obtain ⟨v, e1, e2⟩ := e
    obtain ⟨h1, h2⟩ := xstore_ok hrel hw.1 e2
    exact ⟨h1, xload_plain hw.2 e1, h2⟩
  | movhp pd d o =>
    refine ⟨fun h => ?_, fun h => back h⟩
    obtain ⟨m', e, -⟩ := hrun h
    simp only [Sse.lift] at e
    cases pd with
    | true =>
      simp only [if_true] at e
      cases d with
      | mem a =>
        simp only [liftMovhpd, Option.bind_eq_bind, Option.bind_eq_some_iff] at e
        obtain ⟨v, e1, a1, e2, e3⟩ := e
        have e4 := mem_ok hrel (m' := m') hw.1 (by
          simp only [Option.bind_eq_bind, Option.bind_eq_some_iff]
          exact ⟨a1, e2, e3⟩)
        exact ⟨e4.1, xloadV_plain hw.2 e1, fun a ha => by cases ha; exact e4.2⟩
      | gp r => cases e
      | x r =>
        simp only [liftMovhpd, Option.bind_eq_bind, Option.bind_eq_some_iff] at e
        obtain ⟨v, e1, -⟩ := e
        exact ⟨rfl, xload_plain hw.2 e1, fun a ha => nomatch ha⟩
    | false =>
      simp only [Bool.false_eq_true, if_false] at e
      cases d with
      | mem a =>
        simp only [liftMovhps, Option.bind_eq_bind, Option.bind_eq_some_iff] at e
        obtain ⟨v, e1, a1, e2, e3⟩ := e
        have e4 := mem_ok hrel (m' := m') hw.1 (by
          simp only [Option.bind_eq_bind, Option.bind_eq_some_iff]
          exact ⟨a1, e2, e3⟩)
        exact ⟨e4.1, xloadV_plain hw.2 e1, fun a ha => by cases ha; exact e4.2⟩
      | gp r => cases e
      | x r =>
        simp only [liftMovhps, Option.bind_eq_bind, Option.bind_eq_some_iff] at e
        obtain ⟨v, e1, -⟩ := e
        exact ⟨rfl, xloadV_plain hw.2 e1, fun a ha => nomatch ha⟩
  | movhlps d r => exact ⟨fun _ => trivial, fun _ => back trivial⟩
  | fence => exact ⟨fun _ => trivial, fun _ => back trivial⟩
  | pshiftBytes right d imm => exact ⟨fun _ => trivial, fun _ => back hw⟩
  | fxsave o => cases hs1
  | bin op horz scalar z d o =>
    refine ⟨fun h => ?_, fun h => back h⟩
    obtain ⟨m', e, -⟩ := hrun h
    simp only [Sse.lift, liftBin] at e
    split at e
    · rename_i hx
      obtain ⟨-, -, rfl⟩ := hx
      rfl
    · split at e
      · simp only [Option.bind_eq_bind, Option.bind_eq_some_iff] at e
        obtain ⟨v, e1, -⟩ := e
        exact xload_plain hw e1
      · exact bin128_plain hw e
  | comis z d o =>
    refine ⟨fun h => ?_, fun h => back h⟩
    obtain ⟨m', e, -⟩ := hrun h
    simp only [Sse.lift, liftComis, Option.bind_eq_bind, Option.bind_eq_some_iff] at e
    obtain ⟨v, e1, -⟩ := e
    exact xload_plain hw e1
  | cmp scalar z d o imm =>
    refine ⟨fun h => ?_, fun h => back ⟨h.1, hw.2, h.2⟩⟩
    obtain ⟨m', e, -⟩ := hrun h
    simp only [Sse.lift, liftCmp, Option.bind_eq_bind, Option.bind_eq_some_iff] at e
    obtain ⟨p, -, e⟩ := e
    cases scalar with
    | true =>
      simp only [if_true, Option.bind_eq_some_iff] at e
      obtain ⟨v, e1, -⟩ := e
      exact ⟨xload_plain hw.1 e1, fun _ => xload_aligned hrel hw.1 e1⟩
    | false =>
      simp only [Bool.false_eq_true, if_false] at e
      exact ⟨bin128_plain hw.1 e, fun hc => nomatch hc⟩
  | fminmax mx scalar z d o =>
    refine ⟨fun h => ?_, fun h => back h⟩
    obtain ⟨m', e, -⟩ := hrun h
    simp only [Sse.lift, liftFminmax] at e
    cases scalar with
    | true =>
      simp only [if_true, Option.bind_eq_bind, Option.bind_eq_some_iff] at e
      obtain ⟨v, e1, -⟩ := e
      exact ⟨xload_plain hw e1, fun _ => xload_aligned hrel hw e1⟩
    | false =>
      simp only [Bool.false_eq_true, if_false] at e
      exact ⟨bin128_plain hw e, fun hc => nomatch hc⟩
  | sqrt scalar z d o =>
    refine ⟨fun h => ?_, fun h => back h⟩
    obtain ⟨m', e, -⟩ := hrun h
    simp only [Sse.lift, liftSqrt] at e
    cases scalar with
    | true =>
      simp only [if_true, Option.bind_eq_bind, Option.bind_eq_some_iff] at e
      obtain ⟨v, e1, -⟩ := e
      exact xload_plain hw e1
    | false =>
      simp only [Bool.false_eq_true, if_false] at e
      exact bin128_plain hw e
  | cvt k d o =>
    refine ⟨fun h => ?_, fun h => back h⟩
    obtain ⟨m', e, r⟩ := hrun h
    have hp : XOp.plain o = true := by
      simp only [Sse.lift] at e
      cases k <;> simp only [liftCvt, Option.bind_eq_bind, Option.bind_eq_some_iff] at e <;> obtain ⟨v, e1, -⟩ := e <;>
        first | exact xloadV_plain hw e1 | exact xload_plain hw e1
    refine ⟨hp, fun b hb => ?_⟩
    cases k
    case pd2dq =>
      intro i hi
      apply Classical.byContradiction
      intro hn
      have hl : xloadV slide ((s.nx len).rep slide) .q 2 1 o = _ := hrel.xloadN (z := .q) (n := 2) hp (by decide) hb
      simp only [Sse.lift, liftCvt, hl, Option.bind_eq_bind, Option.bind_some] at e
      cases e
      refine setX_none (i := i) (by omega) ?_ r
      rcases (show i = 0 ∨ i = 1 by omega) with rfl | rfl
      · exact fptosi_none hn
      · exact fptosi_none hn
    case ps2dq =>
      intro i hi
      apply Classical.byContradiction
      intro hn
      have hl : xloadV slide ((s.nx len).rep slide) .d 4 1 o = _ := hrel.xloadN (z := .d) (n := 4) hp (by decide) hb
      simp only [Sse.lift, liftCvt, hl, Option.bind_eq_bind, Option.bind_some] at e
      cases e
      exact setX_none (i := i) hi (fptosi_none hn) r
    all_goals trivial
  | cvttsi z iz d o =>
    refine ⟨fun h => ?_, fun h => back h⟩
    obtain ⟨m', e, r⟩ := hrun h
    simp only [Sse.lift, Option.bind_eq_bind, Option.bind_eq_some_iff] at e
    obtain ⟨v, e1, e2⟩ := e
    have hp := xload_plain hw e1
    refine ⟨hp, fun b hb => ?_⟩
    apply Classical.byContradiction
    intro hn
    rw [hrel.xload hp (Nat.dvd_refl 1) hb] at e1
    cases e1
    rw [fptosi_none hn] at e2
    cases e2
    exact store_none r
  | cvtsi z iz d o =>
    refine ⟨fun h => ?_, fun h => back h⟩
    obtain ⟨m', e, r⟩ := hrun h
    simp only [Sse.lift, Option.bind_eq_bind, Option.bind_eq_some_iff] at e
    obtain ⟨v, e1, -⟩ := e
    exact xload_plain hw e1
  | pshufw hi d o imm =>
    cases hi with
    | false =>
      refine ⟨fun h => ?_, fun h => back ⟨h.1, fun hc => nomatch hc⟩⟩
      obtain ⟨m', e, r⟩ := hrun h
      simp only [Sse.lift] at e
      exact ⟨bin128_plain hw e, fun hc => nomatch hc⟩
    | true =>
      constructor
      · intro h
        obtain ⟨m', e, r⟩ := hrun h
        simp only [Sse.lift] at e
        have hp := bin128_plain hw e
        exact ⟨hp, fun _ => (pshufhw_exact d o imm hp hs).1 h⟩
      · intro h
        exact (pshufhw_exact d o imm h.1 hs).2 (h.2 rfl)
  | insertps d o imm =>
    refine ⟨fun h => ?_, fun h => back h⟩
    obtain ⟨m', e, r⟩ := hrun h
    cases o with
    | mem a =>
      simp only [Sse.lift, liftInsertps, Option.bind_eq_bind, Option.bind_eq_some_iff] at e
      obtain ⟨v, e1, -⟩ := e
      exact xload_plain (o := .mem a) hw e1
    | _ => rfl
  | pinsr z d o imm =>
    refine ⟨fun h => ?_, fun h => back h⟩
    obtain ⟨m', e, r⟩ := hrun h
    simp only [Sse.lift, Option.bind_eq_bind, Option.bind_eq_some_iff] at e
    obtain ⟨v, e1, -⟩ := e
    exact xload_plain hw e1
  | pextr z d r imm =>
    refine ⟨fun h => ?_, fun h => back h⟩
    obtain ⟨m', e, -⟩ := hrun h
    cases d with
    | mem a => exact (mem_ok hrel hw e).1
    | _ => rfl
  | movdup odd z d o =>
    refine ⟨fun h => ?_, fun h => back h⟩
    obtain ⟨m', e, r⟩ := hrun h
    simp only [Sse.lift, liftMovdup, Option.bind_eq_bind, Option.bind_eq_some_iff] at e
    obtain ⟨v, e1, -⟩ := e
    refine ⟨xloadV_plain hw e1, ?_⟩
    rintro rfl a rfl
    simp only [xloadV, Option.map_eq_some_iff] at e1
    obtain ⟨x, e1, -⟩ := e1
    exact xload_aligned hrel (o := .mem a) hw e1 a rfl
  | pshift k z d c =>
    refine ⟨fun h => ?_, fun h => back ⟨h, hw.2⟩⟩
    obtain ⟨m', e, r⟩ := hrun h
    rintro o rfl
    simp only [Sse.lift, Option.bind_eq_bind, Option.bind_eq_some_iff] at e
    obtain ⟨v, e1, -⟩ := e
    exact xload_plain (hw.1 o rfl) e1
  | palignr d o imm =>
    refine ⟨fun h => ?_, fun h => back ⟨h, hw.2⟩⟩
    obtain ⟨m', e, -⟩ := hrun h
    simp only [Sse.lift] at e
    exact bin128_plain hw.1 e
  | movmsk z rz d r =>
    refine ⟨fun h => ?_, fun h => back h⟩
    obtain ⟨m', e, -⟩ := hrun h
    simp only [Sse.lift] at e
    split at e
    · assumption
    · cases e
  | pmovx sgn zf zt d o =>
    refine ⟨fun h => ?_, fun h => back h⟩
    obtain ⟨m', e, -⟩ := hrun h
    simp only [Sse.lift, Option.bind_eq_bind, Option.bind_eq_some_iff] at e
    obtain ⟨v, e1, -⟩ := e
    exact xloadV_plain hw e1
  | fxrstor o =>
    refine ⟨fun h => ?_, fun h => back h⟩
    obtain ⟨m', e, -⟩ := hrun h
    simp only [Sse.lift, liftFxrstor, Option.bind_eq_bind, Option.bind_eq_some_iff] at e
    obtain ⟨v, e1, -⟩ := e
    exact addr_plain hw e1
  | prefetch o =>
    refine ⟨fun h => ?_, fun h => back h⟩
    obtain ⟨m', e, -⟩ := hrun h
    simp only [Sse.lift, Option.bind_eq_bind, Option.bind_eq_some_iff] at e
    obtain ⟨v, e1, -⟩ := e
    exact addr_plain hw e1
  | addsub z d o | andn z d o | unpck hi z d o | shufpd d o imm | shufps d o imm | pshufd d o imm | pavg z d o | pmulh sgn d o
  | pmuld sgn d o | pmaddwd d o | padds sub sgn horz z d o | psadbw d o | pmaddubsw d o | pack sgn z d o | pcmp gt z d o
  | pminmax mx sgn z d o | pabs z d o | psign z d o =>
    refine ⟨fun h => ?_, fun h => back h⟩
    obtain ⟨m', e, -⟩ := hrun h
    simp only [Sse.lift, liftAddsub] at e
    exact bin128_plain hw e

/-- The states in which the lifted code of an instruction is right. -/
def ExactAll (len : Nat) (s : S) : Instr → Prop
  | .sse j => SseExact (s.nx len) j
  | i => Exact len s i

/-- Both x86-64 theorems in one. -/
theorem X86_exact_all (i : Instr) (hg : general i = true ∨ ∃ j, i = .sse j) (hw : WellFormed s i) (hx : ∀ j, i = .sse j → SseWf j)
    (hf : cfg.callFunction = none) (hs : step i len s = some s') :
    Simulates cfg slide i len s (after cfg len s s' i) ↔ ExactAll len s i := by
  rcases hg with hg | ⟨j, rfl⟩
  · cases i <;> first | (cases hg; done) | exact X86_exact _ hg hw hf hs
  · exact X86_sse_exact j (hx j rfl) hs

/-- `pshufhw xmm0, xmm1, 0x1b` is right if the upper four words of XMM1 are equal, and wrong in the state `s0`. -/
example (s' : S) (hs : step (.sse (.pshufw true 0 (.x 1) 0x1b)) 4 { s0 with vec := fun _ => 0x0007000700070007 <<< 64 } = some s') :
    Simulates {} 0 (.sse (.pshufw true 0 (.x 1) 0x1b)) 4 { s0 with vec := fun _ => 0x0007000700070007 <<< 64 } s' := by
  refine (X86_sse_exact (.pshufw true 0 (.x 1) 0x1b) trivial hs).2 ⟨rfl, fun _ b hb i hi => ?_⟩
  cases hb
  revert i
  decide +kernel

example (s' : S) (hs : step (.sse (.pshufw true 0 (.x 1) 0x1b)) 4 { s0 with vec := fun _ => 0x0004000300020001 <<< 64 } = some s') :
    ¬ Simulates {} 0 (.sse (.pshufw true 0 (.x 1) 0x1b)) 4 { s0 with vec := fun _ => 0x0004000300020001 <<< 64 } s' := by
  intro h
  have := ((X86_sse_exact (.pshufw true 0 (.x 1) 0x1b) trivial hs).1 h).2 rfl _ rfl 0 (by decide)
  revert this
  decide +kernel

/-- The hypotheses are met by an instruction that is right only for some addresses. -/
example : SseWf (.movs .d (.mem { base := .reg 6, off := 1 }) (.x 0)) ∧
    (step (.sse (.movs .d (.mem { base := .reg 6, off := 1 }) (.x 0))) 4 s0).isSome = true ∧
    ¬ SseExact (s0.nx 4) (.movs .d (.mem { base := .reg 6, off := 1 }) (.x 0)) := by
  refine ⟨⟨(fun h => nomatch h), trivial⟩, by decide +kernel, fun h => ?_⟩
  have := h.2.2 _ rfl
  revert this
  decide +kernel

end Verif.X86.Spec
