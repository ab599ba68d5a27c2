import Verif.RV64.FpSpec

/-!
C51: floating-point arithmetic, conversions and comparisons of the RV64 lifter.

The lifted code does not NaN-box single-precision values (`C44_nanbox_counterexample`): it zero-extends
them.  The relation between lifted code and hart used here allows for that.
-/

namespace Verif.RV64

set_option linter.unusedSimpArgs false

open Verif.IR Verif.Fp

/-- The same state, except that single-precision numbers in registers may be zero-extended instead of
NaN-boxed. -/
def Unboxed (s0 s : Spec.State) : Prop :=
  s0.gp = s.gp ∧ s0.mem = s.mem ∧
    ∀ r, s0.fp r = s.fp r ∨ ∃ v : BitVec 32, s.fp r = Spec.nanBox v ∧ s0.fp r = v.setWidth 64

/-- The lifted code's registers and memory represent those of the hart, up to NaN-boxing. -/
def RegBox (m : St) (s : Spec.State) : Prop := ∃ s0, RegRel m s0 ∧ Unboxed s0 s

/-- ... and the run-time program counter is the architectural one. -/
def RelBox (slide : BitVec 64) (m : St) (s : Spec.State) : Prop := RegBox m s ∧ m.pc.val slide = some s.pc

theorem unboxed_refl (s : Spec.State) : Unboxed s s := ⟨rfl, rfl, fun _ => .inl rfl⟩

theorem relBox_of_rel {slide : BitVec 64} {m : St} {s : Spec.State} (h : Rel slide m s) : RelBox slide m s :=
  ⟨⟨s, h.1, unboxed_refl s⟩, h.2⟩

theorem unboxed_x {s0 s : Spec.State} (h : Unboxed s0 s) (r : Nat) : s0.x r = s.x r := by
  unfold Spec.State.x; rw [h.1]

theorem boxed_nanBox (v : BitVec 32) : Spec.boxed (Spec.nanBox v) = true := by
  have : (Spec.nanBox v).extractLsb' 32 32 = 0xffffffff#32 := by
    unfold Spec.nanBox
    apply BitVec.eq_of_getLsbD_eq
    intro k hk
    simp only [BitVec.getLsbD_extractLsb', BitVec.getLsbD_append, hk, decide_true, Bool.true_and]
    rw [if_neg (by omega)]
    congr 1
    omega
  simp only [Spec.boxed, this, beq_self_eq_true]

theorem setWidth_nanBox (v : BitVec 32) : (Spec.nanBox v).setWidth 32 = v := by
  unfold Spec.nanBox
  apply BitVec.eq_of_getLsbD_eq
  intro k hk
  simp only [BitVec.getLsbD_setWidth, BitVec.getLsbD_append, hk, decide_true, Bool.true_and, if_true]

theorem fw_format (f : FW) : Format f.bits := by cases f <;> simp [FW.bits, Format]

/-- Is a register content of the right kind for an operand of the given format? -/
def srcOk (f : FW) (v : BitVec 64) : Bool := match f with
  | .s => Spec.boxed v
  | .d => !Spec.boxed v

theorem loadFp_box {m : St} {s : Spec.State} (h : RegBox m s) (f : FW) (r : Nat) (hs : srcOk f (s.fp r) = true) :
    loadFp m r f.bits = some (Spec.opnd f (s.fp r)) := by
  obtain ⟨s0, hr, -, -, hu⟩ := h
  rw [loadFp_rel hr]
  congr 1
  cases f
  · have hs' : Spec.boxed (s.fp r) = true := hs
    simp only [Spec.opnd, hs', if_true, FW.bits]
    rcases hu r with h | ⟨v, h1, h2⟩
    · rw [h]
    · rw [h1, h2, setWidth_nanBox]
      apply BitVec.eq_of_getLsbD_eq
      intro k hk
      simp only [BitVec.getLsbD_setWidth, hk, decide_true, Bool.true_and, show k < 64 by omega]
  · have hs' : Spec.boxed (s.fp r) = false := by simpa [srcOk] using hs
    simp only [Spec.opnd, FW.bits, BitVec.setWidth_eq]
    rcases hu r with h | ⟨v, h1, h2⟩
    · exact h
    · rw [h1, boxed_nanBox] at hs'; cases hs'

theorem loadFp_low {m : St} {s : Spec.State} (h : RegBox m s) (r : Nat) :
    loadFp m r 32 = some ((s.fp r).setWidth 32) := by
  obtain ⟨s0, hr, -, -, hu⟩ := h
  rw [loadFp_rel hr]
  congr 1
  rcases hu r with h | ⟨v, h1, h2⟩
  · rw [h]
  · rw [h1, h2, setWidth_nanBox]
    apply BitVec.eq_of_getLsbD_eq
    intro k hk
    simp only [BitVec.getLsbD_setWidth, hk, decide_true, Bool.true_and, show k < 64 by omega]

theorem loadGp_box {m : St} {s : Spec.State} (h : RegBox m s) (r w : Nat) :
    loadGp m r w = some ((s.x r).setWidth w) := by
  obtain ⟨s0, hr, hu⟩ := h
  rw [loadGp_rel hr, unboxed_x hu]

theorem storeGp_box {m : St} {s : Spec.State} (h : RegBox m s) (r : Nat) {w : Nat} (v : BitVec w) :
    RegBox (storeGp m r (some v)) (s.setX r (v.signExtend 64)) := by
  obtain ⟨s0, hr, h1, h2, h3⟩ := h
  refine ⟨_, storeGp_rel hr r v, ?_⟩
  unfold Spec.State.setX
  split
  · exact ⟨h1, h2, h3⟩
  · exact ⟨by simp only [h1], h2, h3⟩

theorem storeFp_box {m : St} {s : Spec.State} (h : RegBox m s) (r : Nat) (f : FW) (v : BitVec f.bits) :
    RegBox (storeFp m r (some v)) { s with fp := fun k => if k = r then Spec.box f v else s.fp k } := by
  obtain ⟨s0, hr, h1, h2, h3⟩ := h
  refine ⟨_, storeFp_rel hr r v, h1, h2, fun k => ?_⟩
  by_cases hk : k = r
  · simp only [hk, if_true]
    cases f
    · exact .inr ⟨v, rfl, rfl⟩
    · exact .inl (BitVec.setWidth_eq v)
  · simp only [hk, if_false]
    exact h3 k

theorem lift_box {cfg : Cfg} {slide : BitVec 64} {i : Frv} {start : BitVec 64} {len : Nat} {m m' : St}
    {s' : Spec.State} (h : liftPlain slide i { m with pc := .const start } = some (some m')) (hr : RegBox m' s') :
    ∃ m'', lift cfg slide i start len m = some { st := m'' } ∧
      RelBox slide m'' { s' with pc := start + slide + BitVec.ofNat 64 len } := by
  obtain ⟨s0, hr, hu⟩ := hr
  obtain ⟨m'', h1, h2⟩ := lift_rel (cfg := cfg) (len := len) h hr
  exact ⟨m'', h1, ⟨_, h2.1, hu⟩, h2.2⟩

/-- The operands for which the lifted code is known to be right.
* single-precision operands are NaN-boxed, double-precision operands are not (`C44_nanbox_counterexample`);
* arithmetic uses the dynamic rounding mode (others are an assertion failure) and the result is not NaN
  (`C51_nan_counterexample`);
* fused operations do not round the product (`C51_fma_counterexample`);
* minimum and maximum are not applied to two NaNs or to zeros of opposite sign
  (`C51_minmax_counterexample`);
* conversions from integers round to nearest even or are exact (`C51_ofInt_counterexample`);
* conversions to integers use RTZ, RDN, RUP, RMM, or DYN if there is nothing to round
  (`C51_toInt_counterexample`), and the result fits (`C51_range_counterexample`). -/
def fpFine (op : FOp) (f : FW) (i : Frv) (s : Spec.State) : Bool :=
  let a := Spec.opnd f (s.fp i.rs1)
  let b := Spec.opnd f (s.fp i.rs2)
  let c := Spec.opnd f (s.fp i.rs3)
  let ok1 := srcOk f (s.fp i.rs1)
  let ok2 := ok1 && srcOk f (s.fp i.rs2)
  let ok3 := ok2 && srcOk f (s.fp i.rs3)
  let fits (long signed : Bool) : Option Int → Bool
    | some z => decide (Spec.intLo long signed ≤ z ∧ z ≤ Spec.intHi long signed)
    | none => false
  match op with
  | .arith o => ok2 && i.misc == 7 && !isNaN (arith o a b)
  | .min | .max => ok2 && !(isNaN a && isNaN b) && !decide (mag a = 0 ∧ mag b = 0 ∧ a.msb ≠ b.msb)
  | .madd => ok3 && exactProd a b && !isNaN (fma a b c)
  | .msub => ok3 && exactProd a b && !isNaN (fma a b (Spec.neg c))
  | .nmsub => ok3 && exactProd a b && !isNaN (fma (Spec.neg a) b c)
  | .nmadd => ok3 && exactProd a b && !isNaN (fma (Spec.neg a) b (Spec.neg c))
  | .sqrt => ok1 && !isNaN (sqrt a)
  | .eq | .lt | .le => ok2
  | .ofInt long signed => i.misc == 0 || i.misc == 7 ||
      exactInt f.bits (Spec.intOf long signed (s.x i.rs1))
  | .toInt long signed => ok1 &&
      (match i.misc with
       | 1 => fits long signed (toIntM .zero a)
       | 2 => fits long signed (toIntM .down a)
       | 3 => fits long signed (toIntM .up a)
       | 4 => fits long signed (toIntM .away a)
       | 7 => fits long signed (toIntM .zero a) && toIntM .even a == toIntM .zero a
       | _ => false)
  | .cvt => match f with
    | .s => srcOk .d (s.fp i.rs1) && !isNaN (s.fp i.rs1)
    | .d => srcOk .s (s.fp i.rs1) && !isNaN (Spec.opnd .s (s.fp i.rs1))

theorem canon_of {w : Nat} {v : BitVec w} (h : isNaN v = false) : Spec.canon v = v := by
  simp only [Spec.canon, h, Bool.false_eq_true, if_false]

/-- Conversion to integer of a value that fits. -/
theorem fpto_eq {w : Nat} (long signed : Bool) {v : BitVec w} {z : Int} (hz : toInt v = some z)
    (h1 : Spec.intLo long signed ≤ z) (h2 : z ≤ Spec.intHi long signed) :
    (if signed then fptosi (if long then 64 else 32) (some v) else fptoui (if long then 64 else 32) (some v))
      = some (BitVec.ofInt (if long then 64 else 32) z) := by
  unfold Spec.intLo at h1
  unfold Spec.intHi at h2
  cases long <;> cases signed <;>
    simp only [fptosi, fptoui, Option.bind_some, hz, Bool.false_eq_true, if_true, if_false] at h1 h2 ⊢ <;>
    exact if_pos ⟨by omega, by omega⟩

theorem cvtInt_fits {w : Nat} {long signed : Bool} {mode : Mode} {v : BitVec w} {z : Int}
    (hz : toIntM mode v = some z) (h1 : Spec.intLo long signed ≤ z) (h2 : z ≤ Spec.intHi long signed) :
    Spec.cvtInt long signed mode v = z := by
  simp only [Spec.cvtInt, hz]; omega

/-- **C51** (partial) Arithmetic, fused multiply-add, square root, minimum, maximum, comparison and
conversion instructions of the F and D extensions: the lifted code gives the result of the ISA, that is of
IEEE 754 (`Spec.canon_arith`, ...), for all operands except those named at `fpFine`. -/
theorem C51_rv64_fp_partial (cfg : Cfg) (slide : BitVec 64) (i : Frv) (start : BitVec 64) (len : Nat) (m : St)
    (s s' : Spec.State) (op : FOp) (f : FW) (hr : RelBox slide m s) (hs : s.pc = start + slide)
    (hi : i.mnem = .fp op f) (hf : fpFine op f i s = true) (he : Spec.fpStep op f i len s = some s') :
    ∃ m', lift cfg slide i start len m = some { st := m' } ∧ RelBox slide m' s' := by
  have hr' : RegBox { m with pc := .const start } s := hr.1
  have hw := fw_format f
  have plain : liftPlain slide i { m with pc := .const start }
      = (liftFp { m with pc := .const start } i op f).map some := by
    unfold liftPlain; rw [hi]
  have putF : ∀ (g : FW) (v : BitVec g.bits), s' = s.wrF i.rd (Spec.box g v) len →
      liftFp { m with pc := .const start } i op f = some (storeFp { m with pc := .const start } i.rd (some v)) →
      ∃ m', lift cfg slide i start len m = some { st := m' } ∧ RelBox slide m' s' := by
    intro g v h1 h2
    rw [h2] at plain
    have := lift_box (cfg := cfg) (len := len) plain (storeFp_box hr' i.rd g v)
    rw [← hs] at this
    rw [h1]; exact this
  have putX : ∀ {w : Nat} (v : BitVec w), s' = s.wr i.rd (v.signExtend 64) len →
      liftFp { m with pc := .const start } i op f = some (storeGp { m with pc := .const start } i.rd (some v)) →
      ∃ m', lift cfg slide i start len m = some { st := m' } ∧ RelBox slide m' s' := by
    intro w v h1 h2
    rw [h2] at plain
    have := lift_box (cfg := cfg) (len := len) plain (storeGp_box hr' i.rd v)
    rw [← hs] at this
    rw [h1]; exact this
  clear plain
  have l1 := loadFp_box hr' f i.rs1
  have l2 := loadFp_box hr' f i.rs2
  have l3 := loadFp_box hr' f i.rs3
  have hcmp : ∀ p : Fp.Rel → Bool, srcOk f (s.fp i.rs1) = true → srcOk f (s.fp i.rs2) = true →
      liftFcmp { m with pc := .const start } i p f.bits = storeGp { m with pc := .const start } i.rd
        (some (Spec.bit (p (cmp (Spec.opnd f (s.fp i.rs1)) (Spec.opnd f (s.fp i.rs2)))))) := by
    intro p h1 h2
    simp only [liftFcmp, l1 h1, l2 h2, fcmp, ir, Spec.bit, Bv.setWidth_ofBool_64]
  have hmadd : ∀ sub neg, srcOk f (s.fp i.rs1) = true → srcOk f (s.fp i.rs2) = true →
      srcOk f (s.fp i.rs3) = true →
      exactProd (Spec.opnd f (s.fp i.rs1)) (Spec.opnd f (s.fp i.rs2)) = true →
      isNaN (fma (if neg then Spec.opnd f (s.fp i.rs1) ^^^ BitVec.intMin f.bits else Spec.opnd f (s.fp i.rs1))
        (Spec.opnd f (s.fp i.rs2))
        (if sub then Spec.opnd f (s.fp i.rs3) ^^^ BitVec.intMin f.bits else Spec.opnd f (s.fp i.rs3))) = false →
      liftFmadd { m with pc := .const start } i sub neg f.bits = storeFp { m with pc := .const start } i.rd
        (some (fma (if neg then Spec.opnd f (s.fp i.rs1) ^^^ BitVec.intMin f.bits else Spec.opnd f (s.fp i.rs1))
        (Spec.opnd f (s.fp i.rs2))
        (if sub then Spec.opnd f (s.fp i.rs3) ^^^ BitVec.intMin f.bits else Spec.opnd f (s.fp i.rs3)))) := by
    intro sub neg h1 h2 h3 h4 h5
    rw [← madd_eq hw neg sub h4 h5]
    simp only [liftFmadd, l1 h1, l2 h2, l3 h3, fbin, ir]
    cases neg <;> cases sub <;> simp only [Bool.false_eq_true, if_true, if_false, ir]
  cases op with
  | arith o =>
    simp only [fpFine, Bool.and_eq_true, beq_iff_eq, Bool.not_eq_true'] at hf
    obtain ⟨⟨⟨h1, h2⟩, h3⟩, h4⟩ := hf
    simp only [Spec.fpStep, h3, Spec.rmMode, if_true, canon_of h4, Option.some.injEq] at he
    exact putF f _ he.symm (by simp only [liftFp, liftFpArith, h3, if_true, l1 h1, l2 h2, fbin, ir])
  | min =>
    simp only [fpFine, Bool.and_eq_true, Bool.not_eq_true', decide_eq_false_iff_not] at hf
    obtain ⟨⟨⟨h1, h2⟩, h3⟩, h4⟩ := hf
    simp only [Spec.fpStep, h3, Bool.false_eq_true, if_false, Option.some.injEq] at he
    exact putF f _ he.symm (by
      simp only [liftFp, liftFminmax, l1 h1, l2 h2]
      rw [minnum_eq hw (by simpa using h3) h4])
  | max =>
    simp only [fpFine, Bool.and_eq_true, Bool.not_eq_true', decide_eq_false_iff_not] at hf
    obtain ⟨⟨⟨h1, h2⟩, h3⟩, h4⟩ := hf
    simp only [Spec.fpStep, h3, Bool.false_eq_true, if_false, Option.some.injEq] at he
    exact putF f _ he.symm (by
      simp only [liftFp, liftFminmax, l1 h1, l2 h2]
      rw [maxnum_eq hw (by simpa using h3) h4])
  | madd =>
    simp only [fpFine, Bool.and_eq_true, Bool.not_eq_true'] at hf
    obtain ⟨⟨⟨⟨h1, h2⟩, h3⟩, h4⟩, h5⟩ := hf
    simp only [Spec.fpStep, canon_of h5] at he
    split at he
    · cases he
      exact putF f _ rfl (congrArg some (hmadd false false h1 h2 h3 h4 h5))
    · cases he
  | msub =>
    simp only [fpFine, Bool.and_eq_true, Bool.not_eq_true'] at hf
    obtain ⟨⟨⟨⟨h1, h2⟩, h3⟩, h4⟩, h5⟩ := hf
    simp only [Spec.fpStep, canon_of h5] at he
    split at he
    · cases he
      exact putF f _ rfl (congrArg some (hmadd true false h1 h2 h3 h4 h5))
    · cases he
  | nmsub =>
    simp only [fpFine, Bool.and_eq_true, Bool.not_eq_true'] at hf
    obtain ⟨⟨⟨⟨h1, h2⟩, h3⟩, h4⟩, h5⟩ := hf
    simp only [Spec.fpStep, canon_of h5] at he
    split at he
    · cases he
      exact putF f _ rfl (congrArg some (hmadd false true h1 h2 h3 h4 h5))
    · cases he
  | nmadd =>
    simp only [fpFine, Bool.and_eq_true, Bool.not_eq_true'] at hf
    obtain ⟨⟨⟨⟨h1, h2⟩, h3⟩, h4⟩, h5⟩ := hf
    simp only [Spec.fpStep, canon_of h5] at he
    split at he
    · cases he
      exact putF f _ rfl (congrArg some (hmadd true true h1 h2 h3 h4 h5))
    · cases he
  | sqrt =>
    simp only [fpFine, Bool.and_eq_true, Bool.not_eq_true'] at hf
    obtain ⟨h1, h2⟩ := hf
    simp only [Spec.fpStep, canon_of h2] at he
    split at he
    · cases he
      exact putF f _ rfl (by simp only [liftFp, l1 h1, fsqrt, ir])
    · cases he
  | eq =>
    simp only [fpFine, Bool.and_eq_true] at hf
    simp only [Spec.fpStep, Option.some.injEq] at he
    refine putX (Spec.bit _) (by rw [BitVec.signExtend_eq]; exact he.symm) ?_
    simp only [liftFp, hcmp _ hf.1 hf.2]
    rfl
  | lt =>
    simp only [fpFine, Bool.and_eq_true] at hf
    simp only [Spec.fpStep, Option.some.injEq] at he
    refine putX (Spec.bit _) (by rw [BitVec.signExtend_eq]; exact he.symm) ?_
    simp only [liftFp, hcmp _ hf.1 hf.2]
    rfl
  | le =>
    simp only [fpFine, Bool.and_eq_true] at hf
    simp only [Spec.fpStep, Option.some.injEq] at he
    refine putX (Spec.bit _) (by rw [BitVec.signExtend_eq]; exact he.symm) ?_
    simp only [liftFp, hcmp _ hf.1 hf.2]
    congr 4
    generalize Fp.cmp _ _ = r
    cases r <;> rfl
  | ofInt long signed =>
    simp only [fpFine, Bool.or_eq_true, beq_iff_eq] at hf
    simp only [Spec.fpStep] at he
    obtain ⟨mode, hm, he⟩ := Option.bind_eq_some_iff.1 he
    have hval : ofIntM mode f.bits (Spec.intOf long signed (s.x i.rs1)) = ofInt f.bits (Spec.intOf long signed (s.x i.rs1)) := by
      rcases hf with (h | h) | h
      · rw [h] at hm; cases hm; exact ofIntM_even _
      · rw [h] at hm; cases hm; exact ofIntM_even _
      · exact ofIntM_exact mode h
    rw [hval] at he
    simp only [Option.some.injEq] at he
    refine putF f _ he.symm ?_
    simp only [liftFp, liftFcvtIToF, Spec.intOf]
    cases long <;> cases signed <;> simp only [Bool.false_eq_true, if_true, if_false, loadGp_box hr', sitofp,
      uitofp, ir]
    · rfl
    · rfl
    · show some (storeFp _ _ (some (ofInt _ ((s.x i.rs1).setWidth 64).toNat))) = _
      rw [BitVec.setWidth_eq]
    · show some (storeFp _ _ (some (ofInt _ ((s.x i.rs1).setWidth 64).toInt))) = _
      rw [BitVec.setWidth_eq]
  | toInt long signed =>
    simp only [fpFine, Bool.and_eq_true] at hf
    obtain ⟨h1, hf⟩ := hf
    simp only [Spec.fpStep] at he
    obtain ⟨mode, hm, he⟩ := Option.bind_eq_some_iff.1 he
    -- the code rounds as the mode says
    have hcore : ∀ mode v', fcvtRound i.misc (some (Spec.opnd f (s.fp i.rs1))) = some (some v') →
        toInt v' = toIntM mode (Spec.opnd f (s.fp i.rs1)) →
        (match toIntM mode (Spec.opnd f (s.fp i.rs1)) with
          | some z => decide (Spec.intLo long signed ≤ z ∧ z ≤ Spec.intHi long signed)
          | none => false) = true →
        some s' = some (s.wr i.rd (Spec.intReg long (Spec.cvtInt long signed mode (Spec.opnd f (s.fp i.rs1)))) len) →
        ∃ m', lift cfg slide i start len m = some { st := m' } ∧ RelBox slide m' s' := by
      intro mode v' hv ht hfit hs'
      split at hfit
      next z hz =>
        simp only [decide_eq_true_eq] at hfit
        obtain ⟨hlo, hhi⟩ := hfit
        rw [cvtInt_fits hz hlo hhi] at hs'
        refine putX (BitVec.ofInt (if long then 64 else 32) z) ?_ ?_
        · rw [Option.some.inj hs']
          cases long
          · rfl
          · show _ = s.wr i.rd ((BitVec.ofInt 64 z).signExtend 64) len
            rw [BitVec.signExtend_eq]
            rfl
        · simp only [liftFp, liftFcvtFToI, l1 h1, hv, Option.map_some]
          rw [fpto_eq long signed (ht.trans hz) hlo hhi]
      · cases hfit
    split at hf
    next h => 
      rw [h] at hm; cases hm
      exact hcore .zero _ (by rw [h]; rfl) (toInt_eq _) hf he.symm
    next h => 
      rw [h] at hm; cases hm
      exact hcore .down _ (by rw [h]; rfl) (toInt_integral hw _ _) hf he.symm
    next h => 
      rw [h] at hm; cases hm
      exact hcore .up _ (by rw [h]; rfl) (toInt_integral hw _ _) hf he.symm
    next h => 
      rw [h] at hm; cases hm
      exact hcore .away _ (by rw [h]; rfl) (toInt_integral hw _ _) hf he.symm
    next h => 
      rw [h] at hm; cases hm
      simp only [Bool.and_eq_true, beq_iff_eq] at hf
      exact hcore .even _ (by rw [h]; rfl) ((toInt_eq _).trans hf.2.symm) (by rw [hf.2]; exact hf.1) he.symm
    · cases hf
  | cvt =>
    have hq : ∀ {v w : Nat} (hv : Format v) (x : BitVec w), isNaN x = false → isNaN (conv v x) = false := by
      intro v w hv x hx
      unfold conv
      simp only [hx, Bool.false_eq_true, if_false]
      split
      · have := (infMag_eq hv).2.2
        simp only [isNaN, mag_signed (fmt_pos hv) _ this, decide_eq_false_iff_not]; omega
      · exact round_not_nan hv _ _ _
    cases f with
    | s =>
      simp only [fpFine, Bool.and_eq_true, Bool.not_eq_true'] at hf
      simp only [Spec.fpStep, canon_of (hq (.inl rfl) _ hf.2)] at he
      split at he
      · cases he
        refine putF .s (conv 32 (s.fp i.rs1)) rfl ?_
        have := loadFp_box hr' .d i.rs1 hf.1
        simp only [FW.bits, Spec.opnd] at this
        simp only [liftFp, this, fpconv, ir]
        rfl
      · cases he
    | d =>
      simp only [fpFine, Bool.and_eq_true, Bool.not_eq_true'] at hf
      simp only [Spec.fpStep, canon_of (hq (.inr rfl) _ hf.2), Option.some.injEq] at he
      refine putF .d (conv 64 (Spec.opnd .s (s.fp i.rs1))) he.symm ?_
      have := loadFp_box hr' .s i.rs1 hf.1
      simp only [FW.bits] at this
      simp only [liftFp, this, fpconv, ir]
      rfl

/-! ### Non-vacuity and counterexamples -/

/-- A hart and lifted code with given floating-point registers. -/
def fpSpec (fp : Nat → BitVec 64) : Spec.State := { exSpec 0x400000#64 with fp := fp }
def fpSt (fp : Nat → BitVec 64) : St := { exSt 0x400000#64 with fp := fun r => some (fp r) }

theorem fpRel (fp : Nat → BitVec 64) : Rel 0#64 (fpSt fp) (fpSpec fp) :=
  ⟨⟨rfl, rfl, rfl⟩, by simp [fpSt, exSt, fpSpec, exSpec, ir]⟩

/-- Registers: 1.5, 2.75, -0.0, 1.0 and the single-precision numbers 1.5 and 3.0. -/
def fpRegs (r : Nat) : BitVec 64 :=
  match r with
  | 1 => 0x3ff8000000000000#64
  | 2 => 0x4006000000000000#64
  | 3 => 0x8000000000000000#64
  | 4 => 0x3ff0000000000000#64
  | 5 => 0xffffffff3fc00000#64
  | 6 => 0xffffffff40400000#64
  | _ => 0#64

/-- `fmadd.d f7, f1, f2, f4`: 1.5 * 2.75 + 1 = 5.125. -/
example : ∃ m', lift {} 0#64 ⟨.fp .madd .d, 7, 1, 2, 0, 4, 7⟩ 0x400000#64 4 (fpSt fpRegs) = some { st := m' } ∧
    RelBox 0#64 m' ((fpSpec fpRegs).wrF 7 0x4014800000000000#64 4) :=
  C51_rv64_fp_partial _ _ _ _ _ _ _ _ _ _ (relBox_of_rel (fpRel _)) (by decide) rfl (by decide +kernel)
    (by
      have : Spec.canon (fma (w := 64) 0x3ff8000000000000#64 0x4006000000000000#64 0x3ff0000000000000#64)
        = 0x4014800000000000#64 := by decide +kernel
      show some ((fpSpec fpRegs).wrF 7 (Spec.canon (fma (w := 64) 0x3ff8000000000000#64 0x4006000000000000#64
        0x3ff0000000000000#64)) 4) = _
      rw [this])

/-- `fdiv.s f7, f5, f6`: 1.5 / 3 = 0.5, NaN-boxed on the hart. -/
example : ∃ m', lift {} 0#64 ⟨.fp (.arith .div) .s, 7, 5, 6, 0, 0, 7⟩ 0x400000#64 4 (fpSt fpRegs)
      = some { st := m' } ∧
    RelBox 0#64 m' ((fpSpec fpRegs).wrF 7 0xffffffff3f000000#64 4) :=
  C51_rv64_fp_partial _ _ _ _ _ _ _ _ _ _ (relBox_of_rel (fpRel _)) (by decide) rfl (by decide +kernel)
    (by
      have : Spec.nanBox (Spec.canon (arith .div (w := 32) 0x3fc00000#32 0x40400000#32)) = 0xffffffff3f000000#64 := by
        decide +kernel
      show some ((fpSpec fpRegs).wrF 7 (Spec.nanBox (Spec.canon (arith .div (w := 32) 0x3fc00000#32
        0x40400000#32))) 4) = _
      rw [this])

/-- `fcvt.w.d x7, f2, rup`: 2.75 becomes 3. -/
example : ∃ m', lift {} 0#64 ⟨.fp (.toInt false true) .d, 7, 2, 0, 0, 0, 3⟩ 0x400000#64 4 (fpSt fpRegs)
      = some { st := m' } ∧
    RelBox 0#64 m' ((fpSpec fpRegs).wr 7 3#64 4) :=
  C51_rv64_fp_partial _ _ _ _ _ _ _ _ _ _ (relBox_of_rel (fpRel _)) (by decide) rfl (by decide +kernel)
    (by
      have : Spec.intReg false (Spec.cvtInt false true .up (w := 64) 0x4006000000000000#64) = 3#64 := by
        decide +kernel
      show some ((fpSpec fpRegs).wr 7 (Spec.intReg false (Spec.cvtInt false true .up (w := 64)
        0x4006000000000000#64)) 4) = _
      rw [this])

/-- What lifted code and hart leave in a floating-point register. -/
def fpBoth (fp : Nat → BitVec 64) (i : Frv) (op : FOp) (f : FW) : Option (Val 64) × Option (BitVec 64) :=
  ((lift {} 0#64 i 0x400000#64 4 (fpSt fp)).map (fun o => o.st.fp i.rd),
   (Spec.fpStep op f i 4 (fpSpec fp)).map (fun s => s.fp i.rd))

/-- ... and in an integer register. -/
def gpBoth (fp : Nat → BitVec 64) (i : Frv) (op : FOp) (f : FW) : Option (Val 64) × Option (BitVec 64) :=
  ((lift {} 0#64 i 0x400000#64 4 (fpSt fp)).map (fun o => o.st.gp i.rd),
   (Spec.fpStep op f i 4 (fpSpec fp)).map (fun s => s.gp i.rd))

/-- **C51 is false** for NaN results: `fdiv.d` of 0 by 0 must give the canonical NaN, whose sign is clear.
LLVM leaves the sign open, and x86 hosts set it. -/
theorem C51_nan_counterexample :
    fpBoth (fun _ => 0#64) ⟨.fp (.arith .div) .d, 3, 1, 2, 0, 0, 7⟩ (.arith .div) .d
      = (some (some 0xfff8000000000000#64), some 0x7ff8000000000000#64) := by
  decide +kernel

/-- **C51 is false** for static rounding modes of arithmetic instructions: `fadd.d f3, f1, f2, rne` is an
assertion failure. -/
theorem C51_rm_counterexample :
    fpBoth fpRegs ⟨.fp (.arith .add) .d, 3, 1, 2, 0, 0, 0⟩ (.arith .add) .d
      = (none, some 0x4011000000000000#64) := by
  decide +kernel

/-- **C51 is false** for fused multiply-add, which the lifted code rounds twice:
`(1 + 2^-27)^2 - (1 + 2^-26)` is `2^-54`, not 0. -/
theorem C51_fma_counterexample :
    fpBoth (fun r => if r = 4 then 0x3ff0000004000000#64 else 0x3ff0000002000000#64)
        ⟨.fp .msub .d, 3, 1, 2, 0, 4, 7⟩ .msub .d
      = (some (some 0#64), some 0x3c90000000000000#64) := by
  decide +kernel

/-- **C51 is false** for the minimum of 0 and -0, which must be -0 (LLVM leaves the choice open), and of two
NaNs, which must be the canonical NaN. -/
theorem C51_minmax_counterexample :
    fpBoth (fun r => if r = 1 then 0#64 else 0x8000000000000000#64) ⟨.fp .min .d, 3, 1, 2, 0, 0, 0⟩ .min .d
      = (some none, some 0x8000000000000000#64) ∧
    (fpBoth (fun _ => 0x7ff8000000000001#64) ⟨.fp .min .d, 3, 1, 2, 0, 0, 0⟩ .min .d).2
      = some 0x7ff8000000000000#64 ∧
    (fpBoth (fun _ => 0x7ff8000000000001#64) ⟨.fp .min .d, 3, 1, 2, 0, 0, 0⟩ .min .d).1
      ≠ some (some 0x7ff8000000000000#64) := by
  decide +kernel

/-- **C51 is false** for conversions from integers with a static rounding mode, which is ignored:
`fcvt.d.lu f3, x2, rtz` of `2^64 - 1` must give the number below `2^64`. -/
theorem C51_ofInt_counterexample :
    fpBoth fpRegs ⟨.fp (.ofInt true false) .d, 3, 2, 0, 0, 0, 1⟩ (.ofInt true false) .d
      = (some (some 0x43f0000000000000#64), some 0x43efffffffffffff#64) := by
  decide +kernel

/-- **C51 is false** for conversions to integers with the dynamic rounding mode, which truncate: 2.75 must
become 3 when the mode is to nearest.  With an explicit `rne` the lifter stops. -/
theorem C51_toInt_counterexample :
    gpBoth fpRegs ⟨.fp (.toInt true true) .d, 3, 2, 0, 0, 0, 7⟩ (.toInt true true) .d
      = (some (some 2#64), some 3#64) ∧
    gpBoth fpRegs ⟨.fp (.toInt true true) .d, 3, 2, 0, 0, 0, 0⟩ (.toInt true true) .d
      = (none, some 3#64) := by
  decide +kernel

/-- **C51 is false** for conversions of values that do not fit, which must be clipped: the lifted code
computes poison for infinity and for -1.5 converted to unsigned. -/
theorem C51_range_counterexample :
    gpBoth (fun _ => 0x7ff0000000000000#64) ⟨.fp (.toInt true true) .d, 3, 1, 0, 0, 0, 1⟩ (.toInt true true) .d
      = (some none, some 0x7fffffffffffffff#64) ∧
    gpBoth (fun _ => 0xbff8000000000000#64) ⟨.fp (.toInt false false) .d, 3, 1, 0, 0, 0, 1⟩ (.toInt false false) .d
      = (some none, some 0#64) := by
  decide +kernel

/-- **C51 is false** for single-precision operands that are not NaN-boxed: they count as NaN, the lifted code
uses the low half. -/
theorem C51_unboxed_counterexample :
    fpBoth (fun _ => 0x000000003f800000#64) ⟨.fp (.arith .add) .s, 3, 1, 2, 0, 0, 7⟩ (.arith .add) .s
      = (some (some 0x40000000#64), some 0xffffffff7fc00000#64) := by
  decide +kernel

end Verif.RV64
