import Verif.A64.SimdProps

/-!
C52: the AArch64 floating-point arithmetic, rounding and conversion instructions, scalar and vector.

The architecture is `S.fpu` (Verif/A64/FpuSpec.lean), for FPCR = 0.  The theorems range over all operations,
rounding directions, formats, arrangements, registers (also if they coincide), immediates and register contents.
-/

set_option linter.unusedSimpArgs false

namespace Verif.A64.Spec

open Verif.IR Verif.Fp

variable {cfg : Cfg} {slide : BitVec 64} {s s' : S} {len w : Nat}

/-! ### The specification is IEEE 754 -/

/-- Sum, difference, product, quotient, fused multiply-add and square root of the specification are those of
IEEE 754: the exact result rounded once to nearest even, with its rules for zeros, infinities and NaN. -/
theorem C52_spec_ieee (hw : Format w) (a b c : BitVec w) :
    (∀ o, Ieee.Result o a b (fpArith o a b)) ∧ Ieee.Fused a b c (fpMulAdd c a b) ∧ Ieee.Root a (fpSqrt a) :=
  ⟨fun o => fpArith_ieee hw o a b, fpMulAdd_ieee hw a b c, fpSqrt_ieee hw a⟩

/-- A fixed-point conversion of the specification is `a * 2^fbits` rounded to an integer in the direction of the
instruction, and clamped to the integers of `v` bits; infinities give the ends of the range and NaN zero. -/
theorem C52_spec_fixed (sgn : Bool) (mode : Mode) (fbits v : Nat) (a : BitVec w) :
    if isNaN a then fpToFixed sgn mode fbits v a = 0
    else if isInf a then fpToFixed sgn mode fbits v a = (if a.msb then loInt sgn v else hiInt sgn v)
    else ∃ z, Ieee.RoundsInt mode a.msb (units a * 2 ^ fbits) (2 ^ uexp w) z ∧
      fpToFixed sgn mode fbits v a = max (loInt sgn v) (min (hiInt sgn v) z) := by
  unfold fpToFixed toFixed
  cases hn : isNaN a
  · cases hi : isInf a
    · simp only [Bool.or_self, Bool.false_eq_true, if_false]
      exact ⟨_, roundQ_ieee mode a.msb _ _ (Nat.two_pow_pos _), rfl⟩
    · simp only [Bool.false_or, Bool.false_eq_true, if_false, if_true]
  · simp only [Bool.true_or, if_true]

/-- A conversion from fixed-point of the specification is `z / 2^fbits` rounded to nearest even. -/
theorem C52_spec_ofFixed (hw : Format w) (fbits : Nat) (z : Int) :
    Ieee.Rounds (decide (z < 0)) (z.natAbs * 2 ^ uexp w) (2 ^ fbits) (ofFixed w fbits z) :=
  rounds_round hw _ _ _ (Nat.two_pow_pos _)

/-! ### The lifted code -/

/-- C52: every floating-point arithmetic, rounding, conversion and immediate instruction does what the
architecture specifies, for operands that meet `Fpu.fine`.

Missing: results that are NaN (their sign and payload differ, see `C52_arith_lane` and the counterexamples);
multiply-accumulate with a product that is not exact (the code rounds twice); minimum and maximum with NaN
operands or zeros of opposite sign; vector FMUL by element with the product -0; conversions to integers that do
not fit; half precision; FPCR and FPSR. -/
theorem C52_a64_fp_partial {i : Fpu} (hok : Fpu.fine s i = true) (hs : step (.fpu i) len s = some s') :
    Simulates cfg slide (.fpu i) len s s' := sim_fpuInstr hok hs

/-- FADD, FSUB, FMUL and FDIV on one lane, without a condition: the lifted code computes an IEEE 754 result, it
is NaN exactly if the architecture's result is, and if it is a number, it is the architecture's. -/
theorem C52_arith_lane (hw : Format w) (o : Arith) (a b : BitVec w) :
    ∃ r, laneBin (.arith o) (some a) (some b) = some r ∧ Ieee.Result o a b r ∧
      isNaN r = isNaN (fbin2 (.arith o) a b) ∧ (isNaN r = false → r = fbin2 (.arith o) a b) :=
  ⟨Fp.arith o a b, rfl, arith_ieee hw o a b, (fpArith_nan hw o a b).symm, fun h => (fpArith_of hw h).symm⟩

/-- FSQRT likewise. -/
theorem C52_sqrt_lane (hw : Format w) (a : BitVec w) :
    ∃ r, fsqrt (some a) = some r ∧ Ieee.Root a r ∧ isNaN r = isNaN (fpSqrt a) ∧
      (isNaN r = false → r = fpSqrt a) :=
  ⟨Fp.sqrt a, rfl, sqrt_ieee hw a, (fpSqrt_nan hw a).symm, fun h => (fpSqrt_of hw h).symm⟩

/-- SCVTF, UCVTF, FCVTN, FCVTL and FMOV (immediate) need no condition (up to the payload of NaN). -/
theorem C52_convert {i : Fpu} (hi : (match i with
      | .ofGp .. | .movImm .. | .ofInt .. | .vmovImm .. | .cvt .. | .cvtn .. | .cvtl .. => true
      | _ => false) = true) (hs : step (.fpu i) len s = some s') : Simulates cfg slide (.fpu i) len s s' := by
  obtain ⟨s1, hp, rfl⟩ := step_plain hs rfl
  have hh : i.handled = true := fpu_handled hp
  refine plain_sim (fun m => i.lift m) (fun start m => ?_) ?_
  · simp only [lift, hh, if_true]
  · intro start m hr _ _
    cases i with
    | ofGp => exact sim_ofGp hr hp
    | movImm => exact sim_fmovImm hr hp
    | ofInt => exact sim_ofInt hr hp
    | vmovImm => exact sim_vmovImm hr hp
    | cvt => exact sim_fcvt hr hp
    | cvtn => exact sim_cvtn hr hp
    | cvtl => exact sim_cvtl hr hp
    | _ => cases hi

/-! ### Examples -/

/-- Result of the specification and of the lifted code in V`r`. -/
def fspec (i : Fpu) (s : S) (r : Fin 32) : Option (BitVec 128) := (step (.fpu i) 4 s).map (·.vec r)

def flift (i : Fpu) (s : S) (r : Fin 32) : Option (Val 128) :=
  (lift {} 0 (.fpu i) s.pc 4 (s.rep 0)).map (·.st.vec r)

/-- V0 = (1.5, -2, 0.25, 3) in single precision, V1 = (2, 0.5, 8, -1), V2 = 1.5 and V3 = -2.25 in double precision,
V4 = -0, V5 = NaN (quiet), V6 = 1 + 2^-52, V7 = 1 - 2^-53, V8 = infinity, V9 = (NaN, 1, -0, 0),
V10 = (-3, 2, 0, 5) as integers. -/
def sf : S := { s0 with
  vec := fun r => match r.val with
    | 0 => 0x404000003e800000c00000003fc00000 | 1 => 0xbf800000410000003f00000040000000
    | 2 => 0x3ff8000000000000 | 3 => 0xc002000000000000 | 4 => 0x8000000000000000
    | 5 => 0x7ff8000000000001 | 6 => 0x3ff0000000000001 | 7 => 0x3fefffffffffffff | 8 => 0x7ff0000000000000
    | 9 => 0x00000000800000003f8000007fc00000 | 10 => 0x000000050000000000000002fffffffd
    | _ => 0 }

-- FADD V4S: (3.5, -1.5, 8.25, 2)
example : Fpu.fine sf (.vbin (.arith .add) .s4 20 0 1) = true ∧
    fspec (.vbin (.arith .add) .s4 20 0 1) sf 20 = some 0x4000000041040000bfc0000040600000 ∧
    flift (.vbin (.arith .add) .s4 20 0 1) sf 20 = some (some 0x4000000041040000bfc0000040600000) := by decide +kernel
-- FMUL D: -3.375
example : Fpu.fine sf (.bin (.arith .mul) .d 20 2 3) = true ∧
    fspec (.bin (.arith .mul) .d 20 2 3) sf 20 = some 0xc00b000000000000 := by decide +kernel
-- FMADD D: 1.5 * -2.25 + 1.5 = -1.875
example : Fpu.fine sf (.madd false false .d 20 2 3 2) = true ∧
    fspec (.madd false false .d 20 2 3 2) sf 20 = some 0xbffe000000000000 := by decide +kernel
-- FMLA V4S by element 2: (1.5, -2, 0.25, 3) * 8 + (2, 0.5, 8, -1), in place
example : Fpu.fine sf (.elem .mla false .s4 1 0 1 2) = true ∧
    fspec (.elem .mla false .s4 1 0 1 2) sf 1 = some 0x41b8000041200000c178000041600000 := by decide +kernel
-- FCVTMS X, D: -2.25 rounded down; FCVTZS with 4 fraction bits: -36
example : Fpu.fine sf (.toGp true false .negInf 0 .d (.x 7) 3) = true ∧
    (step (.fpu (.toGp true false .negInf 0 .d (.x 7) 3)) 4 sf).map (·.x 7) = some (-3) := by decide +kernel
example : Fpu.fine sf (.toGp true true .zero 4 .d (.x 7) 3) = true ∧
    (step (.fpu (.toGp true true .zero 4 .d (.x 7) 3)) 4 sf).map (·.x 7) = some 0xffffffdc := by decide +kernel
-- FRINTA D: -2.25; FRINTP V4S: (2, -2, 1, 3)
example : Fpu.fine sf (.vrint .posInf 0 .s4 20 0) = true ∧
    fspec (.vrint .posInf 0 .s4 20 0) sf 20 = some 0x404000003f800000c000000040000000 := by decide +kernel
-- SCVTF V4S with one fraction bit: (-1.5, 1, 0, 2.5)
example : fspec (.ofInt true 1 false .s4 20 10) sf 20 = some 0x40200000000000003f800000bfc00000 := by decide +kernel
-- FMAXV S: 3; FMAXNM with a NaN operand in lane 0
example : Fpu.fine sf (.across .max .s4 20 0) = true ∧ fspec (.across .max .s4 20 0) sf 20 = some 0x40400000 := by
  decide +kernel
example : Fpu.fine sf (.bin .maxnm .s 20 9 0) = true ∧ fspec (.bin .maxnm .s 20 9 0) sf 20 = some 0x3fc00000 := by
  decide +kernel
-- FADDP V4S; FCVTN; FCVTL2; FSQRT; FMOV 1.0
example : Fpu.fine sf (.pair (.arith .add) .s4 20 0 1) = true ∧
    fspec (.pair (.arith .add) .s4 20 0 1) sf 20 = some 0x40e000004020000040500000bf000000 := by decide +kernel
example : Fpu.fine sf (.cvtn .s4 0 2) = true ∧
    fspec (.cvtn .s4 0 2) sf 0 = some 0x000000003fc00000c00000003fc00000 := by decide +kernel
example : Fpu.fine sf (.cvtl .s4 20 0) = true ∧
    fspec (.cvtl .s4 20 0) sf 20 = some 0x40080000000000003fd0000000000000 := by decide +kernel
example : fspec (.movImm .s 20 0x3ff0000000000000) sf 20 = some 0x3f800000 := by decide +kernel

/-! ### Counterexamples -/

/-- Refutation by the lower half of a SIMD&FP register. -/
theorem frefuted {i : Fpu} {s : S} (r : Fin 32)
    (h : (step (.fpu i) 4 s).isSome = true ∧
      (lift {} 0 (.fpu i) s.pc 4 (s.rep 0)).map (fun o => o.st.getV r 64) ≠
        (step (.fpu i) 4 s).map (some ∘ id ∘ fun s => s.scalar r 64)) :
    ∃ s', step (.fpu i) 4 s = some s' ∧ ¬ Simulates {} 0 (.fpu i) 4 s s' :=
  refuted (fun s => s.scalar r 64) (fun m => m.getV r 64) id (fun _ _ hr => hr.getV r 64) h

/-- FMADD is not fused in the lifted code: (1 + 2^-52)^2 - (1 + 2^-51) is 2^-104 on the processor and 0 in the
lifted code. -/
theorem C52_fmadd_counterexample :
    ∃ s', step (.fpu (.madd false false .d 20 6 6 3)) 4 { sf with vec := fun r => if r = 3 then 0xbff0000000000002 else sf.vec r } = some s' ∧
      ¬ Simulates {} 0 (.fpu (.madd false false .d 20 6 6 3)) 4
        { sf with vec := fun r => if r = 3 then 0xbff0000000000002 else sf.vec r } s' :=
  frefuted 20 (by decide +kernel)

/-- Nor is FMLA on vectors. -/
theorem C52_fmla_counterexample :
    ∃ s', step (.fpu (.vacc false .d2 3 6 6)) 4 { sf with vec := fun r => if r = 3 then 0xbff0000000000002 else sf.vec r } = some s' ∧
      ¬ Simulates {} 0 (.fpu (.vacc false .d2 3 6 6)) 4
        { sf with vec := fun r => if r = 3 then 0xbff0000000000002 else sf.vec r } s' :=
  frefuted 3 (by decide +kernel)

/-- FMAX with one NaN operand gives NaN on the processor and the other operand in the lifted code. -/
theorem C52_fmax_nan_counterexample :
    ∃ s', step (.fpu (.bin .max .d 20 2 5)) 4 sf = some s' ∧ ¬ Simulates {} 0 (.fpu (.bin .max .d 20 2 5)) 4 sf s' :=
  frefuted 20 (by decide +kernel)

/-- FMAXNM with a signalling NaN gives NaN on the processor and may give the other operand in the lifted code. -/
theorem C52_fmaxnm_snan_counterexample :
    ∃ s', step (.fpu (.bin .maxnm .d 20 2 5)) 4 { sf with vec := fun r => if r = 5 then 0x7ff0000000000001 else sf.vec r } = some s' ∧
      ¬ Simulates {} 0 (.fpu (.bin .maxnm .d 20 2 5)) 4
        { sf with vec := fun r => if r = 5 then 0x7ff0000000000001 else sf.vec r } s' :=
  frefuted 20 (by decide +kernel)

/-- FMIN of +0 and -0 gives -0 on the processor; llvm.minnum may return either. -/
theorem C52_fmin_zero_counterexample :
    ∃ s', step (.fpu (.bin .min .d 20 31 4)) 4 sf = some s' ∧ ¬ Simulates {} 0 (.fpu (.bin .min .d 20 31 4)) 4 sf s' :=
  frefuted 20 (by decide +kernel)

/-- FCVTZS of a number that does not fit saturates on the processor and is poison in the lifted code ... -/
theorem C52_fcvt_range_counterexample :
    ∃ s', step (.fpu (.toGp true false .zero 0 .d (.x 7) 8)) 4 sf = some s' ∧
      ¬ Simulates {} 0 (.fpu (.toGp true false .zero 0 .d (.x 7) 8)) 4 sf s' :=
  refuted (fun s => s.reg 64 (.x 7)) (fun m => m.get 64 (.x 7)) id (fun _ _ hr => hr.get 64 (.x 7)) (by decide +kernel)

/-- ... FCVTZU of a negative number gives 0 on the processor ... -/
theorem C52_fcvtzu_counterexample :
    ∃ s', step (.fpu (.toGp false false .zero 0 .d (.x 7) 3)) 4 sf = some s' ∧
      ¬ Simulates {} 0 (.fpu (.toGp false false .zero 0 .d (.x 7) 3)) 4 sf s' :=
  refuted (fun s => s.reg 64 (.x 7)) (fun m => m.get 64 (.x 7)) id (fun _ _ hr => hr.get 64 (.x 7)) (by decide +kernel)

/-- ... and so does FCVTZS of NaN, here on vectors. -/
theorem C52_fcvt_nan_counterexample :
    ∃ s', step (.fpu (.toInt true .zero 0 false .s4 20 9)) 4 sf = some s' ∧
      ¬ Simulates {} 0 (.fpu (.toInt true .zero 0 false .s4 20 9)) 4 sf s' :=
  frefuted 20 (by decide +kernel)

/-- Vector FMUL by element of -1 and 0 gives -0 on the processor and +0 in the lifted code, which adds the
product to zero. -/
theorem C52_fmul_elem_counterexample :
    ∃ s', step (.fpu (.elem .mul false .s4 20 9 1 3)) 4 { sf with vec := fun r => if r = 9 then 0 else sf.vec r } = some s' ∧
      ¬ Simulates {} 0 (.fpu (.elem .mul false .s4 20 9 1 3)) 4
        { sf with vec := fun r => if r = 9 then 0 else sf.vec r } s' :=
  frefuted 20 (by decide +kernel)

/-- 0 / 0 gives the positive default NaN on the processor; the lifted code may give another NaN (on an x86-64
host the negative one). -/
theorem C52_default_nan_counterexample :
    ∃ s', step (.fpu (.bin (.arith .div) .d 20 31 31)) 4 sf = some s' ∧
      ¬ Simulates {} 0 (.fpu (.bin (.arith .div) .d 20 31 31)) 4 sf s' :=
  frefuted 20 (by decide +kernel)

/-- FRINT32Z and FRINT64Z are not lifted. -/
theorem C52_frint32_rejected (mode : Rnd) (b : Nat) (hb : b ≠ 0) (sz : FSz) (rd rn : Fin 32) (start : BitVec 64)
    (m : St) : ∃ o, lift cfg slide (.fpu (.rint mode b sz rd rn)) start len m = some o ∧ o.lifted = false := by
  have hh : ¬ (Fpu.rint mode b sz rd rn).handled = true := by simp [Fpu.handled, hb]
  refine ⟨{ st := { m with pc := .value (some start) }, lifted := false }, ?_, rfl⟩
  show (if (Fpu.rint mode b sz rd rn).handled = true then _ else _) = _
  rw [if_neg hh]

end Verif.A64.Spec
