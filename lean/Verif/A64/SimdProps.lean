import Verif.A64.Props

/-!
C37 and C38 for AArch64, and the structure loads and stores of C35: what the lifted SIMD instructions do.

`S.simd` (in `SimdSpec`) says for every instruction what each element of the destination is, as integer
arithmetic on the elements of the sources.  The theorems below range over all operations, signedness,
arrangements, registers (also if they coincide), immediates and register contents.
-/

namespace Verif.A64.Spec

open Verif.IR Verif.Bits

set_option linter.constructorNameAsVariable false
set_option maxRecDepth 4000

variable {cfg : Cfg} {slide : BitVec 64} {len : Nat} {s s' : S}

/-- Arithmetic on elements. -/
def isArith : Simd → Bool
  | .three .. | .two .. | .shlImm .. | .shr .. | .sra .. | .shll .. | .shrn .. | .long .. | .longElem ..
  | .wide .. | .mulElem .. | .pair .. | .addp .. | .addlp .. | .across .. | .immOp .. => true
  | _ => false

/-- Instructions that only move elements. -/
def isPerm : Simd → Bool
  | .xtn .. | .movi .. | .dupElem .. | .dupGpr .. | .ext .. | .insElem .. | .insGpr .. | .mov .. | .tbl ..
  | .uzp .. | .zip .. | .rev .. => true
  | _ => false

/-- Loads and stores of one to four registers. -/
def isStruct : Simd → Bool
  | .ld1 .. | .ldN .. | .ldSingle .. | .ldR .. | .st1 .. | .stN .. | .stSingle .. => true
  | _ => false

/-- The three groups are all instructions. -/
theorem simd_groups (i : Simd) : (isArith i || isPerm i || isStruct i) = true := by cases i <;> rfl

/-! ### Reading the specification -/

/-- `setEls` puts `f i` into element `i` ... -/
theorem S.el_setEls (r : Fin 32) {w n : Nat} (f : Nat → BitVec w) {i : Nat} (hn : w * n ≤ 128) (hi : i < n) :
    (s.setEls r w n f).el r w i = f i := by
  apply BitVec.eq_of_getLsbD_eq
  intro j hj
  have h1 : w * i + j < w * n := by
    have := Nat.mul_le_mul_left w (Nat.succ_le_of_lt hi)
    rw [Nat.mul_succ] at this
    omega
  have hw : 0 < w := by omega
  have e1 : (w * i + j) / w = i := by rw [Nat.mul_add_div hw, Nat.div_eq_of_lt hj, Nat.add_zero]
  have e2 : (w * i + j) % w = j := by rw [Nat.mul_add_mod, Nat.mod_eq_of_lt hj]
  simp only [S.el, S.setEls, S.setVec, if_true, BitVec.getLsbD_extractLsb', hj, decide_true, Bool.true_and,
    BitVec.ofNat_toNat, BitVec.getLsbD_setWidth, getLsbD_ofLanes _ _ _ _ hw, e1, e2, h1, (by omega : w * i + j < 128)]

/-- ... clears the elements beyond the arrangement ... -/
theorem S.el_setEls_above (r : Fin 32) {w n : Nat} (f : Nat → BitVec w) {i : Nat} (hi : n ≤ i) :
    (s.setEls r w n f).el r w i = 0 := by
  apply BitVec.eq_of_getLsbD_eq
  intro j hj
  have h1 : ¬ w * i + j < w * n := by
    have := Nat.mul_le_mul_left w hi
    omega
  have hw : 0 < w := by omega
  simp only [S.el, S.setEls, S.setVec, if_true, BitVec.getLsbD_extractLsb', hj, decide_true,
    BitVec.ofNat_toNat, BitVec.getLsbD_setWidth, getLsbD_ofLanes _ _ _ _ hw, h1, decide_false, Bool.false_and, Bool.and_false]
  simp

/-- ... and leaves the other registers alone. -/
theorem S.el_setEls_ne (r q : Fin 32) {w n v : Nat} (f : Nat → BitVec w) (i : Nat) (h : q ≠ r) :
    (s.setEls r w n f).el q v i = s.el q v i := by
  simp only [S.el, S.setEls, S.setVec, if_neg h]

/-! ### C37: arithmetic -/

/-- C37 for AArch64: element-wise integer arithmetic (wrapping, halving, absolute difference, accumulating,
minimum and maximum), comparisons, bitwise operations, shifts, widening and narrowing arithmetic, pairwise
operations and reductions over a vector, and the floating-point comparisons.

Missing: register shifts by at least the element size, SSHR and USHR by exactly the element size, scalar
floating-point comparisons of single precision (see the counterexamples); rounding shifts, which the lifter
rejects, as it does saturating operations.  Floating-point arithmetic is C52. -/
theorem C37_a64_partial {i : Simd} (_hi : isArith i = true) (hok : SimdOk s i)
    (hs : step (.simd i) len s = some s') : Simulates cfg slide (.simd i) len s s' :=
  sim_simdInstr hok hs

/-- The condition holds for everything but the three defects. -/
theorem simdOk_of {i : Simd} (h1 : ∀ r sg sc va rd rn rm, i ≠ .three (.shl r) sg sc va rd rn rm)
    (h2 : ∀ sg r sc va rd rn, i ≠ .shr sg r sc va rd rn va.w)
    (h3 : ∀ op sg va rd rn rm, Three.isFp op = true → i ≠ .three op sg true va rd rn rm)
    (h4 : ∀ op va rd rn, Two.isFp op = true → i ≠ .two op true va rd rn)
    (hs : step (.simd i) len s = some s') : SimdOk s i := by
  cases i with
  | three op sg sc va rd rn rm =>
    refine ⟨fun r e => absurd (by rw [e]) (h1 r sg sc va rd rn rm), fun e f => ?_⟩
    subst e
    exact absurd rfl (h3 op sg va rd rn rm f)
  | two op sc va rd rn =>
    intro e f
    subst e
    exact absurd rfl (h4 op va rd rn f)
  | shr sg r sc va rd rn imm =>
    show imm < va.w
    have hne : imm ≠ va.w := fun e => h2 sg r sc va rd rn (by rw [e])
    have hle : imm ≤ va.w := by
      obtain ⟨s1, hp, -⟩ := step_plain hs rfl
      have hp : s.simd (.shr sg r sc va rd rn imm) = some s1 := hp
      simp only [S.simd] at hp
      split at hp
      · omega
      · cases hp
    omega
  | _ => exact trivial

/-- A state with shift counts in V4: element 0 asks for a left shift by 8, element 1 for a right shift
by 8 (counts as bytes). -/
def s1 : S := { s0 with vec := fun r => if r = 4 then 0xf808 else s0.vec r }

/-- The bits of V`r` in the representation. -/
theorem getV_rel (r : Fin 32) (m : St) (t : S) (hr : Rel 0 m t) : m.getV r 64 = some (t.scalar r 64) := hr.getV r 64

/-- USHL by at least the element size gives 0 on the processor and poison in the lifted code. -/
theorem C37_ushl_counterexample :
    ∃ s', step (.simd (.three (.shl false) false false .b8 5 0 4)) 4 s1 = some s' ∧
      ¬ Simulates {} 0 (.simd (.three (.shl false) false false .b8 5 0 4)) 4 s1 s' :=
  refuted (fun s => s.scalar 5 64) (fun m => m.getV 5 64) id (fun _ _ hr => hr.getV 5 64) (by decide +kernel)

/-- USHR by the element size gives 0 on the processor and poison in the lifted code ... -/
theorem C37_ushr_counterexample :
    ∃ s', step (.simd (.shr false false false .h4 5 0 16)) 4 s0 = some s' ∧
      ¬ Simulates {} 0 (.simd (.shr false false false .h4 5 0 16)) 4 s0 s' :=
  refuted (fun s => s.scalar 5 64) (fun m => m.getV 5 64) id (fun _ _ hr => hr.getV 5 64) (by decide +kernel)

/-- ... and SSHR the signs. -/
theorem C37_sshr_counterexample :
    ∃ s', step (.simd (.shr true false false .s2 5 0 32)) 4 s0 = some s' ∧
      ¬ Simulates {} 0 (.simd (.shr true false false .s2 5 0 32)) 4 s0 s' :=
  refuted (fun s => s.scalar 5 64) (fun m => m.getV 5 64) id (fun _ _ hr => hr.getV 5 64) (by decide +kernel)

/-- FCMEQ S5, S1, S2 compares the registers as double-precision numbers: it finds 1.0 and 2.0 (whose lower
halves are zero) different. -/
theorem C37_fcmeq_scalar_counterexample :
    ∃ s', step (.simd (.three .fcmeq false true .s2 5 1 2)) 4 s0 = some s' ∧
      ¬ Simulates {} 0 (.simd (.three .fcmeq false true .s2 5 1 2)) 4 s0 s' :=
  refuted (fun s => s.scalar 5 64) (fun m => m.getV 5 64) id (fun _ _ hr => hr.getV 5 64) (by decide +kernel)

/-- Register `r` after the architecture executed `i`. -/
def specVec (i : Simd) (s : S) (r : Fin 32) : Option (BitVec 128) := (step (.simd i) 4 s).map (·.vec r)
/-- Register `r` after the lifted code ran. -/
def liftVec (i : Simd) (s : S) (r : Fin 32) : Option (Val 128) :=
  (lift {} 0 (.simd i) s.pc 4 (s.rep 0)).map (·.st.vec r)

example : specVec (.three .add false false .b16 5 0 0) s0 5 = some 0x02468ace12569adefcb87430eca86420 ∧
    liftVec (.three .add false false .b16 5 0 0) s0 5 = some (some 0x02468ace12569adefcb87430eca86420) := by
  decide +kernel
example : specVec (.three (.shl false) true false .b8 5 0 4) { s0 with vec := fun r => if r = 4 then 0xfd03 else s0.vec r } 5 =
    some 0xfedcba9876540680 := by decide +kernel
example : SimdOk s0 (.three (.shl false) true false .b16 5 0 6) := by
  refine ⟨fun _ _ i hi => ?_, fun h => by cases h⟩
  have hi : i < 16 := hi
  simp [ShlOk, S.el, s0]
example : specVec (.three .abd true false .s4 5 0 1) s0 5 = some 0x01234567765432114113456876543210 := by
  decide +kernel
example : specVec (.across .max true .b16 5 0) s0 5 = some 0x76 := by decide +kernel
example : specVec (.across .max false .b16 5 0) s0 5 = some 0xfe := by decide +kernel
example : specVec (.long .mul true .b8 5 0 0) s0 5 = some 0x0004051013242a4036641b9009c40100 := by decide +kernel

/-! ### C38: permutations -/

/-- C38 for AArch64: XTN, MOVI, DUP, EXT, INS, UMOV and SMOV, TBL and TBX with one to four table registers,
UZP, ZIP, REV16, REV32 and REV64 put the architectural source element into every element. -/
theorem C38_a64 {i : Simd} (hi : isPerm i = true) (hs : step (.simd i) len s = some s') :
    Simulates cfg slide (.simd i) len s s' := by
  refine sim_simdInstr ?_ hs
  cases i <;> first | exact trivial | cases hi

/-- Executing one instruction after the other. -/
def exec : List Simd → S → Option S
  | [], s => some s
  | i :: is, s => (step (.simd i) 4 s).bind (exec is)

theorem VA.size_le (va : VA) : va.w * va.n ≤ 128 := by cases va <;> decide

/-- An instruction that writes the elements `f` to `rd`. -/
theorem step_els {i : Simd} {va : VA} {rd : Fin 32} {f : Nat → BitVec va.w}
    (h : s.simd i = some (s.setEls rd va.w va.n f)) :
    ∃ t, step (.simd i) 4 s = some t ∧ (∀ i, i < va.n → t.el rd va.w i = f i) ∧
      ∀ q, q ≠ rd → ∀ i, t.el q va.w i = s.el q va.w i := by
  refine ⟨{ s.setEls rd va.w va.n f with pc := s.pc + BitVec.ofNat 64 4 }, ?_, fun i hi => ?_, fun q hq i => ?_⟩
  · show (match s.simd i with | some s' => _ | none => _) = _
    rw [h]
  · exact S.el_setEls rd f (VA.size_le va) hi
  · exact S.el_setEls_ne rd q f i hq

/-- ZIP1 and ZIP2 into two further registers, then UZP1 and UZP2: the original elements come back. -/
theorem C38_zip_uzp {va : VA} (hn : 2 ≤ va.n) (a b c d e f : Fin 32) (h1 : a ≠ c) (h2 : b ≠ c) (h3 : c ≠ d)
    (h4 : c ≠ e) (h5 : d ≠ e) (h6 : e ≠ f) :
    ∃ s', exec [.zip false va c a b, .zip true va d a b, .uzp false va e c d, .uzp true va f c d] s = some s' ∧
      ∀ i, i < va.n → s'.el e va.w i = s.el a va.w i ∧ s'.el f va.w i = s.el b va.w i := by
  have hev : va.n % 2 = 0 := by revert hn; cases va <;> decide
  obtain ⟨t1, e1, c1, o1⟩ := step_els (s := s) (i := .zip false va c a b) (by simp only [S.simd, if_pos hn]; rfl)
  obtain ⟨t2, e2, c2, o2⟩ := step_els (s := t1) (i := .zip true va d a b) (by simp only [S.simd, if_pos hn]; rfl)
  obtain ⟨t3, e3, c3, o3⟩ := step_els (s := t2) (i := .uzp false va e c d) (by simp only [S.simd, if_pos hn]; rfl)
  obtain ⟨t4, e4, c4, o4⟩ := step_els (s := t3) (i := .uzp true va f c d) (by simp only [S.simd, if_pos hn]; rfl)
  refine ⟨t4, by simp only [exec, e1, e2, e3, e4, Option.bind_some], fun i hi => ⟨?_, ?_⟩⟩
  · rw [o4 e h6, c3 i hi]
    simp only [Bool.false_eq_true, if_false, if_true] at *
    split
    · rw [o2 c h3, c1 _ (by omega), if_pos (by omega)]; congr 1; omega
    · rw [c2 _ (by omega), if_pos (by omega), o1 a h1]; congr 1; omega
  · rw [c4 i hi]
    simp only [Bool.false_eq_true, if_false, if_true] at *
    split
    · rw [o3 c h4, o2 c h3, c1 _ (by omega), if_neg (by omega)]; congr 1; omega
    · rw [o3 d h5, c2 _ (by omega), if_neg (by omega), o1 b h2]; congr 1; omega

/-- REV of REV gives the elements back. -/
theorem C38_rev_rev {va : VA} {k : Nat} (hk : (k = 16 ∨ k = 32 ∨ k = 64) ∧ va.w < k) (a b c : Fin 32) :
    ∃ s', exec [.rev k va b a, .rev k va c b] s = some s' ∧ ∀ i, i < va.n → s'.el c va.w i = s.el a va.w i := by
  obtain ⟨t1, e1, c1, o1⟩ := step_els (s := s) (i := .rev k va b a) (by simp only [S.simd, if_pos hk]; rfl)
  obtain ⟨t2, e2, c2, o2⟩ := step_els (s := t1) (i := .rev k va c b) (by simp only [S.simd, if_pos hk]; rfl)
  refine ⟨t2, by simp only [exec, e1, e2, Option.bind_some], fun i hi => ?_⟩
  have hall : ∀ i, i < va.n → i / (k / va.w) * (k / va.w) + (k / va.w - 1 - i % (k / va.w)) < va.n ∧
      (i / (k / va.w) * (k / va.w) + (k / va.w - 1 - i % (k / va.w))) / (k / va.w) * (k / va.w) +
        (k / va.w - 1 - (i / (k / va.w) * (k / va.w) + (k / va.w - 1 - i % (k / va.w))) % (k / va.w)) = i := by
    obtain ⟨hk, hlt⟩ := hk
    revert hlt
    clear hi i
    rcases hk with rfl | rfl | rfl <;> cases va <;> decide
  rw [c2 i hi, c1 _ (hall i hi).1, (hall i hi).2]

example : specVec (.tbl false .b8 1 5 0 1) s0 5 = some 0x101010101010 := by decide +kernel
example : specVec (.ext .b16 5 0 1 3) s0 5 = some 0x123456789abcdeffedcba9876 := by decide +kernel
example : specVec (.rev 64 .b16 5 0) s0 5 = some 0xefcdab89674523011032547698badcfe := by decide +kernel
example : specVec (.zip true .h8 5 0 1) s0 5 = some 0x12300004567000089ab0000cdef := by decide +kernel
example : specReg (.simd (.mov true false .b16 (.x 7) 0 7)) s0 (.x 7) = some (-2) := by decide +kernel

/-! ### C35: structure loads and stores -/

/-- C35: LD1 to LD4 and ST1 to ST4 of multiple structures, of a single structure to or from one lane, and the
replicating loads, with and without post-index, transfer the elements between memory and registers
in the interleaved order; registers wrap around from V31 to V0. -/
theorem C35_structures {i : Simd} (hi : isStruct i = true) (hs : step (.simd i) len s = some s') :
    Simulates cfg slide (.simd i) len s s' := by
  refine sim_simdInstr ?_ hs
  cases i <;> first | exact trivial | cases hi

example : specVec (.ldN 2 .h8 5 (.x 5) none) s0 6 = some 0xbfbebbbab7b6b3b2afaeabaaa7a6a3a2 := by decide +kernel
example : specVec (.ldSingle 2 .s4 31 1 (.x 5) none) s0 0 = some 0x0123456789abcdefa7a6a5a476543210 := by
  decide +kernel
example : (step (.simd (.stN 3 .b8 0 (.x 5) (some (.zr, 24)))) 4 s0).map
    (fun s => (s.x 5, s.mem.read 0x2000 6)) = some (0x2018, 0x000032000010) := by decide +kernel

end Verif.A64.Spec
