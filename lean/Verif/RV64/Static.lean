import Verif.RV64.FpProps
import Verif.Lift.Model

/-!
What the RV64 lifter knows when it generates code: whether an instruction can be lifted, the mode of
the program counter after it, and the registers it writes.  The theorems show that the generated code
agrees with it in every state.
-/

namespace Verif.RV64

set_option linter.unusedSimpArgs false

open Verif.IR Verif.Lift

/-- Does `Lift` return true?  /repo/src/rv64/lifter.cc:418-429 (ECALL), 489-505 (CSR), 646-649
(`unhandled`). -/
def handled (i : Frv) : Bool :=
  match i.mnem with
  | .ecall => i.imm == 0#32
  | .csr => i.imm == 1#32 || i.imm == 2#32 || i.imm == 3#32
  | .unknown => false
  | _ => true

/-- Mode of the program counter after the code of an instruction, if there is no call function:
/repo/src/rv64/lifter.cc:122-126, 384-429, 646-649. -/
def form (i : Frv) (start stop : BitVec 64) : Form :=
  match i.mnem with
  | .jal | .jalr => if i.rs1 ≠ regInv then .value else .const (start + i.imm64)
  | .beq | .bne | .blt | .bltu | .bge | .bgeu => .cond (start + i.imm64) stop
  | .ecall => .value
  | _ => if handled i then .const stop else .value

/-- Floating-point instructions with a result in an integer register. -/
def FOp.toGp : FOp → Bool
  | .eq | .lt | .le | .toInt _ _ => true
  | _ => false

/-- Instructions whose code calls `StoreFp` for `rd`. -/
def setsFp (i : Frv) : Bool :=
  match i.mnem with
  | .flw | .fld | .fmvwx | .fmvdx | .fsgnjs | .fsgnjns | .fsgnjxs | .fsgnjd | .fsgnjnd | .fsgnjxd => true
  | .fp op _ => !op.toGp
  | _ => false

/-- Instructions whose code calls `StoreGp` for `rd`; `StoreGp` does nothing for register 0
(/repo/src/rv64/lifter.cc:56-62). -/
def setsGp (i : Frv) : Bool :=
  match i.mnem with
  | .beq | .bne | .blt | .bltu | .bge | .bgeu | .ecall | .fence | .unknown
  | .sb | .sh | .sw | .sd | .fsw | .fsd => false
  | _ => handled i && !setsFp i && i.rd != 0

theorem storeGp_gp (s : St) (r : Nat) {w : Nat} (v : Val w) (k : Nat) :
    (storeGp s r v).gp k = if k = r ∧ r ≠ 0 then sext 64 v else s.gp k := by
  unfold storeGp
  by_cases h : r = 0
  · simp [h]
  · simp only [h, if_false, upd, not_false_eq_true, ne_eq, and_true]

theorem storeGp_fp (s : St) (r : Nat) {w : Nat} (v : Val w) : (storeGp s r v).fp = s.fp := by
  unfold storeGp; split <;> rfl

theorem storeGp_mem (s : St) (r : Nat) {w : Nat} (v : Val w) : (storeGp s r v).mem = s.mem := by
  unfold storeGp; split <;> rfl

theorem storeGp_pc (s : St) (r : Nat) {w : Nat} (v : Val w) : (storeGp s r v).pc = s.pc := by
  unfold storeGp; split <;> rfl

/-- Frame condition of a state change. -/
def Frame (gp fp : Bool) (rd : Nat) (s s' : St) : Prop :=
  (∀ k, ¬ (gp = true ∧ k = rd) → s'.gp k = s.gp k) ∧
  (∀ k, ¬ (fp = true ∧ k = rd) → s'.fp k = s.fp k)

theorem frame_refl (gp fp : Bool) (rd : Nat) (s : St) : Frame gp fp rd s s :=
  ⟨fun _ _ => rfl, fun _ _ => rfl⟩

theorem frame_storeGp {fp : Bool} (rd : Nat) (s : St) {w : Nat} (v : Val w) :
    Frame (rd != 0) fp rd s (storeGp s rd v) := by
  refine ⟨fun k hk => ?_, fun k _ => by rw [storeGp_fp]⟩
  rw [storeGp_gp, if_neg]
  rintro ⟨rfl, h⟩
  exact hk ⟨by simp [h], rfl⟩

theorem frame_storeFp {gp : Bool} (rd : Nat) (s : St) {w : Nat} (v : Val w) :
    Frame gp true rd s (storeFp s rd v) := by
  refine ⟨fun k _ => rfl, fun k hk => ?_⟩
  simp only [storeFp, upd]
  rw [if_neg]
  rintro rfl; exact hk ⟨rfl, rfl⟩

theorem frame_trans {gp fp : Bool} {rd : Nat} {a b c : St} (h1 : Frame gp fp rd a b)
    (h2 : Frame gp fp rd b c) : Frame gp fp rd a c :=
  ⟨fun k hk => (h2.1 k hk).trans (h1.1 k hk), fun k hk => (h2.2 k hk).trans (h1.2 k hk)⟩

theorem frame_storeN {gp fp : Bool} {rd : Nat} {s s' : St} {a : Val 64} {n : Nat} {v : Val (8 * n)}
    (h : storeN s a n v = some s') : Frame gp fp rd s s' := by
  unfold storeN at h
  split at h
  · cases h
  · split at h
    · cases h; exact ⟨fun _ _ => rfl, fun _ _ => rfl⟩
    · cases h

theorem frame_liftAmo {fp : Bool} {s s' : St} {i : Frv} {n : Nat} {op : RmwOp}
    (h : liftAmo s i n op = some s') : Frame (i.rd != 0) fp i.rd s s' := by
  unfold liftAmo at h
  split at h
  · obtain ⟨old, -, h⟩ := Option.bind_eq_some_iff.1 h
    obtain ⟨s1, h1, rfl⟩ := Option.map_eq_some_iff.1 h
    exact frame_trans (frame_storeN h1) (frame_storeGp _ _ _)
  · cases h

theorem frame_liftDivRem {fp : Bool} {s s' : St} {i : Frv} {w : Nat} {op : DivOp}
    (h : liftDivRem s i w op = some s') : Frame (i.rd != 0) fp i.rd s s' := by
  unfold liftDivRem at h
  simp only at h
  split at h
  · cases h
  · split at h
    · cases h; exact frame_storeGp _ _ _
    · obtain ⟨v, -, rfl⟩ := Option.map_eq_some_iff.1 h
      exact frame_storeGp _ _ _

theorem frame_liftLoad {fp : Bool} {s s' : St} {i : Frv} {n : Nat} {ext : Val (8 * n) → Val 64}
    (h : liftLoad s i n ext = some s') : Frame (i.rd != 0) fp i.rd s s' := by
  obtain ⟨v, -, rfl⟩ := Option.map_eq_some_iff.1 h
  exact frame_storeGp _ _ _

theorem frame_lr {fp : Bool} {s s' : St} {rd : Nat} {a : Val 64} {n : Nat}
    (h : (loadN s a n).map (fun v => storeGp s rd v) = some s') : Frame (rd != 0) fp rd s s' := by
  obtain ⟨v, -, rfl⟩ := Option.map_eq_some_iff.1 h
  exact frame_storeGp _ _ _

theorem frame_sc {fp : Bool} {s s' : St} {rd : Nat} {a : Val 64} {n : Nat} {v : Val (8 * n)} {x : Val 32}
    (h : storeN (storeGp s rd x) a n v = some s') : Frame (rd != 0) fp rd s s' :=
  frame_trans (frame_storeGp _ _ _) (frame_storeN h)

theorem frame_liftLoadFp {gp : Bool} {s s' : St} {i : Frv} {n : Nat}
    (h : liftLoadFp s i n = some s') : Frame gp true i.rd s s' := by
  obtain ⟨v, -, rfl⟩ := Option.map_eq_some_iff.1 h
  exact frame_storeFp _ _ _

theorem frame_liftFp {s s' : St} {i : Frv} {op : FOp} {f : FW} (h : liftFp s i op f = some s') :
    Frame (op.toGp && i.rd != 0) (!op.toGp) i.rd s s' := by
  have hs : ∀ {w} (v : Val w), Frame (false && i.rd != 0) true i.rd s (storeFp s i.rd v) :=
    fun v => frame_storeFp _ _ _
  have hg : ∀ {w} (v : Val w), Frame (true && i.rd != 0) false i.rd s (storeGp s i.rd v) :=
    fun v => by rw [Bool.true_and]; exact frame_storeGp _ _ _
  cases op <;> simp only [liftFp] at h
  case arith o =>
    unfold liftFpArith at h
    split at h
    · cases h; exact hs _
    · cases h
  case toInt l g =>
    obtain ⟨v, -, rfl⟩ := Option.map_eq_some_iff.1 h
    exact hg _
  case cvt =>
    cases f <;> cases h <;> exact hs _
  all_goals cases h; first | exact hs _ | exact hg _

theorem okM_some {x : Option St} {s : St} (h : x.map some = some (some s)) : x = some s := by
  cases x with
  | none => cases h
  | some y => simpa using h

/-- Straight-line code changes no registers but `rd`. -/
theorem plain_frame {slide : BitVec 64} {i : Frv} {s s' : St}
    (h : liftPlain slide i s = some (some s')) : Frame (setsGp i) (setsFp i) i.rd s s' ∧
      handled i = true := by
  rcases i with ⟨mn, rd, rs1, rs2, imm, rs3, misc⟩
  cases mn <;> simp only [setsGp, setsFp, handled, Bool.true_and, Bool.not_false, Bool.not_true,
      Bool.and_true, Bool.and_false, and_true] <;> simp only [liftPlain] at h <;> first
    | (cases h; done)
    | (simp only [Option.some.injEq] at h; rw [← h]; exact frame_storeGp rd s _)
    | (simp only [Option.some.injEq] at h; rw [← h]; exact frame_storeFp rd s _)
    | (simp only [Option.some.injEq] at h; rw [← h]; exact frame_refl _ _ _ _)
    | exact frame_liftAmo (okM_some h)
    | exact frame_liftDivRem (okM_some h)
    | exact frame_liftLoad (okM_some h)
    | exact frame_liftLoadFp (okM_some h)
    | exact frame_lr (okM_some h)
    | exact frame_sc (okM_some h)
    | exact frame_storeN (okM_some h)
    | (simpa [Bool.not_not] using frame_liftFp (okM_some h))
    | skip
  split at h
  next hc =>
    have hh : (imm == 1#32 || imm == 2#32 || imm == 3#32) = true := by simpa [or_assoc] using hc
    simp only [Option.some.injEq] at h
    rw [← h, hh]
    exact ⟨by simpa using frame_storeGp rd s _, rfl⟩
  · cases h

theorem plain_unhandled {slide : BitVec 64} {i : Frv} {s : St}
    (h : liftPlain slide i s = some none) : handled i = false ∨ i.mnem = .jal ∨ i.mnem = .jalr ∨
      i.mnem = .beq ∨ i.mnem = .bne ∨ i.mnem = .blt ∨ i.mnem = .bltu ∨ i.mnem = .bge ∨
      i.mnem = .bgeu ∨ i.mnem = .ecall := by
  rcases i with ⟨mn, rd, rs1, rs2, imm, rs3, misc⟩
  cases mn <;> simp only [handled, true_or, or_true, reduceCtorEq, or_false, false_or] <;>
    simp only [liftPlain, Option.some.injEq, reduceCtorEq, Option.map_eq_some_iff, and_false,
      exists_false] at h
  split at h
  · cases h
  next hc => simpa [and_assoc] using hc

/-- The code of an instruction agrees with the lifter's static knowledge. -/
theorem lift_static {slide : BitVec 64} {i : Frv} {start : BitVec 64} {len : Nat} {s : St} {o : Out}
    (h : lift {} slide i start len s = some o) :
    o.lifted = handled i ∧ o.returned = false ∧
    formOf o.st.pc = form i start (start + BitVec.ofNat 64 len) ∧
    Frame (setsGp i) (setsFp i) i.rd s o.st := by
  have hplain : form i start (start + BitVec.ofNat 64 len)
        = (if handled i then .const (start + BitVec.ofNat 64 len) else .value) →
      setsGp i = (setsGp i && handled i) → setsFp i = (setsFp i && handled i) →
      (liftPlain slide i { s with pc := .const start } = some none → handled i = false) →
      finishPlain start (start + BitVec.ofNat 64 len) { s with pc := .const start }
        (liftPlain slide i { s with pc := .const start }) = some o →
      o.lifted = handled i ∧ o.returned = false ∧
      formOf o.st.pc = form i start (start + BitVec.ofNat 64 len) ∧
      Frame (setsGp i) (setsFp i) i.rd s o.st := by
    intro hform h1 h2 hun h
    cases hp : liftPlain slide i { s with pc := .const start } with
    | none => rw [hp] at h; cases h
    | some x =>
      cases x with
      | none =>
        have hf := hun hp
        rw [hp] at h
        cases h
        rw [hform, h1, h2, hf]
        rw [Bool.and_false, Bool.and_false]
        exact ⟨rfl, rfl, rfl, frame_refl _ _ _ _⟩
      | some s' =>
        obtain ⟨hfr, hh⟩ := plain_frame hp
        rw [hp] at h
        cases h
        rw [hform, hh]
        exact ⟨rfl, rfl, rfl, hfr⟩
  have hj : (i.mnem = .jal ∨ i.mnem = .jalr) →
      Frame (i.rd != 0) false i.rd s (jalState slide i start len { s with pc := .const start }) ∧
      formOf (jalState slide i start len { s with pc := .const start }).pc
        = if i.rs1 ≠ regInv then .value else .const (start + i.imm64) := by
    intro _
    unfold jalState
    simp only
    split
    · refine ⟨?_, by rw [storeGp_pc]; rfl⟩
      exact frame_trans (b := { s with pc := _ }) ⟨fun _ _ => rfl, fun _ _ => rfl⟩ (frame_storeGp _ _ _)
    · refine ⟨?_, by rw [storeGp_pc]; rfl⟩
      exact frame_trans (b := { s with pc := _ }) ⟨fun _ _ => rfl, fun _ _ => rfl⟩ (frame_storeGp _ _ _)
  have hun : i.mnem ≠ .jal → i.mnem ≠ .jalr → i.mnem ≠ .beq → i.mnem ≠ .bne → i.mnem ≠ .blt →
      i.mnem ≠ .bltu → i.mnem ≠ .bge → i.mnem ≠ .bgeu → i.mnem ≠ .ecall →
      liftPlain slide i { s with pc := .const start } = some none → handled i = false := by
    intro a1 a2 a3 a4 a5 a6 a7 a8 a9 hp
    rcases plain_unhandled hp with h | h | h | h | h | h | h | h | h | h
    · exact h
    all_goals contradiction
  rcases i with ⟨mn, rd, rs1, rs2, imm, rs3, misc⟩
  cases mn <;> first
    | (refine hplain rfl ?_ ?_ (hun ?_ ?_ ?_ ?_ ?_ ?_ ?_ ?_ ?_) h <;>
        first | (simp [setsGp, setsFp, handled, -Bool.or_eq_true]; done) |
          (simp only [setsGp, handled]; revert h; clear hplain hj hun; intro _;
           generalize (imm == 1#32 || imm == 2#32 || imm == 3#32) = x; cases x <;> simp))
    | skip
  · obtain ⟨h1, h2⟩ := hj (.inl rfl)
    cases h
    exact ⟨rfl, rfl, h2, h1⟩
  · obtain ⟨h1, h2⟩ := hj (.inr rfl)
    cases h
    exact ⟨rfl, rfl, h2, h1⟩
  all_goals try (cases h; exact ⟨rfl, rfl, rfl, frame_refl _ _ _ _⟩)
  simp only [lift, liftEcall] at h
  split at h
  next hi => cases h; exact ⟨by simp [handled, hi], rfl, rfl, frame_refl _ _ _ _⟩
  next hi => cases h; exact ⟨by simp [handled, hi], rfl, rfl, frame_refl _ _ _ _⟩

/-- An instruction that cannot be lifted leaves the state alone and puts its link-time address into
the program counter. -/
theorem lift_unhandled {slide : BitVec 64} {i : Frv} {start : BitVec 64} {len : Nat} {s : St}
    (h : handled i = false) : lift {} slide i start len s
      = some { st := { s with pc := .value (some start) }, lifted := false } := by
  rcases i with ⟨mn, rd, rs1, rs2, imm, rs3, misc⟩
  cases mn <;> simp only [handled, Bool.true_eq_false] at h <;> try (cases h; done)
  · simp only [beq_eq_false_iff_ne, ne_eq] at h
    simp [lift, liftEcall, h]
  · simp only [Bool.or_eq_false_iff, beq_eq_false_iff_ne, ne_eq] at h
    simp only [lift, liftPlain]
    rw [if_neg (by rintro (hc | hc | hc); exacts [h.1.1 hc, h.1.2 hc, h.2 hc])]
    rfl
  · rfl

end Verif.RV64
