import Verif.RV64.FpArith

/-!
The machine step of a hart with the F and D extensions, and the theorem that the code of every modelled
instruction does the same, up to NaN-boxing.
-/

namespace Verif.RV64

set_option linter.unusedSimpArgs false

open Verif.IR Verif.Fp

/-- The situations in which floating-point instructions are known to deviate from the ISA do not occur: those
of `fpFine`, moving NaN-boxed values as double-precision numbers, sign injection on single-precision
operands that are not boxed, and misaligned single-precision loads. -/
def FpOk (i : Frv) (s : Spec.State) : Bool :=
  match i.mnem with
  | .fp op f => fpFine op f i s
  | .fsd => !Spec.boxed (s.fp i.rs2)
  | .fmvxd => !Spec.boxed (s.fp i.rs1)
  | .fsgnjd | .fsgnjnd | .fsgnjxd => !Spec.boxed (s.fp i.rs1) && !Spec.boxed (s.fp i.rs2)
  | .fsgnjs | .fsgnjns | .fsgnjxs => Spec.boxed (s.fp i.rs1) && Spec.boxed (s.fp i.rs2)
  | .flw => decide ((s.x i.rs1 + i.imm.signExtend 64).toNat % 4 = 0)
  | _ => true

/-- Registers that agree up to NaN-boxing. -/
def BoxFp (g fp : Nat → BitVec 64) : Prop :=
  ∀ r, g r = fp r ∨ ∃ v : BitVec 32, fp r = Spec.nanBox v ∧ g r = v.setWidth 64

theorem BoxFp.of_not {g fp : Nat → BitVec 64} (h : BoxFp g fp) {r : Nat} (hr : Spec.boxed (fp r) = false) :
    g r = fp r := by
  rcases h r with h | ⟨v, h1, -⟩
  · exact h
  · rw [h1, boxed_nanBox] at hr; cases hr

theorem BoxFp.low {g fp : Nat → BitVec 64} (h : BoxFp g fp) (r : Nat) :
    (g r).setWidth 32 = (fp r).setWidth 32 := by
  rcases h r with h | ⟨v, h1, h2⟩
  · rw [h]
  · rw [h1, h2, setWidth_nanBox]
    apply BitVec.eq_of_getLsbD_eq
    intro k hk
    simp only [BitVec.getLsbD_setWidth, hk, decide_true, Bool.true_and, show k < 64 by omega]

theorem BoxFp.set {g fp : Nat → BitVec 64} (h : BoxFp g fp) (rd : Nat) (v : BitVec 64) :
    BoxFp (fun k => if k = rd then v else g k) (fun k => if k = rd then v else fp k) := by
  intro r
  by_cases hr : r = rd
  · exact .inl (by simp only [hr, if_true])
  · simp only [hr, if_false]; exact h r

/-- The instructions of `Spec.exec` do not look at the boxes. -/
theorem exec_box (i : Frv) (len : Nat) {s s' : Spec.State} {g : Nat → BitVec 64} (hg : BoxFp g s.fp)
    (hf : FpOk i s = true) (he : Spec.exec i len s = some s') :
    ∃ g', Spec.exec i len { s with fp := g } = some { s' with fp := g' } ∧ BoxFp g' s'.fp := by
  have hx : ∀ r, ({ s with fp := g } : Spec.State).x r = s.x r := fun _ => rfl
  have hwr : ∀ (gp : Nat → BitVec 64) (fp : Nat → BitVec 64) (mem : Mem) (pc : BitVec 64) rd v,
      (Spec.State.mk gp g mem pc).wr rd v len = { (Spec.State.mk gp fp mem pc).wr rd v len with fp := g } := by
    intro gp fp mem pc rd v
    unfold Spec.State.wr Spec.State.setX
    split <;> rfl
  have hwr' : ∀ (t : Spec.State) rd v, (t.wr rd v len).fp = t.fp := by
    intro t rd v
    unfold Spec.State.wr Spec.State.setX
    split <;> rfl
  unfold Spec.exec at he ⊢
  simp only [hx] at he ⊢
  cases h1 : Spec.aluVal i.mnem (s.x i.rs1) (s.x i.rs2) (i.imm.signExtend 64) s.pc with
  | some v => rw [h1] at he; cases he; exact ⟨g, congrArg some (hwr _ _ _ _ _ _), by rw [hwr']; exact hg⟩
  | none =>
  rw [h1] at he; simp only at he ⊢; clear h1
  cases h2 : Spec.divVal i.mnem (s.x i.rs1) (s.x i.rs2) with
  | some v => rw [h2] at he; cases he; exact ⟨g, congrArg some (hwr _ _ _ _ _ _), by rw [hwr']; exact hg⟩
  | none =>
  rw [h2] at he; simp only at he ⊢; clear h2
  cases h3 : Spec.bitVal i.mnem (s.x i.rs1) (s.x i.rs2) (i.imm.signExtend 64) with
  | some v => rw [h3] at he; cases he; exact ⟨g, congrArg some (hwr _ _ _ _ _ _), by rw [hwr']; exact hg⟩
  | none =>
  rw [h3] at he; simp only at he ⊢; clear h3
  cases h4 : Spec.taken i.mnem (s.x i.rs1) (s.x i.rs2) with
  | some t => rw [h4] at he; cases he; exact ⟨g, rfl, hg⟩
  | none =>
  rw [h4] at he; simp only at he ⊢; clear h4
  cases h5 : Spec.loadKind i.mnem with
  | some p =>
    obtain ⟨n, sg⟩ := p
    rw [h5] at he; cases he
    exact ⟨g, congrArg some (hwr _ _ _ _ _ _), by rw [hwr']; exact hg⟩
  | none =>
  rw [h5] at he; simp only at he ⊢
  cases h6 : Spec.storeKind i.mnem with
  | some n => rw [h6] at he; cases he; exact ⟨g, rfl, hg⟩
  | none =>
  rw [h6] at he; simp only at he ⊢
  cases h7 : Spec.amoKind i.mnem with
  | some p =>
    obtain ⟨n, f⟩ := p
    rw [h7] at he; cases he
    exact ⟨g, congrArg some (hwr _ _ _ _ _ _), by rw [hwr']; exact hg⟩
  | none =>
  rw [h7] at he; simp only at he ⊢; clear h5 h6 h7
  cases hmn : i.mnem <;> simp only [Spec.execOther, hmn, reduceCtorEq] at he ⊢ <;>
    simp only [Option.some.injEq] at he <;> try subst he
  all_goals simp only [FpOk, hmn, Bool.and_eq_true, Bool.not_eq_true'] at hf
  · -- jal
    refine ⟨g, ?_, ?_⟩ <;> simp only [Spec.jump, hmn, Spec.jal, Spec.jalr, Spec.State.setX, reduceCtorEq, if_true, if_false, hx]
    · split <;> rfl
    · split <;> exact hg
  · refine ⟨g, ?_, ?_⟩ <;> simp only [Spec.jump, hmn, Spec.jal, Spec.jalr, Spec.State.setX, reduceCtorEq, if_true, if_false, hx]
    · split <;> rfl
    · split <;> exact hg
  · exact ⟨g, congrArg some (hwr _ _ _ _ _ _), by rw [hwr']; exact hg⟩
  · exact ⟨g, congrArg some (hwr _ _ _ _ _ _), by rw [hwr']; exact hg⟩
  · exact ⟨g, congrArg some (hwr _ _ _ _ _ _), by rw [hwr']; exact hg⟩
  · exact ⟨g, congrArg some (hwr _ _ _ _ _ _), by rw [hwr']; exact hg⟩
  · exact ⟨g, rfl, hg⟩
  · exact ⟨g, by rw [hg.low]; rfl, hg⟩
  · exact ⟨_, rfl, hg.set i.rd _⟩
  · exact ⟨g, by rw [hg.of_not hf]; rfl, hg⟩
  · exact ⟨g, by rw [hg.low]; exact congrArg some (hwr _ _ _ _ _ _), by rw [hwr']; exact hg⟩
  · exact ⟨g, by rw [hg.of_not hf]; exact congrArg some (hwr _ _ _ _ _ _), by rw [hwr']; exact hg⟩
  · exact ⟨_, rfl, hg.set i.rd _⟩
  all_goals
    rw [hg.of_not hf.1, hg.of_not hf.2]
    exact ⟨_, rfl, hg.set i.rd _⟩

/-- Single-precision loads, moves and sign injection. -/
theorem lift_fpMove (slide : BitVec 64) (i : Frv) (start : BitVec 64) (len : Nat) (m : St)
    (s s' : Spec.State) (hr : RelBox slide m s) (hs : s.pc = start + slide)
    (hf : FpOk i s = true) (he : Spec.fpMove i len s = some s') :
    ∃ m', lift {} slide i start len m = some { st := m' } ∧ RelBox slide m' s' := by
  have hr' : RegBox { m with pc := .const start } s := hr.1
  have put : ∀ v : BitVec 32, s' = s.wrF i.rd (Spec.nanBox v) len →
      liftPlain slide i { m with pc := .const start }
        = some (some (storeFp { m with pc := .const start } i.rd (some v))) →
      ∃ m', lift {} slide i start len m = some { st := m' } ∧ RelBox slide m' s' := by
    intro v h1 h2
    have := lift_box (cfg := {}) (len := len) h2 (storeFp_box hr' i.rd .s v)
    rw [← hs] at this
    rw [h1]; exact this
  have hsg : ∀ keep zero, srcOk .s (s.fp i.rs1) = true → srcOk .s (s.fp i.rs2) = true →
      ((keep = false ∧ zero = true ∧ (i.mnem = .fsgnjs ∨ i.mnem = .fsgnjd)) ∨
       (keep = false ∧ zero = false ∧ (i.mnem = .fsgnjns ∨ i.mnem = .fsgnjnd)) ∨
       (keep = true ∧ (i.mnem = .fsgnjxs ∨ i.mnem = .fsgnjxd))) →
      liftFsgn { m with pc := .const start } i 32 keep zero = storeFp { m with pc := .const start } i.rd
        (some (Spec.sgnj (w := 31) i.mnem (Spec.opnd .s (s.fp i.rs1)) (Spec.opnd .s (s.fp i.rs2)))) := by
    intro keep zero h1 h2 h3
    have l1 : loadFp { m with pc := .const start } i.rs1 32 = some (Spec.opnd .s (s.fp i.rs1)) :=
      loadFp_box hr' .s i.rs1 h1
    have l2 : loadFp { m with pc := .const start } i.rs2 32 = some (Spec.opnd .s (s.fp i.rs2)) :=
      loadFp_box hr' .s i.rs2 h2
    unfold liftFsgn
    rw [l1, l2]
    generalize (Spec.opnd .s (s.fp i.rs1) : BitVec 32) = a
    generalize (Spec.opnd .s (s.fp i.rs2) : BitVec 32) = b
    have := sgnj_val (w := 31) a b i.mnem keep zero h3
    rw [← this]
    cases keep <;> cases zero <;> rfl
  cases hmn : i.mnem <;> simp only [Spec.fpMove, hmn, reduceCtorEq] at he <;>
    simp only [FpOk, hmn, Bool.and_eq_true, decide_eq_true_eq] at hf <;>
    simp only [Option.some.injEq] at he
  · -- flw
    obtain ⟨s0, hr0, hu⟩ := hr'
    refine put _ he.symm ?_
    have h1 := loadGp64_rel hr0 i.rs1
    rw [unboxed_x hu] at h1
    simp only [liftPlain, hmn, liftLoadFp, addr, h1, Frv.imm64, ir]
    rw [loadN_rel hr0 _ _ hf, hu.2.1]; rfl
  · -- fmv.w.x
    refine put _ he.symm ?_
    simp only [liftPlain, hmn, loadGp_box hr']
  · rw [← hmn] at he
    refine put _ he.symm ?_
    have h := hsg false true hf.1 hf.2 (by simp [hmn])
    simp only [liftPlain, hmn] at h ⊢
    rw [h]
  · rw [← hmn] at he
    refine put _ he.symm ?_
    have h := hsg false false hf.1 hf.2 (by simp [hmn])
    simp only [liftPlain, hmn] at h ⊢
    rw [h]
  · rw [← hmn] at he
    refine put _ he.symm ?_
    have h := hsg true false hf.1 hf.2 (by simp [hmn])
    simp only [liftPlain, hmn] at h ⊢
    rw [h]

/-- The code of every instruction makes the step of a hart with F and D, up to NaN-boxing. -/
theorem lift_execF (slide : BitVec 64) (i : Frv) (start : BitVec 64) (len : Nat) (m : St)
    (s s' : Spec.State) (hr : RelBox slide m s) (hs : s.pc = start + slide)
    (hd : Decoded i) (hn : NoDefect i s) (hf : FpOk i s = true) (he : Spec.execF i len s = some s') :
    ∃ m', lift {} slide i start len m = some { st := m' } ∧ RelBox slide m' s' := by
  unfold Spec.execF at he
  cases h : Spec.exec i len s with
  | some t =>
    rw [h] at he; cases he
    obtain ⟨⟨⟨gp, g, mem, pc⟩, hr, h1, h2, h3⟩, hpc⟩ := hr
    simp only at h1 h2
    subst h1 h2
    obtain ⟨g', h4, h5⟩ := exec_box i len (g := g) h3 hf h
    obtain ⟨m', h6, h7⟩ := lift_exec slide i start len m { s with fp := g } _ ⟨hr, hpc⟩ hs hd hn h4
    exact ⟨m', h6, ⟨_, h7.1, rfl, rfl, h5⟩, h7.2⟩
  | none =>
    rw [h] at he
    simp only at he
    cases hmn : i.mnem with
    | fp op f =>
      rw [hmn] at he
      exact C51_rv64_fp_partial {} slide i start len m s s' op f hr hs hmn (by simpa only [FpOk, hmn] using hf) he
    | _ =>
      rw [hmn] at he
      exact lift_fpMove slide i start len m s s' hr hs hf he

end Verif.RV64
