import Verif.Lift.RV64
import Verif.RV64.FpExec

/-!
End-to-end theorem for RV64 code with floating-point instructions (C09, C10, C36, C51).
-/

namespace Verif.Lift.RV64

open Verif.Decode Verif.IR Verif.RV64 Verif.Lift

/-- The guest machine: a hart with the F and D extensions; it stops where the lifter is known to be wrong. -/
def rvGuestF : Guest Frv Spec.State where
  pc := fun m => m.pc
  step := fun i m =>
    if NoDefect i.payload m ∧ FpOk i.payload m = true then Spec.execF i.payload i.len m else none

/-- A CPU struct and memory represent the state of the hart, except that single-precision numbers are
zero-extended instead of NaN-boxed.  The model has registers for all numbers; those that do not exist hold
zero. -/
def rvRelF (m : Spec.State) (regs : RvReg → Val 64) (mem : VMem) : Prop :=
  (∀ k : Fin 32, regs (.inl k) = some (m.gp k)) ∧ (∀ k ≥ 32, m.gp k = 0#64) ∧
  (∀ k : Fin 32, regs (.inr k) = some (m.fp k) ∨
    ∃ v : BitVec 32, m.fp k = Spec.nanBox v ∧ regs (.inr k) = some (v.setWidth 64)) ∧
  (∀ k ≥ 32, m.fp k = 0#64 ∨ m.fp k = Spec.nanBox 0#32) ∧ mem = m.mem.toV

/-- The relation in terms of a hart without NaN-boxing. -/
theorem rvRelF_iff (m : Spec.State) (regs : RvReg → Val 64) (mem : VMem) :
    rvRelF m regs mem ↔ ∃ g, rvRel { m with fp := g } regs mem ∧ BoxFp g m.fp := by
  constructor
  · rintro ⟨h1, h2, h3, h4, h5⟩
    refine ⟨fun k => if h : k < 32 then (regs (.inr ⟨k, h⟩)).getD 0#64 else 0#64,
      ⟨h1, h2, fun k => ?_, fun k hk => dif_neg (by omega), h5⟩, fun k => ?_⟩
    · simp only [k.isLt, dif_pos, Fin.eta]
      rcases h3 k with h | ⟨v, -, h⟩ <;> rw [h] <;> rfl
    · by_cases hk : k < 32
      · simp only [hk, dif_pos]
        rcases h3 ⟨k, hk⟩ with h | ⟨v, h, h'⟩
        · left; rw [h]; rfl
        · right; exact ⟨v, h, by rw [h']; rfl⟩
      · simp only [hk, dif_neg, not_false_eq_true]
        rcases h4 k (by omega) with h | h
        · left; exact h.symm
        · right; exact ⟨0#32, h, rfl⟩
  · rintro ⟨g, ⟨h1, h2, h3, h4, h5⟩, hg⟩
    refine ⟨h1, h2, fun k => ?_, fun k hk => ?_, h5⟩
    · rcases hg k with h | ⟨v, h, h'⟩
      · left; rw [h3 k]; exact congrArg some h
      · right; exact ⟨v, h, by rw [h3 k]; exact congrArg some h'⟩
    · have h0 : g k = 0#64 := h4 k hk
      rcases hg k with h | ⟨v, h, h'⟩
      · left; rw [← h]; exact h0
      · right
        rw [h0] at h'
        have : v = 0#32 := by
          apply BitVec.eq_of_toNat_eq
          have := congrArg BitVec.toNat h'
          rw [BitVec.toNat_setWidth] at this
          have hv := v.isLt
          simp only [BitVec.toNat_ofNat] at this ⊢
          omega
        rw [h, this]

theorem rvF_correct (slide : BitVec 64) (fold : Inst Frv → Option Bool) (i : Inst Frv)
    (hd : Decoded i.payload) (hpic : slide = 0 ∨ handled i.payload = true) :
    Correct (rvLifter slide fold) rvGuestF slide rvRelF i := by
  constructor
  · intro hok m m' s hrel hpc hst
    simp only [rvGuestF] at hst hpc ⊢
    split at hst
    next hnd =>
      obtain ⟨g, hg1, hg2⟩ := (rvRelF_iff _ _ _).1 hrel
      have hr : RelBox slide (toRv { s with pc := .const i.start }) m := by
        refine ⟨⟨{ m with fp := g }, toRv_rel (s := { s with pc := .const i.start }) hg1, rfl, rfl, hg2⟩, ?_⟩
        show Pc.val slide (.const i.start) = _
        rw [Pc.val_const, hpc]
      obtain ⟨o, ho, hro⟩ := lift_execF slide i.payload i.start i.len _ m m' hr hpc hd hnd.1 hnd.2 hst
      obtain ⟨-, -, hform, hfr⟩ := lift_static ho
      obtain ⟨⟨⟨gp, g', mem, pc⟩, hr0, hu1, hu2, hu3⟩, hro2⟩ := hro
      simp only at hu1 hu2 hu3
      subst hu1 hu2
      refine ⟨ofRv o, by rw [rv_exec, ho]; rfl,
        (rvRelF_iff _ _ _).2 ⟨g', ⟨?_, ?_, ?_, ?_, hr0.2.2⟩, hu3⟩, hro2, fun _ => hform⟩
      · intro k; simp only [ofRv, hr0.1]
      · intro k hk
        have := hfr.1 k (by rintro ⟨-, rfl⟩; exact absurd hd.1 (by omega))
        simp only [hr0.1, toRv, dif_neg (show ¬ k < 32 by omega), Option.some.injEq] at this
        exact this
      · intro k; simp only [ofRv, hr0.2.1]
      · intro k hk
        have := hfr.2 k (by rintro ⟨-, rfl⟩; exact absurd hd.1 (by omega))
        simp only [hr0.2.1, toRv, dif_neg (show ¬ k < 32 by omega), Option.some.injEq] at this
        exact this
    · cases hst
  · intro hok
    obtain ⟨h1, h2⟩ := (rv_correct slide fold i hd hpic).2 hok
    refine ⟨h1, ?_⟩
    intro m s hrel hpc
    obtain ⟨g, hg1, hg2⟩ := (rvRelF_iff _ _ _).1 hrel
    obtain ⟨s', h3, h4, h5⟩ := h2 { m with fp := g } s hg1 hpc
    exact ⟨s', h3, (rvRelF_iff _ _ _).2 ⟨g, h4, hg2⟩, h5⟩

/-- C09, C10, C36 and C51 for RV64 with the F and D extensions: as `C09_rv64_partial`, for code that may also
contain floating-point arithmetic, comparisons, conversions and moves.  The hart stops at instructions and
operands for which the lifter is known to be wrong (`NoDefect`, `FpOk`) or that are not specified; as long as
it does not, the lifted function is in step with it, up to NaN-boxing. -/
theorem C09_rv64_fp_partial {code : Decoder Frv} (hcode : ∀ a len p, code a = some (len, p) → Decoded p)
    {h : List (Call Frv)} {fn : Fn Frv} (H : Hist rvClassify h fn)
    (hcalls : ∀ c ∈ h, c.dec = code) (hcount : Counted rvClassify false h fn)
    (slide : BitVec 64) (hpic : slide = 0 ∨ ∀ i ∈ fn.insts, handled i.payload = true)
    (fold : Inst Frv → Option Bool) {known : Bool} {g : Graph Frv}
    (hl : lift known (rvLifter slide fold).toSLifter fn = .ok g)
    {regs : List RvReg} (hregs : ∀ r, r ∈ regs) {fuel : Nat} {plan : Plan RvReg}
    (hplan : optimizePacks (rvLifter slide fold) g (packIds fn) regs fuel = some plan)
    (hfold : ∀ c, FoldOK (rvLifter slide fold) slide g c)
    {d : DInstr Frv} (hd : fn.instrs.head? = some d)
    (m : Spec.State) (hm : m.pc = d.inst.start + slide) (c : CPU RvReg (Val 64) VMem)
    (hc : rvRelF m c.slot c.mem) (hcpc : c.pc = some m.pc) (out0 : Id → RvReg → Val 64) (k : Nat) :
    (∃ k' < k, ∃ n m1 q a e, rvGuestF.run code slide n m = some m1 ∧
      runSsa (rvLifter slide fold) plan (fun _ _ => false) slide g k' (ssaStart out0 c)
        = some (.at q (.at a) e) ∧
      InStep g rvGuestF slide rvRelF m1 (.at q (.at a) e) ∧
      ∃ bb, g (.at a) = some bb ∧ rvGuestF.StuckIn code slide bb.body m1) ∨
    ∃ n m1 x, rvGuestF.run code slide n m = some m1 ∧
      runSsa (rvLifter slide fold) plan (fun _ _ => false) slide g k (ssaStart out0 c) = some x ∧
      InStep g rvGuestF slide rvRelF m1 x ∧ Progress k n x := by
  have hdec : ∀ i ∈ fn.insts, Decoded i.payload := by
    intro i hi
    obtain ⟨c, hc, hd⟩ := C01_genuine H i hi
    rw [hcalls c hc] at hd
    exact hcode _ _ _ hd
  refine C09_simulation_partial (ref := Refine.eq _ _) (cls := rvClassify) (callFn := false)
    ⟨H, hcalls, hcount, ⟨known, hl⟩, ⟨regs, fuel, hregs, hplan⟩, ?_, hfold, fun i _ => rv_plain _ _ _ i,
      fun i hi => rv_targets _ _ i (hdec i hi), fun i => rv_item _ _ i, by simp, ?_⟩
    hd m hm c hc hcpc out0 k
  · intro i hi
    exact rvF_correct _ _ i (hdec i hi) (hpic.imp id (fun h => h i hi))
  · intro m r r' μ μ' h h1 h2
    obtain rfl : r = r' := funext h1
    obtain rfl : μ = μ' := h2
    exact h

end Verif.Lift.RV64
