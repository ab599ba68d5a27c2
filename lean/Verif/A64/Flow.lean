import Verif.A64.Fields

/-! Simulation of the AArch64 branches, calls and returns. -/

set_option linter.unusedSimpArgs false
set_option linter.constructorNameAsVariable false

namespace Verif.A64.Spec

open Verif.IR
open Verif.X86 (trunc_some zext_some sext_some add_some sub_some mul_some and_some or_some xor_some
  not_some neg_some icmp_some extract0 pc_get msb_slt of_add of_add' of_sub cf_add)

variable {cfg : Cfg} {slide : BitVec 64} {s s' : S} {len : Nat}

/-- With `clobberFlags`, calls and returns leave the flags unspecified. -/
def callFl (cfg : Cfg) (s : S) : S := if cfg.clobberFlags then s.forget fun _ => true else s

theorem add_slide' {start pc : BitVec 64} (h : pc = start + slide) (off : BitVec 64) :
    start + off + slide = pc + off := by
  rw [h, BitVec.add_assoc, BitVec.add_assoc, BitVec.add_comm off]

theorem rel_start {m : St} (hr : Rel slide m s) {start : BitVec 64} (hpc : s.pc = start + slide) :
    Rel slide { m with pc := .const start } s := by
  have := hr.setPc (p := .const start) (v := s.pc) (by rw [Pc.val_const, hpc])
  exact this

theorem sim_bcond {c : Cond} {off : BitVec 64} (hs : step (.bcond c off) len s = some s') :
    Simulates cfg slide (.bcond c off) len s s' := by
  simp only [step, S.plain, S.branch, bind, Option.bind_eq_some_iff, pure, Option.some.injEq] at hs
  obtain ⟨b, hc, rfl⟩ := hs
  intro start m hr hpc
  refine ⟨_, rfl, (rel_start hr hpc).setPc ?_⟩
  rw [(rel_start hr hpc).isTrue hc, Pc.val_cond]
  cases b <;> simp [add_slide' hpc]

theorem sim_b {off : BitVec 64} (hs : step (.b off) len s = some s') :
    Simulates cfg slide (.b off) len s s' := by
  simp only [step, S.plain, S.branch, Option.some.injEq] at hs
  subst hs
  intro start m hr hpc
  refine ⟨_, rfl, (rel_start hr hpc).setPc ?_⟩
  rw [Pc.val_const, add_slide' hpc]

theorem sim_br {rn : Reg} (hs : step (.br rn) len s = some s') :
    Simulates cfg slide (.br rn) len s s' := by
  simp only [step, S.plain, S.branch, Option.some.injEq] at hs
  subst hs
  intro start m hr hpc
  refine ⟨_, rfl, (rel_start hr hpc).setPc ?_⟩
  rw [(rel_start hr hpc).get, Pc.val_value]

theorem sim_cbz {nz w32 : Bool} {rt : Reg} {off : BitVec 64}
    (hs : step (.cbz nz w32 rt off) len s = some s') : Simulates cfg slide (.cbz nz w32 rt off) len s s' := by
  simp only [step, S.plain, S.branch, Option.some.injEq] at hs
  subst hs
  intro start m hr hpc
  refine ⟨_, rfl, (rel_start hr hpc).setPc ?_⟩
  rw [(rel_start hr hpc).get, icmp_some]
  have : (if nz = true then Pred.ne else Pred.eq).eval (s.reg (W w32) rt) 0 =
      ((s.reg (W w32) rt == 0) != nz) := by
    cases nz <;> simp [Pred.eval, bne]
  rw [this, Pc.val_cond]
  cases ((s.reg (W w32) rt == 0) != nz) <;> simp [add_slide' hpc]

theorem single_bit {w : Nat} (hw : w ≤ 64) (x : BitVec w) (n : Nat) (hn : n < w) :
    (x &&& (1#64 <<< n).setWidth w == 0) = !x.getLsbD n := by
  have hbit : ∀ i, i < w → ((1#64 <<< n).setWidth w).getLsbD i = decide (i = n) := by
    intro i hi
    simp only [BitVec.getLsbD_setWidth, hi, BitVec.getLsbD_shiftLeft, decide_true, Bool.true_and,
      show i < 64 by omega, BitVec.getLsbD_one]
    by_cases h : i = n
    · simp [h]
    · by_cases h2 : i < n
      · simp [h2, h]
      · simp [h, show i - n ≠ 0 by omega, show ¬ i ≤ n by omega]
  generalize ((1#64 <<< n).setWidth w : BitVec w) = mask at hbit
  cases hb : x.getLsbD n
  · rw [Bool.not_false, beq_iff_eq]
    apply BitVec.eq_of_getLsbD_eq
    intro i hi
    rw [BitVec.getLsbD_and, hbit i hi]
    by_cases h : i = n
    · subst h; simp [hb]
    · simp [h]
  · rw [Bool.not_true, beq_eq_false_iff_ne]
    intro e
    have := congrArg (fun v => v.getLsbD n) e
    simp [hb, hbit n hn] at this

theorem sim_tbz {nz w32 : Bool} {rt : Reg} {bit : Nat} {off : BitVec 64}
    (hs : step (.tbz nz w32 rt bit off) len s = some s') :
    Simulates cfg slide (.tbz nz w32 rt bit off) len s s' := by
  simp only [step, S.plain, S.branch] at hs
  split at hs
  · rename_i hb
    cases hs
    intro start m hr hpc
    refine ⟨_, by simp only [lift, hb, if_true]; rfl, (rel_start hr hpc).setPc ?_⟩
    rw [(rel_start hr hpc).get, and_some, icmp_some]
    have h1 := single_bit (W_le64 w32) (s.reg (W w32) rt) bit hb
    have : (if nz = true then Pred.ne else Pred.eq).eval
        (s.reg (W w32) rt &&& (1#64 <<< bit).setWidth (W w32)) 0 =
        ((s.reg (W w32) rt).getLsbD bit == nz) := by
      cases nz
      · simp only [Bool.false_eq_true, if_false, Pred.eval]
        refine h1.trans ?_
        cases (s.reg (W w32) rt).getLsbD bit <;> rfl
      · simp only [if_true, Pred.eval]
        refine (congrArg Bool.not h1).trans ?_
        cases (s.reg (W w32) rt).getLsbD bit <;> rfl
    rw [this, Pc.val_cond]
    cases ((s.reg (W w32) rt).getLsbD bit == nz) <;> simp [add_slide' hpc]
  · cases hs

/-! ### Calls and returns -/

theorem clobber_rel (cfg : Cfg) {m : St} (hr : Rel slide m s) : Rel slide (clobber cfg m) (callFl cfg s) := by
  unfold clobber callFl
  split
  · exact ⟨hr.gp, hr.sp, hr.vec, hr.tpidr, hr.mem, hr.pc, fun f b hb => by simp [S.forget] at hb⟩
  · exact hr

theorem callFl_reg (cfg : Cfg) (s : S) (w : Nat) (r : Reg) : (callFl cfg s).reg w r = s.reg w r := by
  unfold callFl; split <;> rfl

theorem callFl_pc (cfg : Cfg) (s : S) : (callFl cfg s).pc = s.pc := by unfold callFl; split <;> rfl

theorem callFl_setReg (cfg : Cfg) (s : S) (r : Reg) {w : Nat} (v : BitVec w) (p : BitVec 64) :
    { (callFl cfg s).setReg r v with pc := p } = callFl cfg { s.setReg r v with pc := p } := by
  unfold callFl; split <;> cases r <;> rfl

theorem reg_setReg_ne (s : S) {r rn : Reg} (h : rn ≠ r) {w : Nat} (v : BitVec w) :
    (s.setReg r v).reg 64 rn = s.reg 64 rn := by
  cases r <;> cases rn <;> simp [S.setReg, S.reg] <;> simp_all

/-- State after the link register was written and the target computed. -/
def callee (cfg : Cfg) (slide : BitVec 64) (m : St) (start : BitVec 64) (len : Nat) (tgt : Reg ⊕ BitVec 64) : St :=
  let m := clobber cfg m
  let m := m.set (.x 30) (m.pc.get slide (BitVec.ofNat 64 len))
  { m with pc := callTarget m start tgt }

theorem liftCall_eq (m : St) (start : BitVec 64) (tgt : Reg ⊕ BitVec 64) :
    liftCall cfg slide m start len tgt = match cfg.callFunction with
      | none => some (callee cfg slide m start len tgt)
      | some f => (callExt slide f (callee cfg slide m start len tgt)).map fun m =>
          { m with pc := .check (m.pc.val slide) (start + BitVec.ofNat 64 len) } := rfl

theorem callee_rel {m : St} {start t : BitVec 64} (hr : Rel slide m s) (_ : m.pc = .const start)
    (hst : s.pc = start + slide) (tgt : Reg ⊕ BitVec 64)
    (ht : match tgt with | .inl rn => rn ≠ .x 30 ∧ s.reg 64 rn = t | .inr off => s.pc + off = t) :
    Rel slide (callee cfg slide m start len tgt)
      (callFl cfg { s.setReg (.x 30) (s.pc + BitVec.ofNat 64 len) with pc := t }) := by
  have h1 := clobber_rel cfg hr
  have hg : (clobber cfg m).pc.get slide (BitVec.ofNat 64 len) = some (s.pc + BitVec.ofNat 64 len) := by
    have := pc_get _ (BitVec.ofNat 64 len) _ _ h1.pc
    rw [callFl_pc] at this
    exact this
  have h2 := h1.set (.x 30) (s.pc + BitVec.ofNat 64 len)
  rw [← callFl_setReg]
  unfold callee
  simp only [hg]
  refine h2.setPc ?_
  cases tgt with
  | inl rn =>
    obtain ⟨hne, rfl⟩ := ht
    simp only [callTarget]
    rw [h2.get, reg_setReg_ne _ hne, callFl_reg, Pc.val_value]
  | inr off =>
    simp only at ht
    simp only [callTarget]
    rw [Pc.val_const, add_slide' hst, ht]

/-- BL without a call function: execution continues at the target with X30 = return address. -/
theorem sim_bl {off : BitVec 64} (hf : cfg.callFunction = none) (hs : step (.bl off) len s = some s') :
    Simulates cfg slide (.bl off) len s (callFl cfg s') := by
  simp only [step, S.plain, S.branch, Option.some.injEq] at hs
  subst hs
  intro start m hr hpc
  refine ⟨_, ?_, callee_rel (cfg := cfg) (len := len) (start := start) (rel_start hr hpc) rfl hpc (.inr off) rfl⟩
  simp only [lift, liftCall_eq, hf, Option.map_some]

theorem sim_blr {rn : Reg} (hne : rn ≠ .x 30) (hf : cfg.callFunction = none)
    (hs : step (.blr rn) len s = some s') : Simulates cfg slide (.blr rn) len s (callFl cfg s') := by
  simp only [step, S.plain, S.branch, Option.some.injEq] at hs
  subst hs
  intro start m hr hpc
  refine ⟨_, ?_, callee_rel (cfg := cfg) (len := len) (start := start) (rel_start hr hpc) rfl hpc (.inl rn) ⟨hne, rfl⟩⟩
  simp only [lift, liftCall_eq, hf, Option.map_some]

theorem callExt_rel {f : St → Option St} {m : St} {s1 s2 : S} (hr : Rel slide m s1) (next : BitVec 64)
    (hcallee : ∀ m1, Rel slide m1 s1 → ∃ m2, f m1 = some m2 ∧ Rel slide m2 s2) :
    ∃ m', ((callExt slide f m).map fun m => { m with pc := .check (m.pc.val slide) next }) = some m' ∧
      Rel slide m' s2 := by
  have h1 : Rel slide { m with pc := .value (m.pc.val slide) } s1 := by
    have := hr.setPc (p := .value (m.pc.val slide)) (v := s1.pc) (by rw [hr.pc, Pc.val_value])
    exact this
  obtain ⟨m2, e2, h2⟩ := hcallee _ h1
  refine ⟨{ m2 with pc := .check (m2.pc.val slide) next }, ?_, ?_⟩
  · simp only [callExt, e2, Option.map_some, h2.pc, Pc.val_value]
  · have := h2.setPc (p := .check (m2.pc.val slide) next) (v := s2.pc) (by rw [h2.pc, Pc.val_check])
    exact this

/-- BL with a call function: it is called in the architectural state at the callee's entry and the lifted
code goes on from the state it returns. -/
theorem sim_bl_function {f : St → Option St} {off : BitVec 64} (hf : cfg.callFunction = some f)
    (hs : step (.bl off) len s = some s') (s2 : S)
    (hcallee : ∀ m1, Rel slide m1 (callFl cfg s') → ∃ m2, f m1 = some m2 ∧ Rel slide m2 s2) :
    Simulates cfg slide (.bl off) len s s2 := by
  simp only [step, S.plain, S.branch, Option.some.injEq] at hs
  subst hs
  intro start m hr hpc
  have h1 := callee_rel (cfg := cfg) (len := len) (start := start) (rel_start hr hpc) rfl hpc (.inr off) rfl
  obtain ⟨m', e, h2⟩ := callExt_rel h1 (start + BitVec.ofNat 64 len) hcallee
  refine ⟨m', ?_, h2⟩
  simp only [lift, liftCall_eq, hf, e, Option.map_some]

theorem sim_blr_function {f : St → Option St} {rn : Reg} (hne : rn ≠ .x 30) (hf : cfg.callFunction = some f)
    (hs : step (.blr rn) len s = some s') (s2 : S)
    (hcallee : ∀ m1, Rel slide m1 (callFl cfg s') → ∃ m2, f m1 = some m2 ∧ Rel slide m2 s2) :
    Simulates cfg slide (.blr rn) len s s2 := by
  simp only [step, S.plain, S.branch, Option.some.injEq] at hs
  subst hs
  intro start m hr hpc
  have h1 := callee_rel (cfg := cfg) (len := len) (start := start) (rel_start hr hpc) rfl hpc (.inl rn) ⟨hne, rfl⟩
  obtain ⟨m', e, h2⟩ := callExt_rel h1 (start + BitVec.ofNat 64 len) hcallee
  refine ⟨m', ?_, h2⟩
  simp only [lift, liftCall_eq, hf, e, Option.map_some]

/-- RET: with a call function the lifted function returns, otherwise it is an indirect branch. -/
theorem sim_ret {rn : Reg} (hs : step (.ret rn) len s = some s') (start : BitVec 64) (m : St)
    (hr : Rel slide m s) (hpc : s.pc = start + slide) :
    ∃ m', lift cfg slide (.ret rn) start len m = some { st := m', returned := cfg.callFunction.isSome } ∧
      Rel slide m' (callFl cfg s') := by
  simp only [step, S.plain, S.branch, Option.some.injEq] at hs
  subst hs
  have h1 := clobber_rel cfg (rel_start hr hpc)
  refine ⟨_, rfl, ?_⟩
  have h2 := h1.setPc (p := .value ((clobber cfg { m with pc := .const start }).get 64 rn)) (v := s.reg 64 rn)
    (by rw [h1.get, callFl_reg, Pc.val_value])
  have e : callFl cfg { s with pc := s.reg 64 rn } = { callFl cfg s with pc := s.reg 64 rn } := by
    unfold callFl; split <;> rfl
  rw [e]
  exact h2

end Verif.A64.Spec
