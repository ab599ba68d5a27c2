import Verif.A64.MemOps

/-! Simulation of the AArch64 scalar floating-point comparisons, selects and moves. -/

set_option linter.unusedSimpArgs false
set_option linter.constructorNameAsVariable false

namespace Verif.A64.Spec

open Verif.IR
open Verif.X86 (trunc_some zext_some sext_some add_some sub_some mul_some and_some or_some xor_some
  not_some neg_some icmp_some extract0 pc_get msb_slt of_add of_add' of_sub cf_add)

variable {cfg : Cfg} {slide : BitVec 64} {s s' : S} {len : Nat}

theorem fpBits_eq (sz : FSz) : sz.fpBits = FSz.bits sz := by cases sz <;> rfl

theorem sim_fcmp {sz : FSz} {rn : Fin 32} {rm : Option (Fin 32)}
    (hs : step (.fcmp sz rn rm) len s = some s') : Simulates cfg slide (.fcmp sz rn rm) len s s' := by
  obtain ⟨s1, hp, rfl⟩ := step_plain hs rfl
  simp only [S.plain, bind, Option.bind_eq_some_iff, pure, Option.some.injEq] at hp
  obtain ⟨w, hw, rfl⟩ := hp
  refine plain_sim (fun m => sz.fpBits.map fun w => liftFcmp m w rn rm) (fun _ _ => rfl) ?_
  intro start m hr hpc hst
  refine ⟨_, by simp only [fpBits_eq, hw, Option.map_some]; rfl, ?_⟩
  cases rm with
  | none =>
    have := hr.flagFp (s.scalar rn w) 0
    rw [← hr.getV] at this
    exact this
  | some r =>
    have := hr.flagFp (s.scalar rn w) (s.scalar r w)
    rw [← hr.getV, ← hr.getV] at this
    exact this

theorem sim_fccmp {sz : FSz} {rn rm : Fin 32} {c : Cond} {nzcv : BitVec 4}
    (hs : step (.fccmp sz rn rm c nzcv) len s = some s') :
    Simulates cfg slide (.fccmp sz rn rm c nzcv) len s s' := by
  obtain ⟨s1, hp, rfl⟩ := step_plain hs rfl
  simp only [S.plain, bind, Option.bind_eq_some_iff, pure, Option.some.injEq] at hp
  obtain ⟨w, hw, b, hc, rfl⟩ := hp
  refine plain_sim (fun m => sz.fpBits.map fun w => ccmpSel m (liftFcmp m w rn (some rm)) c nzcv)
    (fun _ _ => rfl) ?_
  intro start m hr hpc hst
  refine ⟨_, by simp only [fpBits_eq, hw, Option.map_some]; rfl, ccmpSel_rel hr hc ?_⟩
  have := hr.flagFp (s.scalar rn w) (s.scalar rm w)
  rw [← hr.getV, ← hr.getV] at this
  exact this

theorem sim_fcsel {sz : FSz} {rd rn rm : Fin 32} {c : Cond}
    (hs : step (.fcsel sz rd rn rm c) len s = some s') :
    Simulates cfg slide (.fcsel sz rd rn rm c) len s s' := by
  obtain ⟨s1, hp, rfl⟩ := step_plain hs rfl
  simp only [S.plain, bind, Option.bind_eq_some_iff, pure, Option.some.injEq] at hp
  obtain ⟨b, hc, rfl⟩ := hp
  refine plain_sim (fun m => some (m.setV rd
    (select (isTrue m c) (m.getV rn (8 * sz.bytes)) (m.getV rm (8 * sz.bytes))))) (fun _ _ => rfl) ?_
  intro start m hr hpc hst
  refine ⟨_, rfl, ?_⟩
  rw [hr.isTrue hc, select_bool, hr.getV, hr.getV]
  cases b <;> exact hr.setV _ _

theorem sim_fmovToGp {w32 : Bool} {sz : FSz} {rd : Reg} {rn : Fin 32}
    (hs : step (.fmovToGp w32 sz rd rn) len s = some s') :
    Simulates cfg slide (.fmovToGp w32 sz rd rn) len s s' := by
  obtain ⟨s1, hp, rfl⟩ := step_plain hs rfl
  simp only [S.plain] at hp
  split at hp
  · cases hp
    refine plain_sim (fun m => some (m.set rd (m.getV rn (8 * sz.bytes)))) (fun _ _ => rfl) ?_
    intro start m hr hpc hst
    exact ⟨_, rfl, by rw [hr.getV]; exact hr.set _ _⟩
  · cases hp

theorem fmov_width : ∀ {w32 : Bool} {sz : FSz}, sz ≠ .h → fmovOk w32 sz = true → W w32 = 8 * sz.bytes := by
  intro w32 sz h1 h2
  cases w32 <;> cases sz <;> first | rfl | exact absurd rfl h1 | exact absurd h2 (by decide)

/-- FMOV from a general-purpose register, except to a half-precision register. -/
theorem sim_fmovFromGp {w32 : Bool} {sz : FSz} {rd : Fin 32} {rn : Reg} (ok : sz ≠ .h)
    (hs : step (.fmovFromGp w32 sz rd rn) len s = some s') :
    Simulates cfg slide (.fmovFromGp w32 sz rd rn) len s s' := by
  obtain ⟨s1, hp, rfl⟩ := step_plain hs rfl
  simp only [S.plain] at hp
  split at hp
  · rename_i h
    cases hp
    refine plain_sim (fun m => some (m.setV rd (m.get (W w32) rn))) (fun _ _ => rfl) ?_
    intro start m hr hpc hst
    refine ⟨_, rfl, ?_⟩
    rw [hr.get]
    have hreg : ∀ w, w ≤ 64 → (s.reg 64 rn).extractLsb' 0 w = s.reg w rn := by
      intro w hw
      cases rn <;> simp only [S.reg] <;> apply BitVec.eq_of_getLsbD_eq <;> intro i hi <;>
        simp [BitVec.getElem_extractLsb', hi, show i < 64 by omega]
    have hwe : W w32 = 8 * sz.bytes := by
      exact fmov_width ok h
    rw [hreg _ (by rw [← hwe]; exact W_le64 w32), ← hwe]
    exact hr.setV _ _
  · cases hp

theorem sim_fmovTopToGp {w32 : Bool} {rd : Reg} {rn : Fin 32}
    (hs : step (.fmovTopToGp w32 rd rn) len s = some s') :
    Simulates cfg slide (.fmovTopToGp w32 rd rn) len s s' := by
  obtain ⟨s1, hp, rfl⟩ := step_plain hs rfl
  simp only [S.plain] at hp
  split at hp
  · cases hp
  · cases hp
    refine plain_sim (fun m => some (m.set rd (trunc 64 (IR.lshr (m.vec rn) (some 64#128))))) (fun _ _ => rfl) ?_
    intro start m hr hpc hst
    refine ⟨_, rfl, ?_⟩
    have e : trunc 64 (IR.lshr (m.vec rn) (some 64#128)) = some ((s.vec rn).extractLsb' 64 64) := by
      rw [hr.vec, lshr_some, if_pos (by decide), trunc_some]
      congr 1
    rw [e]
    exact hr.set _ _

theorem sim_fmovGpToTop {rd : Fin 32} {rn : Reg}
    (hs : step (.fmovGpToTop rd rn) len s = some s') :
    Simulates cfg slide (.fmovGpToTop rd rn) len s s' := by
  obtain ⟨s1, hp, rfl⟩ := step_plain hs rfl
  simp only [S.plain, Option.some.injEq] at hp
  subst hp
  refine plain_sim (fun m => some (m.insTop rd (m.get 64 rn))) (fun _ _ => rfl) ?_
  intro start m hr hpc hst
  refine ⟨_, rfl, hr.gp, hr.sp, ?_, hr.tpidr, hr.mem, hr.pc, hr.fl⟩
  intro k
  simp only [St.insTop, S.setVec]
  split
  · rw [hr.get, hr.vec, trunc_some]
    simp only [bin_some]
    congr 1
    apply BitVec.eq_of_toNat_eq
    simp [extract0]
  · exact hr.vec k

theorem sim_fmovReg {sz : FSz} {rd rn : Fin 32} (hs : step (.fmovReg sz rd rn) len s = some s') :
    Simulates cfg slide (.fmovReg sz rd rn) len s s' := by
  obtain ⟨s1, hp, rfl⟩ := step_plain hs rfl
  simp only [S.plain, Option.some.injEq] at hp
  subst hp
  refine plain_sim (fun m => some (m.setV rd (m.getV rn (8 * sz.bytes)))) (fun _ _ => rfl) ?_
  intro start m hr hpc hst
  exact ⟨_, rfl, by rw [hr.getV]; exact hr.setV _ _⟩

theorem intMin_bit {w : Nat} (hw : 0 < w) (i : Nat) : (BitVec.intMin w).getLsbD i = (i == w - 1) := by
  rw [BitVec.getLsbD_intMin]
  by_cases h : i = w - 1
  · subst h; simp; omega
  · have : i + 1 ≠ w := by omega
    simp [h, this]

theorem sim_fabs {sz : FSz} {rd rn : Fin 32} (hs : step (.fabs sz rd rn) len s = some s') :
    Simulates cfg slide (.fabs sz rd rn) len s s' := by
  obtain ⟨s1, hp, rfl⟩ := step_plain hs rfl
  simp only [S.plain, bind, Option.bind_eq_some_iff, pure, Option.some.injEq] at hp
  obtain ⟨w, hw, rfl⟩ := hp
  refine plain_sim (fun m => sz.fpBits.map fun w => m.setV rd (IR.fabs (m.getV rn w))) (fun _ _ => rfl) ?_
  intro start m hr hpc hst
  refine ⟨_, by simp only [fpBits_eq, hw, Option.map_some]; rfl, ?_⟩
  have hw0 : 0 < w := by cases sz <;> simp [FSz.bits] at hw <;> omega
  have e : IR.fabs (m.getV rn w) = some (bits w fun i => i != w - 1 && (s.scalar rn w).getLsbD i) := by
    rw [hr.getV, IR.fabs, un_some]
    congr 1
    apply BitVec.eq_of_getLsbD_eq
    intro i hi
    simp only [getLsbD_bits, hi, decide_true, Bool.true_and, BitVec.getLsbD_and, BitVec.getLsbD_not,
      intMin_bit hw0]
    rw [Bool.and_comm]; rfl
  rw [e]
  exact hr.setV _ _

theorem sim_fneg {sz : FSz} {rd rn : Fin 32} (hs : step (.fneg sz rd rn) len s = some s') :
    Simulates cfg slide (.fneg sz rd rn) len s s' := by
  obtain ⟨s1, hp, rfl⟩ := step_plain hs rfl
  simp only [S.plain, bind, Option.bind_eq_some_iff, pure, Option.some.injEq] at hp
  obtain ⟨w, hw, rfl⟩ := hp
  refine plain_sim (fun m => sz.fpBits.map fun w => m.setV rd (IR.fneg (m.getV rn w))) (fun _ _ => rfl) ?_
  intro start m hr hpc hst
  refine ⟨_, by simp only [fpBits_eq, hw, Option.map_some]; rfl, ?_⟩
  have hw0 : 0 < w := by cases sz <;> simp [FSz.bits] at hw <;> omega
  have e : IR.fneg (m.getV rn w) = some (bits w fun i => (i == w - 1) ^^ (s.scalar rn w).getLsbD i) := by
    rw [hr.getV, IR.fneg, un_some]
    congr 1
    apply BitVec.eq_of_getLsbD_eq
    intro i hi
    simp only [getLsbD_bits, hi, decide_true, Bool.true_and, BitVec.getLsbD_xor, intMin_bit hw0]
    rw [Bool.xor_comm]
  rw [e]
  exact hr.setV _ _

end Verif.A64.Spec
