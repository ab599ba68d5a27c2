import Verif.A64.Props

/-!
The exceptions of the A64 properties are exactly the cases in which they are false: for every specified instruction
(all but floating-point arithmetic and scalar floating-point comparisons), the lifted code is right if and only if `Exact` holds.
-/

namespace Verif.A64.Spec

open Verif.IR Verif.X86

variable {cfg : Cfg} {slide : BitVec 64} {len : Nat} {s s' : S}

/-- Where the lifted code of the `general` instructions is right. -/
def Exact (len : Nat) (s : S) : Instr → Prop
  | .bin _ w32 _ _ _ _ (.ext _ e _) => 8 * e.bytes ≤ W w32
  | .adc sub w32 true _ _ rm =>
    ∀ c, s.fl .c = some c → c = sub ∨ (s.reg (W w32) rm ≠ BitVec.allOnes _ ∧ s.reg (W w32) rm ≠ BitVec.intMax _)
  | .dmb crm => crm % 4 ≠ 0
  | .prfm prfop _ _ => prfop / 8 % 4 ≠ 3
  | .blr (.x 30) => s.reg 64 (.x 30) = s.pc + BitVec.ofNat 64 len
  | .fmovFromGp w32 .h _ rn => (s.reg (W w32) rn).toNat < 2 ^ 16
  | .simd (.three (.shl _) _ scalar va _ _ rm) =>
    ∀ i, i < (if scalar then 1 else va.n) → ((s.el rm va.w i).extractLsb' 0 8).toInt.natAbs < va.w
  | .simd (.shr _ _ _ va _ _ imm) => imm < va.w
  | _ => True

/-- Neither floating-point arithmetic nor a scalar floating-point comparison. -/
def general : Instr → Bool
  | .simd (.three op _ true _ _ _ _) => !Three.isFp op
  | .simd (.two op true _ _ _) => !Two.isFp op
  | .fpu _ => false
  | _ => true

theorem lift_none {i : Instr} (h : ∀ start m, lift cfg slide i start len m = none) (t : S) :
    ¬ Simulates cfg slide i len s t := by
  intro hsim
  obtain ⟨m', e, -⟩ := hsim (s.pc - slide) (s.rep slide) (rep_rel slide s) (BitVec.sub_add_cancel _ _).symm
  rw [h] at e
  cases e

theorem reg_trunc (s : S) (rn : Reg) (w : Nat) (hw : w ≤ 64) : (s.reg 64 rn).extractLsb' 0 w = s.reg w rn := by
  cases rn <;> simp only [S.reg] <;> apply BitVec.eq_of_getLsbD_eq <;> intro i hi <;>
    simp [BitVec.getElem_extractLsb', hi, show i < 64 by omega]

/-- FMOV of a half-precision register is right exactly if the bits above 16 are zero. -/
theorem fmov_h_exact (w32 : Bool) (rd : Fin 32) (rn : Reg) (hs : step (.fmovFromGp w32 .h rd rn) len s = some s') :
    Simulates cfg slide (.fmovFromGp w32 .h rd rn) len s s' ↔ (s.reg (W w32) rn).toNat < 2 ^ 16 := by
  obtain ⟨s1, hp, rfl⟩ := step_plain hs rfl
  have hp : s1 = s.setVec rd ((s.reg 64 rn).extractLsb' 0 16) := by
    cases w32 <;> simp only [S.plain, fmovOk, if_true, Option.some.injEq] at hp <;> exact hp.symm
  subst hp
  have hv : ((s.reg 64 rn).extractLsb' 0 16).toNat = (s.reg (W w32) rn).toNat % 2 ^ 16 := by
    rw [← reg_trunc s rn (W w32) (W_le64 w32)]
    simp only [BitVec.extractLsb'_toNat, Nat.shiftRight_zero]
    rw [Nat.mod_mod_of_dvd]
    exact Nat.pow_dvd_pow 2 (by cases w32 <;> decide)
  constructor
  · intro hsim
    obtain ⟨m', e, r⟩ := hsim (s.pc - slide) (s.rep slide) (rep_rel slide s) (BitVec.sub_add_cancel _ _).symm
    have hr : Rel slide { s.rep slide with pc := .const (s.pc - slide) } s := rep_rel slide s
    have r2 := hr.setV rd (s.reg (W w32) rn)
    have e2 : m' = { (St.setV { s.rep slide with pc := .const (s.pc - slide) } rd
        (St.get { s.rep slide with pc := .const (s.pc - slide) } (W w32) rn)) with
        pc := .const (s.pc - slide + BitVec.ofNat 64 len) } := by
      have : lift cfg slide (.fmovFromGp w32 .h rd rn) (s.pc - slide) len (s.rep slide) = some { st :=
        { (St.setV { s.rep slide with pc := .const (s.pc - slide) } rd
        (St.get { s.rep slide with pc := .const (s.pc - slide) } (W w32) rn)) with
          pc := .const (s.pc - slide + BitVec.ofNat 64 len) } } := rfl
      rw [this] at e
      exact congrArg Out.st (Option.some.inj e).symm
    rw [hr.get] at e2
    have h1 := r.vec rd
    have h2 := r2.vec rd
    rw [e2] at h1
    have h3 := Option.some.inj (h1.symm.trans h2)
    simp only [S.setVec, if_true] at h3
    have h4 := congrArg BitVec.toNat h3
    have h5 := (s.reg (W w32) rn).isLt
    have h6 : 2 ^ W w32 ≤ 2 ^ 128 := Nat.pow_le_pow_right (by decide) (by cases w32 <;> decide)
    rw [BitVec.toNat_ofNat, BitVec.toNat_ofNat, hv] at h4
    omega
  · intro hlt
    refine plain_sim (fun m => some (m.setV rd (m.get (W w32) rn))) (fun _ _ => rfl) ?_
    intro start m hr hpc hst
    refine ⟨_, rfl, ?_⟩
    rw [hr.get]
    have h := hr.setV rd (s.reg (W w32) rn)
    have : s.setVec rd (s.reg (W w32) rn) = s.setVec rd ((s.reg 64 rn).extractLsb' 0 16) := by
      simp only [S.setVec, hv, Nat.mod_eq_of_lt hlt]
    rwa [this] at h

/-- BLR X30 is right exactly if X30 holds the address of the next instruction. -/
theorem blr_x30_exact (hf : cfg.callFunction = none) (hs : step (.blr (.x 30)) len s = some s') :
    Simulates cfg slide (.blr (.x 30)) len s (callFl cfg s') ↔
      s.reg 64 (.x 30) = s.pc + BitVec.ofNat 64 len := by
  simp only [step, S.plain, S.branch, Option.some.injEq] at hs
  subst hs
  constructor
  · intro hsim
    obtain ⟨m', e, r⟩ := hsim (s.pc - slide) (s.rep slide) (rep_rel slide s) (BitVec.sub_add_cancel _ _).symm
    obtain ⟨m2, e2, h2⟩ := C31_blr_x30_wrong (cfg := cfg) (len := len) hf (s.pc - slide) (s.rep slide) (rep_rel slide s)
      (BitVec.sub_add_cancel _ _).symm
    rw [e] at e2
    cases e2
    have := r.pc
    rw [callFl_pc, h2] at this
    exact (Option.some.inj this).symm
  · intro hx start m hr hpc
    refine ⟨callee cfg slide { m with pc := .const start } start len (.inl (.x 30)), ?_, ?_⟩
    · simp only [lift, liftCall_eq, hf, Option.map_some]
    · have h1 := clobber_rel cfg (rel_start hr hpc)
      have hg : (clobber cfg { m with pc := .const start }).pc.get slide (BitVec.ofNat 64 len) =
          some (s.pc + BitVec.ofNat 64 len) := by
        have := Verif.X86.pc_get _ (BitVec.ofNat 64 len) _ _ h1.pc
        rw [callFl_pc] at this
        exact this
      have h2 := h1.set (.x 30) (s.pc + BitVec.ofNat 64 len)
      simp only [callee, hg, callTarget]
      rw [h2.get, reg_setReg_same _ (by simp)]
      have h3 := h2.setPc (p := .value (some (s.pc + BitVec.ofNat 64 len))) (v := s.pc + BitVec.ofNat 64 len) (Pc.val_value _ _)
      rw [hx]
      have : callFl cfg { s.setReg (.x 30) (s.pc + BitVec.ofNat 64 len) with pc := s.pc + BitVec.ofNat 64 len } =
          { (callFl cfg s).setReg (.x 30) (s.pc + BitVec.ofNat 64 len) with pc := s.pc + BitVec.ofNat 64 len } := by
        unfold callFl; split <;> rfl
      rw [this]
      exact h3

/-- One poison lane makes the whole register poison. -/
theorem toBits_none {w n : Nat} {v : Vec w} {i : Nat} (hi : i < n) (h : v i = none) : v.toBits n = none := by
  unfold Vec.toBits
  rw [if_neg]
  simp only [List.all_eq_true, List.mem_range, Classical.not_forall]
  exact ⟨i, hi, by simp [h]⟩

/-- A poison register represents nothing. -/
theorem simd_poison {j : Simd} (rd : Fin 32) (hh : j.handled = true)
    (h : ∀ m, Rel slide m s → ∃ m1, j.lift m = some m1 ∧ m1.vec rd = none) (t : S) :
    ¬ Simulates cfg slide (.simd j) len s t := by
  intro hsim
  obtain ⟨m', e, r⟩ := hsim (s.pc - slide) (s.rep slide) (rep_rel slide s) (BitVec.sub_add_cancel _ _).symm
  have hr : Rel slide { s.rep slide with pc := .const (s.pc - slide) } s := rep_rel slide s
  obtain ⟨m1, e1, h1⟩ := h _ hr
  simp only [lift, hh, if_true] at e
  rw [e1] at e
  cases e
  have h2 := r.vec rd
  simp only [h1] at h2
  cases h2

theorem setV_none (m : St) (rd : Fin 32) {w : Nat} : (m.setV rd (none : Val w)).vec rd = none := by
  simp only [St.setV, if_true]
  rfl

theorem setVec_none (m : St) (rd : Fin 32) {w n : Nat} {v : Vec w} {i : Nat} (hi : i < n) (h : v i = none) :
    (m.setVec rd n v).vec rd = none := by
  rw [St.setVec, toBits_none hi h, setV_none]

theorem shlReg_none {w : Nat} (hw : 8 ≤ w) (sg : Bool) (a b : BitVec w) (h : ¬ ShlOk w b) :
    shlReg sg (some a) (some b) = none := by
  unfold ShlOk at h
  unfold shlReg
  simp only [trunc_some]
  rw [extract0] at h
  generalize b.setWidth 8 = k at *
  have hz : (0#8).toInt = 0 := rfl
  have hsx : (k.signExtend w).toInt = k.toInt := BitVec.toInt_signExtend_of_le hw
  show select (icmp .sge (some k) (some 0)) _ _ = _
  simp only [icmp_some, select_bool, Pred.eval, sext_some, neg_some, BitVec.sle, decide_eq_true_eq]
  show (if (0#8).toInt ≤ k.toInt then _ else _) = _
  rw [hz]
  have h1 := BitVec.toInt_eq_toNat_cond (k.signExtend w)
  rw [hsx] at h1
  have h2 := (k.signExtend w).isLt
  have h3 : w < 2 ^ w := Nat.lt_two_pow_self
  by_cases hk : 0 ≤ k.toInt
  · rw [if_pos hk, shl_some, if_neg]
    split at h1 <;> omega
  · rw [if_neg hk]
    have e : w ≤ (-(k.signExtend w)).toNat := by
      rw [BitVec.toNat_neg]
      split at h1
      · omega
      · rw [Nat.mod_eq_of_lt (by omega)]
        omega
    cases sg
    · simp only [Bool.false_eq_true, if_false, lshr_some]
      rw [if_neg (by omega)]
    · simp only [if_true, ashr_some]
      rw [if_neg (by omega)]

theorem shl_wrong (r sg scalar : Bool) (va : VA) (rd rn rm : Fin 32) {i : Nat} (hi : i < (if scalar then 1 else va.n))
    (hbad : ¬ ShlOk va.w (s.el rm va.w i)) (hs : step (.simd (.three (.shl r) sg scalar va rd rn rm)) len s = some s') :
    ¬ Simulates cfg slide (.simd (.three (.shl r) sg scalar va rd rn rm)) len s s' := by
  obtain ⟨s1, hp, rfl⟩ := step_plain hs rfl
  have hp : s.simd (.three (.shl r) sg scalar va rd rn rm) = some s1 := hp
  refine simd_poison rd (simd_handled hp) (fun m hr => ⟨_, rfl, ?_⟩) _
  unfold liftThree
  cases scalar with
  | true =>
    have h64 : va.w = 64 := by
      simp only [S.simd] at hp
      split at hp
      · cases hp
      · simp only [if_true] at hp
        split at hp
        · next h => simpa [Three.scalarOk] using h
        · cases hp
    obtain rfl : i = 0 := by simpa using hi
    rw [h64] at hbad
    simp only [Three.hasScalar, Three.scalarW, Bool.and_self, if_true, lane3, hr.scalarEl]
    rw [shlReg_none (by decide) _ _ _ hbad, setV_none]
  | false =>
    simp only [Bool.false_and, Bool.false_eq_true, if_false] at hi ⊢
    refine setVec_none _ _ hi ?_
    simp only [lane3, hr.getVec va _ hi]
    exact shlReg_none (by cases va <;> decide) _ _ _ hbad

theorem shr_wrong (r sg scalar : Bool) (va : VA) (rd rn : Fin 32) {imm : Nat} (hbad : ¬ imm < va.w)
    (hs : step (.simd (.shr sg r scalar va rd rn imm)) len s = some s') :
    ¬ Simulates cfg slide (.simd (.shr sg r scalar va rd rn imm)) len s s' := by
  obtain ⟨s1, hp, rfl⟩ := step_plain hs rfl
  have hp : s.simd (.shr sg r scalar va rd rn imm) = some s1 := hp
  have hle : imm ≤ va.w := by
    simp only [S.simd] at hp
    split at hp
    · omega
    · cases hp
  refine simd_poison rd (simd_handled hp) (fun m hr => ⟨_, rfl, ?_⟩) _
  have hk : (BitVec.ofNat va.w imm).toNat = imm := by
    rw [BitVec.toNat_ofNat, Nat.mod_eq_of_lt]
    have : va.w < 2 ^ va.w := Nat.lt_two_pow_self
    omega
  have hf : ∀ x : BitVec va.w, (if sg then IR.ashr (some x) (some (BitVec.ofNat va.w imm))
      else IR.lshr (some x) (some (BitVec.ofNat va.w imm))) = none := by
    intro x
    cases sg <;> simp [ashr_some, lshr_some, hk, hbad]
  have hn : 0 < va.n := by cases va <;> decide
  unfold liftShr
  cases scalar with
  | true => simp only [if_true, hr.scalarEl, hf, setV_none]
  | false =>
    simp only [Bool.false_eq_true, if_false]
    refine setVec_none _ _ hn ?_
    simp only [hr.getVec va _ hn, hf]

/-- C31, C32, C35, C37, C46, C47 (A64): the lifted code of a specified instruction is right if and only if `Exact` holds. -/
theorem A64_exact (i : Instr) (hi : general i = true) (hf : cfg.callFunction = none) (hs : step i len s = some s') :
    Simulates cfg slide i len s (after cfg s' i) ↔ Exact len s i := by
  by_cases hsup : Supported cfg s i
  · refine iff_of_true (A64_instruction_partial i hsup hs) ?_
    unfold Exact
    split
    · exact hsup
    · exact hsup rfl
    · exact hsup
    · exact hsup
    · exact absurd rfl hsup.1
    · exact absurd rfl hsup
    · exact hsup.1 _ rfl
    · exact hsup
    · trivial
  · cases i with
    | bin op w32 sf inv rd rn rhs =>
      cases rhs with
      | ext rm e l =>
        simp only [Supported, RhsOk] at hsup
        simp only [Exact]
        refine iff_of_false (lift_none ?_ _) hsup
        intro start m
        simp [lift, liftBin, rhsVal, extend, hsup]
      | _ => exact absurd trivial hsup
    | adc sub w32 sf rd rn rm =>
      cases sf with
      | false => simp [Supported] at hsup
      | true =>
        simp only [Supported, true_implies, Classical.not_forall] at hsup
        obtain ⟨c, hc, hbad⟩ := hsup
        refine iff_of_false (C32_adcs_wrong sub w32 rd rn rm c hc hbad hs) ?_
        simp only [Exact]
        exact fun h => hbad (h c hc)
    | dmb crm =>
      refine iff_of_false (lift_none ?_ _) hsup
      intro start m
      simp only [Supported, ne_eq, Classical.not_not] at hsup
      simp [lift, dmbOk, hsup]
    | prfm prfop mode rn =>
      refine iff_of_false (lift_none ?_ _) hsup
      intro start m
      simp only [Supported, ne_eq, Classical.not_not] at hsup
      simp [lift, hsup]
    | blr rn =>
      simp only [Supported, hf, and_true, ne_eq, Classical.not_not] at hsup
      subst hsup
      exact blr_x30_exact hf hs
    | bl off => exact absurd hf hsup
    | ret rn => exact absurd hf hsup
    | fmovFromGp w32 sz rd rn =>
      simp only [Supported, ne_eq, Classical.not_not] at hsup
      subst hsup
      exact fmov_h_exact w32 rd rn hs
    | simd j =>
      cases j with
      | three op sg scalar va rd rn rm =>
        have hfp : scalar = true → Three.isFp op = true → va.w = 64 := by
          intro h1 h2
          subst h1
          simp [general, h2] at hi
        by_cases hop : ∃ r, op = .shl r
        · obtain ⟨r, rfl⟩ := hop
          have hbad : ¬ ∀ i, i < (if scalar then 1 else va.n) → ShlOk va.w (s.el rm va.w i) := fun h =>
            hsup ⟨fun _ _ => h, hfp⟩
          simp only [Classical.not_forall] at hbad
          obtain ⟨i, h1, h2⟩ := hbad
          exact iff_of_false (shl_wrong r sg scalar va rd rn rm h1 h2 hs) (fun h => h2 (h i h1))
        · exact absurd ⟨fun r e => absurd ⟨r, e⟩ hop, hfp⟩ hsup
      | two op scalar va rd rn =>
        refine absurd (fun h1 h2 => ?_) hsup
        subst h1
        simp [general, h2] at hi
      | shr sg r scalar va rd rn imm => exact iff_of_false (shr_wrong r sg scalar va rd rn hsup hs) hsup
      | _ => exact absurd trivial hsup
    | fpu => cases hi
    | _ => exact absurd trivial hsup

example : ¬ Simulates {} 0 (.adc false false true (.x 7) (.x 0) (.x 2)) 4 s0
    ((step (.adc false false true (.x 7) (.x 0) (.x 2)) 4 s0).get rfl) := fun h =>
  absurd ((A64_exact (cfg := {}) (slide := 0) (.adc false false true (.x 7) (.x 0) (.x 2)) rfl rfl
    (Option.some_get (x := step _ 4 s0) rfl).symm).1 h true rfl) (by decide +kernel)
example : Exact 4 s0 (.adc false false true (.x 7) (.x 0) (.x 1)) := by
  intro c hc; right; decide +kernel
/-- FMOV H4, W0 with a small W0 is right. -/
example : Simulates {} 0 (.fmovFromGp true .h 4 (.x 0)) 4 s0 ((step (.fmovFromGp true .h 4 (.x 0)) 4 s0).get rfl) :=
  (A64_exact (cfg := {}) (slide := 0) _ rfl rfl (Option.some_get (x := step _ 4 s0) rfl).symm).2
    (by decide +kernel : (s0.reg (W true) (.x 0)).toNat < 2 ^ 16)

/-- USHR V5.4H, V0.4H, #16: wrong in every state. -/
example (s s' : S) (hs : step (.simd (.shr false false false .h4 5 0 16)) 4 s = some s') :
    ¬ Simulates {} 0 (.simd (.shr false false false .h4 5 0 16)) 4 s s' := fun h =>
  absurd ((A64_exact (cfg := {}) _ rfl rfl hs).1 h) (by decide : ¬ 16 < VA.w .h4)
example (s : S) : (step (.simd (.shr false false false .h4 5 0 16)) 4 s).isSome = true := rfl

end Verif.A64.Spec
