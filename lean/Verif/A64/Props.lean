import Verif.A64.FpOps
import Verif.A64.SimdMem
import Verif.A64.FpuProofs

/-!
Property theorems for the AArch64 integer, branch, memory and scalar floating-point instructions
(C31-C35, C42).

The architecture is `Verif.A64.Spec.step` (Verif/A64/Spec.lean).  `Simulates cfg slide i len s s'`
says: whatever the load address, the code emitted for `i` takes every representation of the state `s`
to a representation of `s'`, without undefined behaviour.
-/

set_option linter.unusedSimpArgs false
set_option linter.constructorNameAsVariable false

namespace Verif.A64.Spec

open Verif.IR

variable {cfg : Cfg} {slide : BitVec 64} {len : Nat} {s s' : S}

/-! ### Concrete states -/

/-- A representation of an architectural state (unknown flags are poison). -/
def S.rep (slide : BitVec 64) (s : S) : St where
  gp := fun r => if h : r.val < 31 then some (s.x ⟨r.val, h⟩) else some s.sp
  vec := fun r => some (s.vec r)
  fl := fun f => (s.fl f).map BitVec.ofBool
  tpidr := some s.tpidr
  mem := s.mem.toV
  pc := .const (s.pc - slide)

/-- Every state has a representation. -/
theorem rep_rel (slide : BitVec 64) (s : S) : Rel slide (s.rep slide) s where
  gp r := by simp [S.rep]
  sp := rfl
  vec _ := rfl
  tpidr := rfl
  mem := rfl
  pc := by rw [S.rep, Pc.val_const, BitVec.sub_add_cancel]
  fl f b hb := by simp only [S.rep, hb, Option.map_some]

/-- The state used in the examples: X0 = 5, X1 = 3, X2 = -1, X3 = 0x7fff…, X4 = 0x8000…, X5 = 0x2000,
X6 = 0xffffffff80000001, X30 = 0x1234, SP = 0x1000; C is set; memory holds its address modulo 251. -/
def s0 : S where
  x := fun r => match r.val with
    | 0 => 5 | 1 => 3 | 2 => -1 | 3 => BitVec.intMax 64 | 4 => BitVec.intMin 64 | 5 => 0x2000
    | 6 => 0xffffffff80000001 | 30 => 0x1234 | _ => 0
  sp := 0x1000
  vec := fun r => match r.val with
    | 0 => 0x0123456789abcdeffedcba9876543210 | 1 => 0x3ff0000000000000 | 2 => 0x4000000000000000
    | 3 => 0x7ff8000000000000 | _ => 0
  fl := fun f => some (f == .c)
  tpidr := 0x7000
  mem := fun a => BitVec.ofNat 8 (a.toNat % 251)
  pc := 0x400000

/-- Register `r` after the architecture executed `i`. -/
def specReg (i : Instr) (s : S) (r : Reg) : Option (BitVec 64) := (step i 4 s).map (·.reg 64 r)
/-- Flag `f` after the architecture executed `i`. -/
def specFl (i : Instr) (s : S) (f : Flag) : Option (Option Bool) := (step i 4 s).map (·.fl f)
/-- Register `r` after the lifted code ran. -/
def liftReg (i : Instr) (s : S) (r : Reg) : Option (Val 64) :=
  (lift {} 0 i s.pc 4 (s.rep 0)).map (·.st.get 64 r)
/-- Flag `f` after the lifted code ran. -/
def liftFl (i : Instr) (s : S) (f : Flag) : Option (Val 1) :=
  (lift {} 0 i s.pc 4 (s.rep 0)).map (·.st.fl f)

/-- Refutation by something that a representation determines. -/
theorem refuted {α : Type} {i : Instr} {s : S} (f : S → α) (g : St → Val 64)
    (enc : α → BitVec 64) (hg : ∀ m s', Rel 0 m s' → g m = some (enc (f s')))
    (h : (step i 4 s).isSome = true ∧
      (lift {} 0 i s.pc 4 (s.rep 0)).map (g ·.st) ≠ (step i 4 s).map (some ∘ enc ∘ f)) :
    ∃ s', step i 4 s = some s' ∧ ¬ Simulates {} 0 i 4 s s' := by
  obtain ⟨h1, h2⟩ := h
  cases hst : step i 4 s with
  | none => rw [hst] at h1; cases h1
  | some s' =>
    refine ⟨s', rfl, fun hsim => h2 ?_⟩
    obtain ⟨m', e, hr⟩ := hsim s.pc (s.rep 0) (rep_rel 0 s) (BitVec.add_zero _).symm
    rw [hst, e]
    simp only [Option.map_some, hg _ _ hr, Function.comp]

/-- Refutation by the program counter. -/
theorem refuted_pc {i : Instr} {s : S} (h : (step i 4 s).isSome = true ∧
      (lift {} 0 i s.pc 4 (s.rep 0)).map (fun o => o.st.pc.val 0) ≠ (step i 4 s).map fun s => some s.pc) :
    ∃ s', step i 4 s = some s' ∧ ¬ Simulates {} 0 i 4 s s' :=
  refuted (fun s => s.pc) (fun m => m.pc.val 0) id (fun _ _ hr => hr.pc) h

/-- Refutation by undefined behaviour (or a failing assertion in the lifter). -/
theorem refuted_ub {i : Instr} {s : S}
    (h : (step i 4 s).isSome = true ∧ (lift {} 0 i s.pc 4 (s.rep 0)).isNone = true) :
    ∃ s', step i 4 s = some s' ∧ ¬ Simulates {} 0 i 4 s s' := by
  obtain ⟨h1, h2⟩ := h
  cases hst : step i 4 s with
  | none => rw [hst] at h1; cases h1
  | some s' =>
    refine ⟨s', rfl, fun hsim => ?_⟩
    obtain ⟨m', e, hr⟩ := hsim s.pc (s.rep 0) (rep_rel 0 s) (BitVec.add_zero _).symm
    rw [e] at h2
    cases h2

/-- Two instructions one after the other. -/
theorem Simulates.seq {i j : Instr} {l1 l2 : Nat} {s s1 s2 : S} (h1 : Simulates cfg slide i l1 s s1)
    (h2 : Simulates cfg slide j l2 s1 s2) (start next : BitVec 64) (m : St) (hr : Rel slide m s)
    (hpc : s.pc = start + slide) (hn : s1.pc = next + slide) :
    ∃ m1 m2, lift cfg slide i start l1 m = some { st := m1 } ∧
      lift cfg slide j next l2 m1 = some { st := m2 } ∧ Rel slide m1 s1 ∧ Rel slide m2 s2 := by
  obtain ⟨m1, e1, r1⟩ := h1 start m hr hpc
  obtain ⟨m2, e2, r2⟩ := h2 next m1 r1 hn
  exact ⟨m1, m2, e1, e2, r1, r2⟩

/-! ### C31: branches, calls, returns -/

/-- B, B.cond, BR, CBZ, CBNZ, TBZ, TBNZ continue at the architectural address; TBZ with any bit of the
register. -/
theorem C31_a64_branch {i : Instr} (hi : match i with
      | .b _ | .bcond _ _ | .br _ | .cbz _ _ _ _ | .tbz _ _ _ _ _ => True
      | _ => False)
    (hs : step i len s = some s') : Simulates cfg slide i len s s' := by
  cases i <;> simp only at hi
  · exact sim_bcond hs
  · exact sim_b hs
  · exact sim_br hs
  · exact sim_cbz hs
  · exact sim_tbz hs

/-- BL: the link register holds the address of the next instruction; with `clobberFlags` the flags are
unspecified (`callFl`). -/
theorem C31_a64_bl (off : BitVec 64) (hf : cfg.callFunction = none) (hs : step (.bl off) len s = some s') :
    Simulates cfg slide (.bl off) len s (callFl cfg s') := sim_bl hf hs

/-- BLR through any register but X30.  Full statement: the same for `rn = X30`, refuted below. -/
theorem C31_a64_blr_partial (rn : Reg) (hne : rn ≠ .x 30) (hf : cfg.callFunction = none)
    (hs : step (.blr rn) len s = some s') : Simulates cfg slide (.blr rn) len s (callFl cfg s') :=
  sim_blr hne hf hs

/-- With a call function, BL and BLR call it in the architectural state at the entry of the callee, and
the lifted code goes on from the state that it returns, at the returned program counter. -/
theorem C31_a64_bl_function {f : St → Option St} (off : BitVec 64) (hf : cfg.callFunction = some f)
    (hs : step (.bl off) len s = some s') (s2 : S)
    (hcallee : ∀ m1, Rel slide m1 (callFl cfg s') → ∃ m2, f m1 = some m2 ∧ Rel slide m2 s2) :
    Simulates cfg slide (.bl off) len s s2 := sim_bl_function hf hs s2 hcallee

theorem C31_a64_blr_function_partial {f : St → Option St} (rn : Reg) (hne : rn ≠ .x 30)
    (hf : cfg.callFunction = some f) (hs : step (.blr rn) len s = some s') (s2 : S)
    (hcallee : ∀ m1, Rel slide m1 (callFl cfg s') → ∃ m2, f m1 = some m2 ∧ Rel slide m2 s2) :
    Simulates cfg slide (.blr rn) len s s2 := sim_blr_function hne hf hs s2 hcallee

/-- RET: the program counter is the register; the lifted function returns there iff there is a call
function. -/
theorem C31_a64_ret (rn : Reg) (hs : step (.ret rn) len s = some s') (start : BitVec 64) (m : St)
    (hr : Rel slide m s) (hpc : s.pc = start + slide) :
    ∃ m', lift cfg slide (.ret rn) start len m = some { st := m', returned := cfg.callFunction.isSome } ∧
      Rel slide m' (callFl cfg s') := sim_ret hs start m hr hpc

/-- BLR X30 jumps to the next instruction instead of the address in X30: the link register is written
before the target is read. -/
theorem C31_blr_x30_counterexample :
    ∃ s', step (.blr (.x 30)) 4 s0 = some s' ∧ ¬ Simulates {} 0 (.blr (.x 30)) 4 s0 s' :=
  refuted_pc (by decide +kernel)

/-- In fact it does so in every state whose X30 does not hold the address of the next instruction. -/
theorem C31_blr_x30_wrong (hf : cfg.callFunction = none) (start : BitVec 64) (m : St) (hr : Rel slide m s)
    (hpc : s.pc = start + slide) :
    ∃ m', lift cfg slide (.blr (.x 30)) start len m = some { st := m' } ∧
      m'.pc.val slide = some (s.pc + BitVec.ofNat 64 len) := by
  refine ⟨callee cfg slide { m with pc := .const start } start len (.inl (.x 30)), ?_, ?_⟩
  · simp only [lift, liftCall_eq, hf, Option.map_some]
  · have h1 := clobber_rel cfg (rel_start hr hpc)
    have hg : (clobber cfg { m with pc := .const start }).pc.get slide (BitVec.ofNat 64 len) =
        some (s.pc + BitVec.ofNat 64 len) := by
      have := Verif.X86.pc_get _ (BitVec.ofNat 64 len) _ _ h1.pc
      rw [callFl_pc] at this
      exact this
    have h2 := h1.set (.x 30) (s.pc + BitVec.ofNat 64 len)
    simp only [callee, hg, callTarget]
    rw [h2.get, reg_setReg_same _ (by simp), Pc.val_value]

example : specReg (.bl 0x100) s0 (.x 30) = some 0x400004 := by decide +kernel
example : (step (.blr (.x 5)) 4 s0).map (·.pc) = some 0x2000 := by decide +kernel
example : (step (.tbz true false (.x 0) 2 0x40) 4 s0).map (·.pc) = some 0x400040 := by decide +kernel
example : (step (.cbz false true (.x 0) 0x40) 4 s0).map (·.pc) = some 0x400004 := by decide +kernel
example : (step (.bcond .hs (-8)) 4 s0).map (·.pc) = some 0x3ffff8 := by decide +kernel
example : (step (.ret (.x 30)) 4 s0).map (·.pc) = some 0x1234 := by decide +kernel

/-! ### C32: additions and subtractions with flags -/

/-- ADD, ADDS, CMN, SUB, SUBS, CMP, NEG, NEGS and the logical instructions with every kind of second
operand, both widths.  `RhsOk`: an extended register is not wider than the operation; the 64-bit
extensions (UXTX, SXTX) on 32-bit operations are legal and excluded, see the counterexample. -/
theorem C32_binop_partial (op : BinOp) (w32 sf inv : Bool) (rd rn : Reg) (rhs : Rhs) (ok : RhsOk (W w32) rhs)
    (hs : step (.bin op w32 sf inv rd rn rhs) len s = some s') :
    Simulates cfg slide (.bin op w32 sf inv rd rn rhs) len s s' := sim_bin ok hs

/-- ADD W0, W1, W2, UXTX (and SXTX) fails an assertion in the lifter. -/
theorem C32_uxtx_counterexample :
    ∃ s', step (.bin .add true false false (.x 0) (.x 1) (.ext (.x 2) .uxtx 0)) 4 s0 = some s' ∧
      ¬ Simulates {} 0 (.bin .add true false false (.x 0) (.x 1) (.ext (.x 2) .uxtx 0)) 4 s0 s' :=
  refuted_ub (by decide +kernel)

/-- ADC, ADCS, SBC, SBCS, NGC, NGCS: the result, N and Z are always right. -/
theorem C32_adc_value (sub w32 sf : Bool) (rd rn rm : Reg)
    (hs : step (.adc sub w32 sf rd rn rm) len s = some s') :
    Simulates cfg slide (.adc sub w32 sf rd rn rm) len s
      (s'.forget fun f => sf && (f == .c || f == .v)) := sim_adc_values hs

/-- C and V are right as well unless the carry makes the second operand wrap around (`CarryOk`): ADCS
with carry or SBCS without, and a second operand of all ones or the largest signed number. -/
theorem C32_adc_partial (sub w32 sf : Bool) (rd rn rm : Reg)
    (ok : sf = true → ∀ c, s.fl .c = some c → CarryOk sub (s.reg (W w32) rm) c)
    (hs : step (.adc sub w32 sf rd rn rm) len s = some s') :
    Simulates cfg slide (.adc sub w32 sf rd rn rm) len s s' := sim_adc ok hs

theorem flag_ne {w : Nat} (hw : 1 < w) (x y : BitVec w) (h : y = BitVec.allOnes w ∨ y = BitVec.intMax w) :
    ((awcFlags x y true).c ≠ (awcFlags x (y + 1#w) false).c ∨
      (awcFlags x y true).v ≠ (awcFlags x (y + 1#w) false).v) ∧
    ((awcFlags x (~~~ y) false).c ≠ (awcFlags x (~~~ (y + 1#w)) true).c ∨
      (awcFlags x (~~~ y) false).v ≠ (awcFlags x (~~~ (y + 1#w)) true).v) := by
  have hx := x.isLt
  have hp : (2 : Nat) ^ w = 2 * 2 ^ (w - 1) := by
    rw [← Nat.pow_succ']; congr 1; omega
  have hp2 : (2 : Nat) ≤ 2 ^ (w - 1) := by
    calc 2 = 2 ^ 1 := rfl
      _ ≤ 2 ^ (w - 1) := Nat.pow_le_pow_right (by decide) (by omega)
  rcases h with rfl | rfl
  · have e1 : BitVec.allOnes w + 1#w = 0#w := by
      apply BitVec.eq_of_toNat_eq
      rw [BitVec.toNat_add, BitVec.toNat_allOnes, BitVec.toNat_ofNat, Nat.mod_eq_of_lt (a := 1) (by omega)]
      simp [show 2 ^ w - 1 + 1 = 2 ^ w by omega]
    have e2 : ~~~ BitVec.allOnes w = 0#w := by simp
    have e3 : ~~~ (0#w) = BitVec.allOnes w := by simp
    rw [e1, e2, e3]
    have h0 : (awcFlags x 0#w false).c = false := by
      rw [awc_c_add]; simp [BitVec.ult]
    have h1 : (awcFlags x (BitVec.allOnes w) true).c = true := by
      simp only [awcFlags, awc, BitVec.toNat_allOnes, Bool.toNat_true, BitVec.toNat_ofNat]
      rw [show x.toNat + (2 ^ w - 1) + 1 = x.toNat + 2 ^ w by omega, Nat.add_mod_right, Nat.mod_eq_of_lt hx]
      exact decide_eq_true (by omega)
    rw [h0, h1]
    exact ⟨Or.inl (by decide), Or.inl (by decide)⟩
  · have e1 : BitVec.intMax w + 1#w = BitVec.intMin w := by
      apply BitVec.eq_of_toNat_eq
      simp only [BitVec.toNat_add, BitVec.toNat_intMax, BitVec.toNat_intMin, BitVec.toNat_ofNat]
      rw [Nat.mod_eq_of_lt (a := 1) (by omega), show 2 ^ (w - 1) - 1 + 1 = 2 ^ (w - 1) by omega]
    have e2 : ~~~ BitVec.intMax w = BitVec.intMin w := by
      apply BitVec.eq_of_toNat_eq
      simp only [BitVec.toNat_not, BitVec.toNat_intMax, BitVec.toNat_intMin]
      rw [Nat.mod_eq_of_lt (a := 2 ^ (w - 1)) (by omega)]; omega
    have e3 : ~~~ BitVec.intMin w = BitVec.intMax w := by rw [← e2, BitVec.not_not]
    have i1 : (BitVec.intMin w).toInt = - ((2 ^ (w - 1) : Nat) : Int) := by
      rw [BitVec.toInt_intMin_of_pos (by omega)]; push_cast; rfl
    have i2 : (BitVec.intMax w).toInt = ((2 ^ (w - 1) : Nat) : Int) - 1 := by
      rw [BitVec.toInt_intMax]; push_cast; rfl
    have hxi1 := BitVec.le_toInt x
    have hxi2 := BitVec.toInt_lt (x := x)
    have key : (awcFlags x (BitVec.intMax w) true).v ≠ (awcFlags x (BitVec.intMin w) false).v := by
      have ev : awc x (BitVec.intMax w) true = awc x (BitVec.intMin w) false := by
        rw [awc_carry, e1]
      simp only [awcFlags, ev, i1, i2, Bool.toNat_true, Bool.toNat_false]
      intro e
      rw [decide_eq_decide] at e
      have hlo := BitVec.le_toInt (awc x (BitVec.intMin w) false)
      have hhi := BitVec.toInt_lt (x := awc x (BitVec.intMin w) false)
      have hv : (awc x (BitVec.intMin w) false).toInt = (x.toInt + (BitVec.intMin w).toInt).bmod (2 ^ w) := by
        rw [awc_add, BitVec.toInt_add]
      rw [i1] at hv
      have hb : (awc x (BitVec.intMin w) false).toInt = x.toInt - ((2 ^ (w - 1) : Nat) : Int) ∨
          (awc x (BitVec.intMin w) false).toInt = x.toInt + ((2 ^ (w - 1) : Nat) : Int) := by
        rw [hv]
        have hpi : ((2 ^ w : Nat) : Int) = 2 * ((2 ^ (w - 1) : Nat) : Int) := by rw [hp]; simp
        by_cases hneg : x.toInt < 0
        · right
          have : (x.toInt + - ((2 ^ (w - 1) : Nat) : Int)).bmod (2 ^ w) =
              (x.toInt + ((2 ^ (w - 1) : Nat) : Int)).bmod (2 ^ w) := by
            rw [← Int.add_bmod_right (x.toInt + - ((2 ^ (w - 1) : Nat) : Int)) (2 ^ w)]
            congr 1; rw [hpi]; omega
          rw [this]
          apply Int.bmod_eq_of_le <;> push_cast [hpi] at * <;> omega
        · left
          rw [← Int.sub_eq_add_neg]
          apply Int.bmod_eq_of_le <;> push_cast [hpi] at * <;> omega
      omega
    rw [e1, e2, e3]
    exact ⟨Or.inr key, Or.inr (Ne.symm key)⟩

/-- The condition is exact: in every other state ADCS and SBCS set C or V wrongly. -/
theorem C32_adcs_wrong (sub w32 : Bool) (rd rn rm : Reg) (c : Bool) (hc : s.fl .c = some c)
    (hbad : ¬ CarryOk sub (s.reg (W w32) rm) c) (hs : step (.adc sub w32 true rd rn rm) len s = some s') :
    ¬ Simulates cfg slide (.adc sub w32 true rd rn rm) len s s' := by
  intro hsim
  have hw : 1 < W w32 := by cases w32 <;> simp [W]
  obtain ⟨m', e, r⟩ := hsim (s.pc - slide) (s.rep slide) (rep_rel slide s) (BitVec.sub_add_cancel _ _).symm
  have hr : Rel slide { s.rep slide with pc := .const (s.pc - slide) } s := rep_rel slide s
  have r2 := adc_rel (cfg := cfg) hr sub (W_pos w32) true rd rn rm hc
  have e2 : m' = { liftAdc cfg { s.rep slide with pc := .const (s.pc - slide) } sub (W w32) true rd rn rm with
      pc := .const (s.pc - slide + BitVec.ofNat 64 len) } := by
    have : lift cfg slide (.adc sub w32 true rd rn rm) (s.pc - slide) len (s.rep slide) = some { st :=
      { liftAdc cfg { s.rep slide with pc := .const (s.pc - slide) } sub (W w32) true rd rn rm with
        pc := .const (s.pc - slide + BitVec.ofNat 64 len) } } := rfl
    rw [this] at e
    exact congrArg Out.st (Option.some.inj e).symm
  obtain ⟨s1, hp, rfl⟩ := step_plain hs rfl
  simp only [S.plain, hc, bind, Option.bind_some, pure, Option.some.injEq, if_true] at hp
  subst hp
  simp only [if_true] at r2
  have hb1 : c ≠ sub := fun h => hbad (Or.inl h)
  have hb2 : s.reg (W w32) rm = BitVec.allOnes _ ∨ s.reg (W w32) rm = BitVec.intMax _ := by
    by_cases h1 : s.reg (W w32) rm = BitVec.allOnes _
    · exact Or.inl h1
    · by_cases h2 : s.reg (W w32) rm = BitVec.intMax _
      · exact Or.inr h2
      · exact absurd (Or.inr ⟨h1, h2⟩) hbad
  have hne := flag_ne hw (s.reg (W w32) rn) _ hb2
  have hinj : ∀ p q : Bool, some (BitVec.ofBool p) = some (BitVec.ofBool q) → p = q := by decide
  have hflc := r.fl .c _ rfl
  have hflv := r.fl .v _ rfl
  have gflc := r2.fl .c _ rfl
  have gflv := r2.fl .v _ rfl
  rw [e2] at hflc hflv
  have hC := hinj _ _ (hflc.symm.trans gflc)
  have hV := hinj _ _ (hflv.symm.trans gflv)
  rw [if_neg hb1] at hC hV
  cases sub
  · have : c = true := by revert hb1; cases c <;> simp
    subst this
    simp only [Bool.false_eq_true, if_false] at hC hV
    exact hne.1.elim (fun h => h hC) (fun h => h hV)
  · have : c = false := by revert hb1; cases c <;> simp
    subst this
    simp only [if_true] at hC hV
    exact hne.2.elim (fun h => h hC) (fun h => h hV)

/-- ADCS X7, X0, X2 with carry: 5 + 0xffff… + 1 has a carry that the lifted code does not report. -/
theorem C32_adcs_counterexample :
    ∃ s', step (.adc false false true (.x 7) (.x 0) (.x 2)) 4 s0 = some s' ∧
      ¬ Simulates {} 0 (.adc false false true (.x 7) (.x 0) (.x 2)) 4 s0 s' := by
  cases hs : step (.adc false false true (.x 7) (.x 0) (.x 2)) 4 s0 with
  | none => cases hs
  | some s' => exact ⟨s', rfl, C32_adcs_wrong false false _ _ _ true rfl (by simp only [CarryOk]; decide) hs⟩

example : specFl (.bin .add false true false .zr (.x 3) (.shifted (.x 1) .lsl 0)) s0 .v = some (some true) := by
  decide +kernel
example : specFl (.bin .sub true true false .zr (.x 0) (.imm 5)) s0 .z = some (some true) := by decide +kernel
example : specReg (.bin .sub false false false .sp .sp (.imm 16)) s0 .sp = some 0xff0 := by decide +kernel
example : specFl (.adc true false true (.x 7) (.x 0) (.x 1)) s0 .c = some (some true) ∧
    CarryOk true (s0.reg 64 (.x 1)) true := ⟨by decide +kernel, Or.inl rfl⟩
example : specReg (.bin .and false true false (.x 7) (.x 6) (.imm 0xff)) s0 (.x 7) = some 1 := by decide +kernel
example : RhsOk (W false) (.ext (.x 2) .sxtw 3) := by simp only [RhsOk]; decide

/-! ### C33: conditions -/

/-- `IsTrue`: in every representation of a state with known flags the condition has the architectural
value. -/
theorem C33_condition (c : Cond) (b : Bool) (hc : s.cond c = some b) (m : St) (hr : Rel slide m s) :
    isTrue m c = some (BitVec.ofBool b) := hr.isTrue hc

/-- Relation between the operands of CMP that a condition stands for. -/
def cmpHolds (c : Cond) {w : Nat} (x y : BitVec w) : Prop :=
  match c with
  | .eq => x = y
  | .ne => x ≠ y
  | .hs => y.toNat ≤ x.toNat
  | .lo => x.toNat < y.toNat
  | .hi => y.toNat < x.toNat
  | .ls => x.toNat ≤ y.toNat
  | .ge => y.toInt ≤ x.toInt
  | .lt => x.toInt < y.toInt
  | .gt => y.toInt < x.toInt
  | .le => x.toInt ≤ y.toInt
  | .mi => (x - y).toInt < 0
  | .pl => 0 ≤ (x - y).toInt
  | .vs => (x - y).toInt ≠ x.toInt - y.toInt
  | .vc => (x - y).toInt = x.toInt - y.toInt
  | .al => True
  | .nv => True

theorem nv_slt {w : Nat} (hw : 0 < w) (x y : BitVec w) :
    ((awcFlags x (~~~ y) true).n != (awcFlags x (~~~ y) true).v) = decide (x.toInt < y.toInt) := by
  rw [awc_v_sub hw]
  simp only [awcFlags, awc_sub]
  have h1 : (x - y).slt 0#w = (x - y).msb := by
    rw [BitVec.slt, BitVec.msb_eq_toInt]; simp
  rw [h1, show decide (x.toInt < y.toInt) = x.slt y from rfl]
  cases (x - y).msb <;> cases x.slt y <;> rfl

/-- After CMP every condition is the relation between the operands. -/
theorem C33_cmp_condition (c : Cond) (w32 : Bool) (rn : Reg) (rhs : Rhs) (y : BitVec (W w32))
    (hy : s.rhs (W w32) rhs = some y)
    (hs : step (.bin .sub w32 true false .zr rn rhs) len s = some s') :
    ∃ t, s'.cond c = some t ∧ (t = true ↔ cmpHolds c (s.reg (W w32) rn) y) := by
  have hw := W_pos w32
  have he : s' = { s.setNzcv (awcFlags (s.reg (W w32) rn) (~~~ y) true) with
      pc := s.pc + BitVec.ofNat 64 len } := by
    have : (some { s.setNzcv (awcFlags (s.reg (W w32) rn) (~~~ y) true) with
        pc := s.pc + BitVec.ofNat 64 len } : Option S) = some s' := by
      rw [← hs]; simp only [step, S.plain, S.binop, hy]; rfl
    exact (Option.some.inj this).symm
  subst he
  generalize s.reg (W w32) rn = x
  generalize W w32 = w at *
  have hC := awc_c_sub x y
  have hL := nv_slt hw x y
  have hZ : (awcFlags x (~~~ y) true).z = decide (x = y) := by
    simp only [awcFlags, awc_sub]
    rw [← sub_zero_iff x y]
    by_cases h : x = y <;> simp [h]
  have hN : (awcFlags x (~~~ y) true).n = decide ((x - y).toInt < 0) := by
    simp only [awcFlags, awc_sub, BitVec.msb_eq_toInt]
  have hV : (awcFlags x (~~~ y) true).v = decide ((x - y).toInt ≠ x.toInt - y.toInt) := by
    simp only [awcFlags, awc_sub, Bool.toNat_true, toInt_not' hw]
    rw [decide_eq_decide]
    constructor <;> intro h e <;> apply h <;> omega
  have hne : x ≠ y ↔ x.toNat ≠ y.toNat := by
    constructor
    · intro h e; exact h (BitVec.eq_of_toNat_eq e)
    · intro h e; exact h (e ▸ rfl)
  have hnei : x ≠ y ↔ x.toInt ≠ y.toInt := by
    constructor
    · intro h e; exact h (BitVec.eq_of_toInt_eq e)
    · intro h e; exact h (e ▸ rfl)
  have hC' : (awcFlags x (~~~ y) true).c = decide (y.toNat ≤ x.toNat) := hC
  generalize awcFlags x (~~~ y) true = f at *
  have hz : x = y → x.toNat = y.toNat ∧ x.toInt = y.toInt := fun e => by rw [e]; exact ⟨rfl, rfl⟩
  have hz1 : x.toNat = y.toNat → x = y := BitVec.eq_of_toNat_eq
  have hz2 : x.toInt = y.toInt → x = y := BitVec.eq_of_toInt_eq
  have hge : (f.n == f.v) = !(f.n != f.v) := by cases f.n <;> cases f.v <;> rfl
  clear hne hnei hC
  cases c <;> refine ⟨_, rfl, ?_⟩ <;> simp only [cmpHolds, hge, hL, hC', hZ] <;> try simp only [hN, hV]
  all_goals
    simp only [Bool.and_eq_true, Bool.or_eq_true, Bool.not_eq_true', decide_eq_true_eq,
      decide_eq_false_iff_not, Int.not_lt, Nat.not_le, ne_eq, Decidable.not_not]
  all_goals by_cases e : x = y
  all_goals first
    | (have h2 := hz e
       have e2 : (x = y) = True := eq_true e
       simp only [e2, not_true, true_or, or_true, and_false, or_false, false_and, false_iff, true_iff]
       try omega)
    | (have h2 : x.toNat ≠ y.toNat := fun h => e (hz1 h)
       have h3 : x.toInt ≠ y.toInt := fun h => e (hz2 h)
       have e2 : (x = y) = False := eq_false e
       try simp only [e2, not_false_iff, and_true, true_and, or_false, false_or, false_iff, true_iff]
       try omega)

/-- CMP followed by B.cond branches iff the relation between the operands holds. -/
theorem C33_cmp_bcond (c : Cond) (w32 : Bool) (rn : Reg) (rhs : Rhs) (y : BitVec (W w32))
    (hy : s.rhs (W w32) rhs = some y) (ok : RhsOk (W w32) rhs) (off : BitVec 64) (start : BitVec 64) (m : St)
    (hr : Rel slide m s) (hpc : s.pc = start + slide) [Decidable (cmpHolds c (s.reg (W w32) rn) y)] :
    ∃ m1 m2, lift cfg slide (.bin .sub w32 true false .zr rn rhs) start 4 m = some { st := m1 } ∧
      lift cfg slide (.bcond c off) (start + 4#64) 4 m1 = some { st := m2 } ∧
      m2.pc.val slide = some (s.pc + 4#64 + if cmpHolds c (s.reg (W w32) rn) y then off else 4#64) ∧
      ∀ r, m2.get 64 r = some (s.reg 64 r) := by
  have hs : step (.bin .sub w32 true false .zr rn rhs) 4 s =
      some { s.setNzcv (awcFlags (s.reg (W w32) rn) (~~~ y) true) with pc := s.pc + 4#64 } := by
    simp only [step, S.plain, S.binop, hy]; rfl
  obtain ⟨t, ht, hiff⟩ := C33_cmp_condition c w32 rn rhs y hy hs
  have h1 := C32_binop_partial (cfg := cfg) (slide := slide) .sub w32 true false .zr rn rhs ok hs
  have h2 := sim_bcond (cfg := cfg) (slide := slide) (len := 4) (c := c) (off := off)
    (s := { s.setNzcv (awcFlags (s.reg (W w32) rn) (~~~ y) true) with pc := s.pc + 4#64 })
    (s' := { s.setNzcv (awcFlags (s.reg (W w32) rn) (~~~ y) true) with
      pc := if t = true then s.pc + 4#64 + off else s.pc + 4#64 + 4#64 })
    (by simp only [step, S.plain, S.branch, ht]; rfl)
  obtain ⟨m1, m2, e1, e2, r1, r2⟩ := h1.seq h2 start (start + 4#64) m hr hpc
    (by show s.pc + 4#64 = _; rw [hpc, BitVec.add_assoc, BitVec.add_assoc, BitVec.add_comm 4#64])
  refine ⟨m1, m2, e1, e2, ?_, ?_⟩
  · rw [r2.pc]
    by_cases h : cmpHolds c (s.reg (W w32) rn) y
    · rw [if_pos h]; simp only [hiff.2 h, if_true]
    · rw [if_neg h]
      have : t ≠ true := fun e => h (hiff.1 e)
      simp only [if_neg this]
  · intro r
    rw [r2.get]
    cases r <;> rfl

/-- CCMP, CCMN: the comparison if the condition holds, the given flags otherwise. -/
theorem C33_ccmp (ccmn w32 : Bool) (rn : Reg) (rhs : CRhs) (c : Cond) (nzcv : BitVec 4)
    (hs : step (.ccmp ccmn w32 rn rhs c nzcv) len s = some s') :
    Simulates cfg slide (.ccmp ccmn w32 rn rhs c nzcv) len s s' := sim_ccmp hs

/-- CSEL, CSINC, CINC, CSET, CSINV, CINV, CSETM, CSNEG, CNEG. -/
theorem C33_csel (k : Sel) (w32 : Bool) (rd rn rm : Reg) (c : Cond)
    (hs : step (.csel k w32 rd rn rm c) len s = some s') :
    Simulates cfg slide (.csel k w32 rd rn rm c) len s s' := sim_csel hs

/-- Single and double precision compares, conditional compares and selects. -/
theorem C33_fcmp (sz : FSz) (rn : Fin 32) (rm : Option (Fin 32)) (hs : step (.fcmp sz rn rm) len s = some s') :
    Simulates cfg slide (.fcmp sz rn rm) len s s' := sim_fcmp hs

theorem C33_fccmp (sz : FSz) (rn rm : Fin 32) (c : Cond) (nzcv : BitVec 4)
    (hs : step (.fccmp sz rn rm c nzcv) len s = some s') :
    Simulates cfg slide (.fccmp sz rn rm c nzcv) len s s' := sim_fccmp hs

theorem C33_fcsel (sz : FSz) (rd rn rm : Fin 32) (c : Cond) (hs : step (.fcsel sz rd rn rm c) len s = some s') :
    Simulates cfg slide (.fcsel sz rd rn rm c) len s s' := sim_fcsel hs

example : specFl (.ccmp false false (.x 0) (.imm 5) .hs 0) s0 .z = some (some true) := by decide +kernel
example : specFl (.ccmp false false (.x 0) (.imm 5) .lo 0b1000) s0 .n = some (some true) := by decide +kernel
example : specReg (.csel .csneg false (.x 7) (.x 0) (.x 1) .lo) s0 (.x 7) = some (-3) := by decide +kernel
example : specFl (.fcmp .d 1 (some 2)) s0 .n = some (some true) := by decide +kernel
example : specFl (.fcmp .d 1 (some 3)) s0 .v = some (some true) := by decide +kernel

/-! ### C34: bit fields, shifts, extensions, moves -/

theorem C34_bitfield (k : Bf) (w32 : Bool) (rd rn : Reg) (lsb width : Nat)
    (hs : step (.bf k w32 rd rn lsb width) len s = some s') :
    Simulates cfg slide (.bf k w32 rd rn lsb width) len s s' := sim_bf hs

theorem C34_bfc (w32 : Bool) (rd : Reg) (lsb width : Nat) (hs : step (.bfc w32 rd lsb width) len s = some s') :
    Simulates cfg slide (.bfc w32 rd lsb width) len s s' := sim_bfc hs

theorem C34_extr (w32 : Bool) (rd rn rm : Reg) (lsb : Nat) (hs : step (.extr w32 rd rn rm lsb) len s = some s') :
    Simulates cfg slide (.extr w32 rd rn rm lsb) len s s' := sim_extr hs

/-- SXTB, SXTH, SXTW, UXTB, UXTH. -/
theorem C34_extend (w32 : Bool) (rd rn : Reg) (e : Ext) (hs : step (.extend w32 rd rn e) len s = some s') :
    Simulates cfg slide (.extend w32 rd rn e) len s s' := sim_extend hs

/-- LSL, LSR, ASR, ROR by an immediate or by a register (modulo the width). -/
theorem C34_shift (sh : Sh) (w32 : Bool) (rd rn : Reg) (a : Nat)
    (hs : step (.shiftImm sh w32 rd rn a) len s = some s') :
    Simulates cfg slide (.shiftImm sh w32 rd rn a) len s s' := sim_shiftImm hs

theorem C34_shift_reg (sh : Sh) (w32 : Bool) (rd rn rm : Reg)
    (hs : step (.shiftReg sh w32 rd rn rm) len s = some s') :
    Simulates cfg slide (.shiftReg sh w32 rd rn rm) len s s' := sim_shiftReg hs

/-- ADR, ADRP, MOVK, MOV of immediates (also MOVN, MOVZ, bit masks) and registers. -/
theorem C47_move {i : Instr} (hi : match i with
      | .adr _ _ | .adrp _ _ | .movk _ _ _ _ | .movImm _ _ _ | .movReg _ _ _ => True
      | _ => False)
    (hs : step i len s = some s') : Simulates cfg slide i len s s' := by
  cases i <;> simp only at hi
  · exact sim_adr hs
  · exact sim_adrp hs
  · exact sim_movk hs
  · exact sim_movImm hs
  · exact sim_movReg hs

/-- NOP and other hints, MSR and MRS of TPIDR_EL0 and NZCV, MRS of DCZID_EL0, CFINV, DC ZVA. -/
theorem C47_system {i : Instr} (hi : match i with
      | .hint | .msr _ _ | .mrs _ _ | .cfinv | .dczva _ => True
      | _ => False)
    (hs : step i len s = some s') : Simulates cfg slide i len s s' := by
  cases i <;> simp only at hi
  · exact sim_hint hs
  · exact sim_msr hs
  · exact sim_mrs hs
  · exact sim_cfinv hs
  · exact sim_dczva hs

/-- Barriers, if the type of accesses is not 0 (which is reserved but executes as a full barrier). -/
theorem C47_barrier_partial (crm : Nat) (h : crm % 4 ≠ 0) (hs : step (.dmb crm) len s = some s') :
    Simulates cfg slide (.dmb crm) len s s' := sim_dmb (by simpa [dmbOk] using h) hs

/-- DMB #0 fails an assertion in the lifter. -/
theorem C47_dmb_counterexample :
    ∃ s', step (.dmb 0) 4 s0 = some s' ∧ ¬ Simulates {} 0 (.dmb 0) 4 s0 s' := refuted_ub (by decide +kernel)

example : specReg (.bf .sbfx false (.x 7) (.x 6) 28 8) s0 (.x 7) = some (-8) := by decide +kernel
example : specReg (.bf .sbfiz false (.x 7) (.x 0) 8 3) s0 (.x 7) = some (0xfffffffffffffd00) := by decide +kernel
example : specReg (.bf .bfi false (.x 2) (.x 0) 60 4) s0 (.x 2) = some 0x5fffffffffffffff := by decide +kernel
example : specReg (.bf .ubfx true (.x 7) (.x 6) 31 1) s0 (.x 7) = some 1 := by decide +kernel
example : specReg (.extr false (.x 7) (.x 0) (.x 6) 32) s0 (.x 7) = some 0x5ffffffff := by decide +kernel
example : specReg (.shiftReg .ror true (.x 7) (.x 0) (.x 2)) s0 (.x 7) = some 10 := by decide +kernel
example : specReg (.mrs .nzcv (.x 7)) s0 (.x 7) = some 0x20000000 := by decide +kernel
example : specReg (.adrp (.x 7) 0x1000) s0 (.x 7) = some 0x401000 := by decide +kernel

/-! ### C35: loads and stores -/

/-- LDR and its sign- and zero-extending forms, LDAR, LDXR in every addressing mode. -/
theorem C35_load (w32 : Bool) (e : Ext) (mode : AM) (mo : Bool) (rt rn : Reg)
    (hs : step (.ldr w32 e mode mo rt rn) len s = some s') :
    Simulates cfg slide (.ldr w32 e mode mo rt rn) len s s' := sim_ldr hs

theorem C35_load_pair (w32 : Bool) (e : Ext) (mode : AM) (mo : Bool) (rt rt2 rn : Reg)
    (hs : step (.ldp w32 e mode mo rt rt2 rn) len s = some s') :
    Simulates cfg slide (.ldp w32 e mode mo rt rt2 rn) len s s' := sim_ldp hs

/-- STR, STLR, and STXR if it succeeds. -/
theorem C35_store (w32 : Bool) (e : Ext) (mode : AM) (mo : Bool) (excl : Option Reg) (rt rn : Reg)
    (hs : step (.str w32 e mode mo excl rt rn) len s = some s') :
    Simulates cfg slide (.str w32 e mode mo excl rt rn) len s s' := sim_str hs

theorem C35_store_pair (w32 : Bool) (e : Ext) (mode : AM) (mo : Bool) (excl : Option Reg) (rt rt2 rn : Reg)
    (hs : step (.stp w32 e mode mo excl rt rt2 rn) len s = some s') :
    Simulates cfg slide (.stp w32 e mode mo excl rt rt2 rn) len s s' := sim_stp hs

/-- Loads and stores of SIMD&FP registers of all sizes. -/
theorem C35_fp {i : Instr} (hi : match i with
      | .ldrFp _ _ _ _ | .ldpFp _ _ _ _ _ | .strFp _ _ _ _ | .stpFp _ _ _ _ _ => True
      | _ => False)
    (hs : step i len s = some s') : Simulates cfg slide i len s s' := by
  cases i <;> simp only at hi
  · exact sim_ldrFp hs
  · exact sim_ldpFp hs
  · exact sim_strFp hs
  · exact sim_stpFp hs

/-- PRFM changes nothing; the prefetch types 0 to 2. -/
theorem C35_prefetch_partial (prfop : Nat) (mode : AM) (rn : Reg) (h : prfop / 8 % 4 ≠ 3)
    (hs : step (.prfm prfop mode rn) len s = some s') :
    Simulates cfg slide (.prfm prfop mode rn) len s s' := sim_prfm h hs

/-- Prefetch type 3 (unallocated, a NOP) fails an assertion. -/
theorem C35_prefetch_counterexample :
    ∃ s', step (.prfm 24 .simple (.x 0)) 4 s0 = some s' ∧ ¬ Simulates {} 0 (.prfm 24 .simple (.x 0)) 4 s0 s' :=
  refuted_ub (by decide +kernel)

/-- What STR stores, LDR from the same address loads: the whole register, for every addressing mode
without write-back and every register, also if the loaded register is part of the address. -/
theorem C35_store_load (w32 : Bool) (mode : AM) (rt rt2 rn : Reg) (hw : ∀ o, mode ≠ .pre o ∧ mode ≠ .post o)
    (hlit : ∀ o, mode ≠ .literal o) (hz : rt2 ≠ .zr) (hz2 : rn ≠ .zr)
    (hl : ∀ rm l, mode = .offReg rm l → lslOk (W w32 / 8) l = true)
    (hl2 : ∀ rm sg l, mode = .offExt rm sg l → lslOk (W w32 / 8) l = true)
    (start : BitVec 64) (m : St) (hr : Rel slide m s) (hpc : s.pc = start + slide) :
    ∃ m1 m2, lift cfg slide (.str w32 (if w32 then .uxtw else .uxtx) mode false none rt rn) start 4 m = some { st := m1 } ∧
      lift cfg slide (.ldr w32 (if w32 then .uxtw else .uxtx) mode false rt2 rn) (start + 4#64) 4 m1 = some { st := m2 } ∧
      m2.get (W w32) rt2 = some (s.reg (W w32) rt) := by
  have hb : 8 * (if w32 then Ext.uxtw else Ext.uxtx).bytes = W w32 := by cases w32 <;> rfl
  have hb2 : (if w32 then Ext.uxtw else Ext.uxtx).bytes = W w32 / 8 := by cases w32 <;> rfl
  have hsg : (if w32 then Ext.uxtw else Ext.uxtx).signed = false := by cases w32 <;> rfl
  generalize he : (if w32 then Ext.uxtw else Ext.uxtx) = e at *
  obtain ⟨a, ha⟩ : ∃ a, s.addr e.bytes rn mode = some (a, none) := by
    cases mode with
    | simple => exact ⟨s.reg 64 rn, by simp only [S.addr, if_neg hz2]⟩
    | offImm o => exact ⟨s.reg 64 rn + o, by simp only [S.addr, if_neg hz2]⟩
    | offReg rm l => exact ⟨_, by simp only [S.addr, if_neg hz2, hb2, hl rm l rfl, if_true]; rfl⟩
    | offExt rm sg l => exact ⟨_, by simp only [S.addr, if_neg hz2, hb2, hl2 rm sg l rfl, if_true]; rfl⟩
    | pre o => exact absurd rfl (hw o).1
    | post o => exact absurd rfl (hw o).2
    | literal o => exact absurd rfl (hlit o)
  let v : BitVec (8 * e.bytes) := (s.reg (W w32) rt).extractLsb' 0 (8 * e.bytes)
  let s1 : S := { s with mem := s.mem.write a e.bytes v, pc := s.pc + 4#64 }
  have hs1 : step (.str w32 e mode false none rt rn) 4 s = some s1 := by
    have : s.plain (.str w32 e mode false none rt rn) =
        some { s with mem := s.mem.write a e.bytes v } := by
      simp only [S.plain, S.str, ha, bind, Option.bind_some]
      rw [if_pos ⟨by omega, by rfl, by rfl, by rfl⟩]
      rfl
    simp only [step, this]; rfl
  have ha1 : s1.addr e.bytes rn mode = some (a, none) := by
    rw [← ha]
    have hreg : ∀ w r, s1.reg w r = s.reg w r := by intro w r; cases r <;> rfl
    cases mode <;> simp only [S.addr, hreg]
    rename_i o
    exact absurd rfl (hlit o)
  let s2 : S := { s1.setReg rt2 (loadVal (W w32) e (s1.mem.read a e.bytes)) with pc := s1.pc + 4#64 }
  have hs2 : step (.ldr w32 e mode false rt2 rn) 4 s1 = some s2 := by
    have : s1.plain (.ldr w32 e mode false rt2 rn) =
        some (s1.setReg rt2 (loadVal (W w32) e (s1.mem.read a e.bytes))) := by
      simp only [S.plain, S.ldr, ha1, bind, Option.bind_some]
      rw [if_pos ⟨by omega, by rfl, by rfl⟩]
      rfl
    simp only [step, this]; rfl
  obtain ⟨m1, m2, e1, e2, r1, r2⟩ := (C35_store (cfg := cfg) (slide := slide) w32 e mode false none rt rn hs1).seq
    (C35_load w32 e mode false rt2 rn hs2) start (start + 4#64) m hr hpc
    (by show s.pc + 4#64 = _; rw [hpc, BitVec.add_assoc, BitVec.add_assoc, BitVec.add_comm 4#64])
  refine ⟨m1, m2, e1, e2, ?_⟩
  rw [r2.get]
  have hrd : s1.mem.read a e.bytes = v := Mem.read_write _ _ _ _ (by cases e <;> decide)
  have hv : loadVal (W w32) e v = s.reg (W w32) rt := by
    have hv' : loadVal (W w32) e v = v.setWidth (W w32) := by
      simp only [loadVal, val, hsg, Bool.false_eq_true, if_false, Bv.setWidth_eq_ofInt]
    rw [hv']
    apply BitVec.eq_of_getLsbD_eq
    intro i hi
    simp only [v, BitVec.getLsbD_setWidth, BitVec.getLsbD_extractLsb', hi, show i < 8 * e.bytes by omega,
      decide_true, Bool.true_and, Nat.zero_add]
  show some (s2.reg (W w32) rt2) = _
  have : s2.reg (W w32) rt2 = (s1.setReg rt2 (s.reg (W w32) rt)).reg (W w32) rt2 := by
    simp only [s2, hrd, hv]
    cases rt2 <;> rfl
  rw [this]
  congr 1
  have hself : ∀ (v : BitVec (W w32)), (BitVec.ofNat 64 v.toNat).extractLsb' 0 (W w32) = v := by
    intro v
    have hw64 := W_le64 w32
    have hlt := v.isLt
    apply BitVec.eq_of_toNat_eq
    have : 2 ^ W w32 ≤ 2 ^ 64 := Nat.pow_le_pow_right (by decide) hw64
    rw [BitVec.extractLsb'_toNat, BitVec.toNat_ofNat, Nat.shiftRight_zero,
      Nat.mod_eq_of_lt (a := v.toNat) (by omega), Nat.mod_eq_of_lt hlt]
  cases rt2 with
  | x r => simp only [S.setReg, S.reg, if_true]; exact hself _
  | sp => simp only [S.setReg, S.reg]; exact hself _
  | zr => exact absurd rfl hz

example : (step (.stp false .uxtx (.pre (-16)) false none (.x 0) (.x 30) .sp) 4 s0).map
    (fun s => (s.sp, s.mem.read 0xff0 8, s.mem.read 0xff8 8)) = some (0xff0, 5, 0x1234) := by decide +kernel
example : specReg (.ldr false .sxtb (.offExt (.x 1) false 0) false (.x 7) (.x 5)) s0 (.x 7) =
    some (BitVec.ofInt 64 (-93)) := by decide +kernel
example : specReg (.ldr true .uxtw (.literal 0x10) false (.x 7) .zr) s0 (.x 7) = some 0x71706f6e := by
  decide +kernel
example : (step (.ldp false .uxtx (.post 16) false (.x 7) (.x 8) .sp) 4 s0).map (·.sp) = some 0x1010 := by
  decide +kernel
example : (step (.str false .uxtx .simple true (some (.x 9)) (.x 0) (.x 5)) 4 s0).isSome = true := by decide +kernel
example : (step (.ldrFp .q (.offImm 16) 4 (.x 5)) 4 s0).isSome = true := by decide +kernel

/-! ### C42: division, multiplication, bit operations -/

/-- UDIV, SDIV: total, also by zero and for the most negative number divided by -1; the emitted division
is never undefined. -/
theorem C42_div (signed w32 : Bool) (rd rn rm : Reg) :
    Simulates cfg slide (.div signed w32 rd rn rm) len s
      { s.setReg rd (divVal signed (s.reg (W w32) rn) (s.reg (W w32) rm)) with
        pc := s.pc + BitVec.ofNat 64 len } := sim_div rfl

theorem C42_mul (w32 : Bool) (rd rn rm : Reg) (hs : step (.mul w32 rd rn rm) len s = some s') :
    Simulates cfg slide (.mul w32 rd rn rm) len s s' := sim_mul hs
/-- MADD, MSUB. -/
theorem C42_madd (sub w32 : Bool) (rd rn rm ra : Reg) (hs : step (.madd sub w32 rd rn rm ra) len s = some s') :
    Simulates cfg slide (.madd sub w32 rd rn rm ra) len s s' := sim_madd hs
/-- SMADDL, UMADDL, SMSUBL, UMSUBL. -/
theorem C42_maddl (sub signed : Bool) (rd rn rm ra : Reg)
    (hs : step (.maddl sub signed rd rn rm ra) len s = some s') :
    Simulates cfg slide (.maddl sub signed rd rn rm ra) len s s' := sim_maddl hs
/-- SMULH, UMULH. -/
theorem C42_mulh (signed : Bool) (rd rn rm : Reg) (hs : step (.mulh signed rd rn rm) len s = some s') :
    Simulates cfg slide (.mulh signed rd rn rm) len s s' := sim_mulh hs
/-- RBIT, REV16, REV, REV32, CLZ, CLS. -/
theorem C42_bits (k : Unary) (w32 : Bool) (rd rn : Reg) (hs : step (.unary k w32 rd rn) len s = some s') :
    Simulates cfg slide (.unary k w32 rd rn) len s s' := sim_unary hs

example : specReg (.div true false (.x 7) (.x 4) (.x 2)) s0 (.x 7) = some (BitVec.intMin 64) := by decide +kernel
example : specReg (.div true false (.x 7) (.x 0) .zr) s0 (.x 7) = some 0 := by decide +kernel
example : specReg (.mulh true (.x 7) (.x 2) (.x 0)) s0 (.x 7) = some (-1) := by decide +kernel
example : specReg (.maddl true true (.x 7) (.x 6) (.x 1) (.x 0)) s0 (.x 7) = some 6442450946 := by decide +kernel
example : specReg (.unary .cls true (.x 7) (.x 0)) s0 (.x 7) = some 28 := by decide +kernel
example : specReg (.unary .rev16 false (.x 7) (.x 6)) s0 (.x 7) = some 0xffffffff00800100 := by decide +kernel

/-! ### Scalar floating-point moves -/

/-- FMOV between registers, FABS, FNEG, and from and to general-purpose registers. -/
theorem C46_fmov_partial {i : Instr} (hi : match i with
      | .fmovToGp _ _ _ _ | .fmovTopToGp _ _ _ | .fmovGpToTop _ _ | .fmovReg _ _ _ | .fabs _ _ _
      | .fneg _ _ _ => True
      | .fmovFromGp _ sz _ _ => sz ≠ .h
      | _ => False)
    (hs : step i len s = some s') : Simulates cfg slide i len s s' := by
  cases i <;> simp only at hi
  · exact sim_fmovToGp hs
  · exact sim_fmovFromGp hi hs
  · exact sim_fmovTopToGp hs
  · exact sim_fmovGpToTop hs
  · exact sim_fmovReg hs
  · exact sim_fabs hs
  · exact sim_fneg hs

/-- FMOV H4, W6 writes 32 bits instead of 16. -/
theorem C46_fmov_h_counterexample :
    ∃ s', step (.fmovFromGp true .h 4 (.x 6)) 4 s0 = some s' ∧
      ¬ Simulates {} 0 (.fmovFromGp true .h 4 (.x 6)) 4 s0 s' :=
  refuted (fun s => (s.vec 4).extractLsb' 0 64) (fun m => trunc 64 (m.vec 4)) id
    (fun _ _ hr => by rw [hr.vec, Verif.X86.trunc_some, ← Verif.X86.extract0]; rfl) (by decide +kernel)

example : specReg (.fmovToGp false .d (.x 7) 0) s0 (.x 7) = some 0xfedcba9876543210 := by decide +kernel
example : specReg (.fmovTopToGp false (.x 7) 0) s0 (.x 7) = some 0x0123456789abcdef := by decide +kernel

/-! ### All instructions -/

/-- Conditions under which the lifted code is right. -/
def Supported (cfg : Cfg) (s : S) : Instr → Prop
  | .bin _ w32 _ _ _ _ rhs => RhsOk (W w32) rhs
  | .adc sub w32 sf _ _ rm => sf = true → ∀ c, s.fl .c = some c → CarryOk sub (s.reg (W w32) rm) c
  | .dmb crm => crm % 4 ≠ 0
  | .prfm prfop _ _ => prfop / 8 % 4 ≠ 3
  | .blr rn => rn ≠ .x 30 ∧ cfg.callFunction = none
  | .bl _ => cfg.callFunction = none
  | .ret _ => cfg.callFunction = none
  | .fmovFromGp _ sz _ _ => sz ≠ .h
  | .simd i => SimdOk s i
  | .fpu i => Fpu.fine s i = true
  | _ => True

/-- Calls and returns may leave the flags unspecified. -/
def after (cfg : Cfg) (s' : S) : Instr → S
  | .bl _ | .blr _ | .ret _ => callFl cfg s'
  | _ => s'

/-- Every specified instruction, with the exceptions collected in `Supported`. -/
theorem A64_instruction_partial (i : Instr) (hsup : Supported cfg s i) (hs : step i len s = some s') :
    Simulates cfg slide i len s (after cfg s' i) := by
  cases i with
  | adr => exact sim_adr hs
  | adrp => exact sim_adrp hs
  | bin => exact sim_bin hsup hs
  | movk => exact sim_movk hs
  | movImm => exact sim_movImm hs
  | movReg => exact sim_movReg hs
  | shiftImm => exact sim_shiftImm hs
  | bf => exact sim_bf hs
  | bfc => exact sim_bfc hs
  | extend => exact sim_extend hs
  | extr => exact sim_extr hs
  | bcond => exact sim_bcond hs
  | svc => cases hs
  | hint => exact sim_hint hs
  | dmb => exact C47_barrier_partial _ hsup hs
  | msr => exact sim_msr hs
  | mrs => exact sim_mrs hs
  | cfinv => exact sim_cfinv hs
  | dczva => exact sim_dczva hs
  | b => exact sim_b hs
  | br => exact sim_br hs
  | bl => exact sim_bl hsup hs
  | blr => exact sim_blr hsup.1 hsup.2 hs
  | ret =>
    intro start m hr hpc
    obtain ⟨m', e, r⟩ := sim_ret (cfg := cfg) hs start m hr hpc
    have hn : cfg.callFunction = none := hsup
    rw [hn] at e
    exact ⟨m', e, r⟩
  | cbz => exact sim_cbz hs
  | tbz => exact sim_tbz hs
  | div => exact sim_div hs
  | shiftReg => exact sim_shiftReg hs
  | unary => exact sim_unary hs
  | adc => exact sim_adc hsup hs
  | ccmp => exact sim_ccmp hs
  | csel => exact sim_csel hs
  | mul => exact sim_mul hs
  | madd => exact sim_madd hs
  | maddl => exact sim_maddl hs
  | mulh => exact sim_mulh hs
  | ldr => exact sim_ldr hs
  | ldp => exact sim_ldp hs
  | str => exact sim_str hs
  | stp => exact sim_stp hs
  | prfm => exact sim_prfm hsup hs
  | ldrFp => exact sim_ldrFp hs
  | ldpFp => exact sim_ldpFp hs
  | strFp => exact sim_strFp hs
  | stpFp => exact sim_stpFp hs
  | fcmp => exact sim_fcmp hs
  | fccmp => exact sim_fccmp hs
  | fcsel => exact sim_fcsel hs
  | fmovToGp => exact sim_fmovToGp hs
  | fmovFromGp => exact sim_fmovFromGp hsup hs
  | fmovTopToGp => exact sim_fmovTopToGp hs
  | fmovGpToTop => exact sim_fmovGpToTop hs
  | fmovReg => exact sim_fmovReg hs
  | fabs => exact sim_fabs hs
  | fneg => exact sim_fneg hs
  | simd => exact sim_simdInstr hsup hs
  | fpu => exact sim_fpuInstr hsup hs
  | unknown => cases hs

/-! ### C36: instructions that use the link-time address -/

/-- SVC and instructions without an implementation leave the link-time program counter, not the run-time
one, when the code was loaded elsewhere. -/
theorem C36_a64_svc (cfg : Cfg) (hf : cfg.syscall = none) (start : BitVec 64) (m : St) :
    ∃ m', lift cfg slide .svc start len m = some { st := m' } ∧
      m'.pc.val slide = some (start + BitVec.ofNat 64 len) := by
  refine ⟨{ m with pc := .value (some (start + BitVec.ofNat 64 len)) }, ?_, Pc.val_value _ _⟩
  simp only [lift, hf]

theorem C36_a64_unhandled (cfg : Cfg) (start : BitVec 64) (m : St) :
    ∃ m', lift cfg slide .unknown start len m = some { st := m', lifted := false } ∧
      m'.pc.val slide = some start :=
  ⟨{ m with pc := .value (some start) }, rfl, Pc.val_value _ _⟩

end Verif.A64.Spec
