import Verif.A64.Lemmas
import Verif.IR.BvLemmas

/-! Simulation of the AArch64 integer instructions. -/

set_option linter.unusedSimpArgs false
set_option linter.constructorNameAsVariable false

namespace Verif.A64.Spec

open Verif.IR
open Verif.X86 (trunc_some zext_some sext_some add_some sub_some mul_some and_some or_some xor_some
  not_some neg_some icmp_some extract0 pc_get msb_slt of_add of_add' of_sub cf_add)

variable {cfg : Cfg} {slide : BitVec 64} {s s' : S} {len : Nat}

/-- Result in a register: the case of most instructions. -/
theorem set_sim {i : Instr} {rd : Reg} {w : Nat} {v : BitVec w} (hs : step i len s = some s')
    (hp : s.plain i = some (s.setReg rd v)) (hb : s.branch len i = none)
    (f : St → Val w)
    (hl : ∀ start m, lift cfg slide i start len m =
      (some (({ m with pc := .const start } : St).set rd (f { m with pc := .const start }))).map fun m =>
        { st := { m with pc := .const (start + BitVec.ofNat 64 len) } })
    (hf : ∀ start m, Rel slide m s → m.pc = .const start → s.pc = start + slide → f m = some v) :
    Simulates cfg slide i len s s' := by
  obtain ⟨s1, hp1, rfl⟩ := step_plain hs hb
  rw [hp] at hp1
  cases hp1
  refine plain_sim (fun m => some (m.set rd (f m))) hl ?_
  intro start m hr hpc hst
  exact ⟨_, rfl, by rw [hf start m hr hpc hst]; exact hr.set rd v⟩

/-! ### PC-relative addresses and moves -/

theorem sim_adr {rd : Reg} {off : BitVec 64} (hs : step (.adr rd off) len s = some s') :
    Simulates cfg slide (.adr rd off) len s s' := by
  refine set_sim hs rfl rfl (fun m => m.pc.get slide off) (fun _ _ => rfl) ?_
  intro start m hr hpc hst
  exact pc_get _ _ _ _ hr.pc

theorem page_mask (x : BitVec 64) : x &&& ~~~ 4095#64 = BitVec.ofNat 64 (x.toNat / 4096 * 4096) := by
  apply BitVec.eq_of_toNat_eq
  have h : (~~~ 4095#64) = BitVec.allOnes 64 <<< 12 := by decide
  have h2 : x &&& ~~~ 4095#64 = (x >>> 12) <<< 12 := by
    rw [h]
    apply BitVec.eq_of_getLsbD_eq
    intro i hi
    simp only [BitVec.getLsbD_and, BitVec.getLsbD_shiftLeft, BitVec.getLsbD_allOnes, hi, decide_true,
      Bool.true_and, BitVec.getLsbD_ushiftRight]
    by_cases h : i < 12
    · simp [h]
    · simp [h, show 12 + (i - 12) = i by omega, show i - 12 < 64 by omega]
  rw [h2, BitVec.toNat_shiftLeft, BitVec.toNat_ushiftRight, Nat.shiftRight_eq_div_pow,
    Nat.shiftLeft_eq, BitVec.toNat_ofNat]

theorem sim_adrp {rd : Reg} {off : BitVec 64} (hs : step (.adrp rd off) len s = some s') :
    Simulates cfg slide (.adrp rd off) len s s' := by
  refine set_sim hs rfl rfl
    (fun m => IR.add (IR.and (m.pc.get slide 0) (some (~~~ 4095#64))) (some off)) (fun _ _ => rfl) ?_
  intro start m hr hpc hst
  rw [pc_get _ _ _ _ hr.pc, and_some, add_some, page_mask]
  simp

theorem sim_movImm {w32 : Bool} {rd : Reg} {imm : BitVec 64}
    (hs : step (.movImm w32 rd imm) len s = some s') :
    Simulates cfg slide (.movImm w32 rd imm) len s s' := by
  refine set_sim hs rfl rfl (fun _ => some (imm.setWidth (W w32))) (fun _ _ => rfl) ?_
  intro start m hr hpc hst
  rw [extract0]

theorem sim_movReg {w32 : Bool} {rd rm : Reg} (hs : step (.movReg w32 rd rm) len s = some s') :
    Simulates cfg slide (.movReg w32 rd rm) len s s' :=
  set_sim hs rfl rfl (fun m => m.get (W w32) rm) (fun _ _ => rfl) fun _ _ hr _ _ => hr.get _ _

theorem sim_movk {w32 : Bool} {rd : Reg} {imm : BitVec 16} {lsl : Nat}
    (hs : step (.movk w32 rd imm lsl) len s = some s') :
    Simulates cfg slide (.movk w32 rd imm lsl) len s s' := by
  have hv : lsl % 16 = 0 ∧ lsl < W w32 := by
    obtain ⟨s1, hp, _⟩ := step_plain hs rfl
    simp only [S.plain] at hp
    split at hp
    · assumption
    · cases hp
  refine set_sim hs (by simp only [S.plain]; rw [if_pos hv])
    rfl (fun m => IR.or (IR.and (m.get (W w32) rd) (some ((~~~ (0xffff#64 <<< lsl)).setWidth (W w32))))
      (some ((imm.setWidth 64 <<< lsl).setWidth (W w32)))) (fun _ _ => rfl) ?_
  intro start m hr hpc hst
  rw [hr.get, and_some, or_some]
  congr 1
  apply BitVec.eq_of_getLsbD_eq
  intro i hi
  have hmask : ∀ j, (0xffff#64).getLsbD j = decide (j < 16) := by
    intro j
    rw [show (0xffff#64) = (BitVec.allOnes 16).setWidth 64 by decide]
    simp only [BitVec.getLsbD_setWidth, BitVec.getLsbD_allOnes]
    by_cases h : j < 16
    · simp [h, show j < 64 by omega]
    · simp [h]
  have hi64 : i < 64 := Nat.lt_of_lt_of_le hi (W_le w32)
  rw [getLsbD_bits]
  simp only [BitVec.getLsbD_or, BitVec.getLsbD_and, BitVec.getLsbD_setWidth, hi, decide_true,
    Bool.true_and, BitVec.getLsbD_not, hi64, BitVec.getLsbD_shiftLeft, hmask]
  by_cases h1 : i < lsl
  · simp [h1, show ¬ (lsl ≤ i ∧ i < lsl + 16) by omega]
  · by_cases h2 : i < lsl + 16
    · simp [h1, show (lsl ≤ i ∧ i < lsl + 16) by omega, show i - lsl < 64 by omega,
        show i - lsl < 16 by omega]
    · have h3 : imm.getLsbD (i - lsl) = false := BitVec.getLsbD_of_ge _ _ (by omega)
      simp [h1, show ¬ (lsl ≤ i ∧ i < lsl + 16) by omega, show ¬ i - lsl < 16 by omega, h3]

/-! ### Two-operand instructions -/

/-- The second operands that the lifter handles: not an extension wider than the register. -/
def RhsOk (w : Nat) : Rhs → Prop
  | .ext _ e _ => 8 * e.bytes ≤ w
  | _ => True

theorem rhs_rel {m : St} (hr : Rel slide m s) {w : Nat} (hw : 4 < w) {rhs : Rhs} {y : BitVec w}
    (ok : RhsOk w rhs) (h : s.rhs w rhs = some y) : rhsVal m w rhs = some (some y) := by
  cases rhs with
  | imm v => simp only [S.rhs, Option.some.injEq] at h; subst h; rw [rhsVal, extract0]
  | shifted rm sh a =>
    simp only [S.rhs] at h
    split at h
    · cases h; rw [rhsVal, hr.get, shift_some _ _ _ (by assumption)]
    · cases h
  | ext rm e l =>
    simp only [S.rhs] at h
    split at h
    · cases h; rw [rhsVal, hr.get, extend_some _ _ _ ok (by omega)]
    · cases h

theorem eval_binVal {w : Nat} (op : BinOp) (x y : BitVec w) :
    op.eval (some x) (some y) = some (binVal op x y).1 := by
  cases op <;> simp only [BinOp.eval, binVal, add_some, sub_some, and_some, or_some, xor_some,
    awc_add, awc_sub]

theorem sim_bin {op : BinOp} {w32 sf inv : Bool} {rd rn : Reg} {rhs : Rhs} (ok : RhsOk (W w32) rhs)
    (hs : step (.bin op w32 sf inv rd rn rhs) len s = some s') :
    Simulates cfg slide (.bin op w32 sf inv rd rn rhs) len s s' := by
  obtain ⟨s1, hp, rfl⟩ := step_plain hs rfl
  refine plain_sim (fun m => liftBin cfg m op (W w32) sf inv rd rn rhs) (fun _ _ => rfl) ?_
  intro start m hr hpc hst
  simp only [S.plain, S.binop, bind, Option.bind_eq_some_iff] at hp
  obtain ⟨y, hy, hp⟩ := hp
  have hw : 4 < W w32 := by cases w32 <;> simp [W]
  simp only [liftBin, rhs_rel hr hw ok hy, Option.bind_some, hr.get]
  have hinv : (if inv = true then IR.not (some y) else some y) = some (if inv then ~~~ y else y) := by
    cases inv <;> rfl
  rw [hinv, eval_binVal]
  generalize (if inv = true then ~~~ y else y) = y' at *
  cases sf
  · simp only [Bool.false_eq_true, if_false, pure, Option.some.injEq] at hp ⊢
    subst hp
    exact ⟨_, rfl, hr.set _ _⟩
  · simp only [if_true, Option.bind_eq_some_iff, pure, Option.some.injEq] at hp ⊢
    obtain ⟨f, hf, rfl⟩ := hp
    cases op
    · simp only [binVal, Option.some.injEq] at hf ⊢; subst hf
      exact ⟨_, rfl, (hr.set _ _).flagLogic _⟩
    · simp only [binVal, reduceCtorEq] at hf
    · simp only [binVal, reduceCtorEq] at hf
    · simp only [binVal, Option.some.injEq, awc_add] at hf ⊢; subst hf
      exact ⟨_, rfl, (hr.set _ _).flagAdd cfg (W_pos w32) _ _⟩
    · simp only [binVal, Option.some.injEq, awc_sub] at hf ⊢; subst hf
      exact ⟨_, rfl, (hr.set _ _).flagSub (W_pos w32) _ _⟩

/-! ### Add and subtract with carry -/

/-- Where the lifter's flags of ADCS and SBCS are right: the addition of the carry (or borrow) to the
second operand does not wrap, neither unsigned nor signed. -/
def CarryOk {w : Nat} (sub : Bool) (y : BitVec w) (c : Bool) : Prop :=
  c = sub ∨ (y ≠ BitVec.allOnes w ∧ y ≠ BitVec.intMax w)

theorem add_one_toNat {w : Nat} {y : BitVec w} (h : y ≠ BitVec.allOnes w) :
    (y + 1#w).toNat = y.toNat + 1 := by
  rcases Nat.eq_zero_or_pos w with hw | hw
  · subst hw; exact absurd (Subsingleton.elim _ _) h
  have h1 : y.toNat ≠ 2 ^ w - 1 := by
    intro e; apply h; apply BitVec.eq_of_toNat_eq; rw [BitVec.toNat_allOnes, e]
  have := y.isLt
  have h2 : 1 < 2 ^ w := Nat.one_lt_two_pow (by omega)
  rw [BitVec.toNat_add, BitVec.toNat_ofNat, Nat.mod_eq_of_lt h2, Nat.mod_eq_of_lt (by omega)]

theorem add_one_toInt {w : Nat} {y : BitVec w} (hw : 1 < w) (h : y ≠ BitVec.intMax w) :
    (y + 1#w).toInt = y.toInt + 1 := by
  have e : 2 ^ w = 2 * 2 ^ (w - 1) := by rw [← Nat.pow_succ', Nat.succ_eq_add_one, Nat.sub_add_cancel (by omega)]
  have hp : (2 ^ (w - 1) : Nat) > 1 := Nat.one_lt_two_pow (by omega)
  have h1 : y.toNat ≠ 2 ^ (w - 1) - 1 := by
    intro e; apply h; apply BitVec.eq_of_toNat_eq; rw [BitVec.toNat_intMax, e]
  have hy := y.isLt
  simp only [BitVec.toInt_eq_toNat_cond, BitVec.toNat_add, BitVec.toNat_ofNat]
  rw [e] at hy ⊢
  generalize 2 ^ (w - 1) = N at *
  generalize y.toNat = x at *
  rw [Nat.mod_eq_of_lt (show 1 < 2 * N by omega)]
  by_cases hx : x + 1 < 2 * N
  · rw [Nat.mod_eq_of_lt hx]
    split <;> split <;> omega
  · have : x + 1 = 2 * N := by omega
    rw [this, Nat.mod_self]
    split <;> split <;> omega

theorem awc_carry {w : Nat} (x y : BitVec w) : awc x y true = awc x (y + 1#w) false := by
  rw [awc_add]
  apply BitVec.eq_of_toNat_eq
  simp only [awc, BitVec.toNat_ofNat, BitVec.toNat_add, Bool.toNat_true]
  rcases Nat.eq_zero_or_pos w with hw | hw
  · subst hw; simp [Nat.mod_one]
  simp [Nat.add_assoc]

theorem awcFlags_carry {w : Nat} (hw : 1 < w) (x y : BitVec w) (h1 : y ≠ BitVec.allOnes w)
    (h2 : y ≠ BitVec.intMax w) : awcFlags x y true = awcFlags x (y + 1#w) false := by
  simp only [awcFlags, awc_carry, add_one_toNat h1, add_one_toInt hw h2, Bool.toNat_true,
    Bool.toNat_false, Nzcv.mk.injEq, true_and]
  constructor <;> rw [decide_eq_decide] <;> omega

theorem awc_borrow {w : Nat} (x y : BitVec w) : awc x (~~~ y) false = awc x (~~~ (y + 1#w)) true := by
  rw [awc_sub, awc_add]
  rw [BitVec.sub_eq_add_neg, BitVec.neg_add, BitVec.neg_eq_not_add, BitVec.add_sub_cancel]

theorem not_ne {w : Nat} {y z : BitVec w} (h : y ≠ z) : ~~~ y ≠ ~~~ z := by
  intro e; apply h
  have := congrArg (~~~ ·) e
  simpa using this

theorem awcFlags_borrow {w : Nat} (hw : 1 < w) (x y : BitVec w) (h1 : y ≠ BitVec.allOnes w)
    (h2 : y ≠ BitVec.intMax w) : awcFlags x (~~~ y) false = awcFlags x (~~~ (y + 1#w)) true := by
  have e1 : (~~~ y).toNat = (~~~ (y + 1#w)).toNat + 1 := by
    have := y.isLt; have := add_one_toNat h1; have := (y + 1#w).isLt
    rw [BitVec.toNat_not, BitVec.toNat_not]; omega
  have e2 : (~~~ y).toInt = (~~~ (y + 1#w)).toInt + 1 := by
    rw [toInt_not' (by omega), toInt_not' (by omega), add_one_toInt hw h2]; omega
  simp only [awcFlags, awc_borrow, e1, e2, Bool.toNat_true, Bool.toNat_false, Nzcv.mk.injEq, true_and]
  constructor <;> rw [decide_eq_decide] <;> omega

/-- State after ADC/SBC as the lifter computes it: flags of a plain addition or subtraction. -/
theorem adc_rel {m : St} (hr : Rel slide m s) (sub : Bool) {w : Nat} (hw : 0 < w) (sf : Bool)
    (rd rn rm : Reg) {c : Bool} (hc : s.fl .c = some c) :
    Rel slide (liftAdc cfg m sub w sf rd rn rm)
      (let x := s.reg w rn
       let y := if c = sub then s.reg w rm else s.reg w rm + 1#w
       let s1 := s.setReg rd (if sub then x - y else x + y)
       if sf then s1.setNzcv (if sub then awcFlags x (~~~ y) true else awcFlags x y false) else s1) := by
  have h1 : IR.add (some (s.reg w rm)) (zext w (if sub = true then IR.not (m.fl .c) else m.fl .c)) =
      some (if c = sub then s.reg w rm else s.reg w rm + 1#w) := by
    rw [hr.fl .c c hc]
    have h11 : BitVec.setWidth w 1#1 = 1#w := by
      apply BitVec.eq_of_toNat_eq; simp [BitVec.toNat_setWidth]
    cases sub <;> cases c <;> simp [not_some, zext_some, add_some, h11]
  simp only [liftAdc, hr.get, h1]
  generalize (if c = sub then s.reg w rm else s.reg w rm + 1#w) = y
  cases sub <;> cases sf <;>
    simp only [Bool.false_eq_true, if_false, if_true, add_some, sub_some]
  · exact hr.set _ _
  · exact (hr.set _ _).flagAdd cfg hw _ _
  · exact hr.set _ _
  · exact (hr.set _ _).flagSub hw _ _

theorem adc_val {w : Nat} (sub c : Bool) (x y : BitVec w) :
    (if sub = true then x - (if c = sub then y else y + 1#w) else x + (if c = sub then y else y + 1#w)) =
      awc x (if sub = true then ~~~ y else y) c := by
  cases sub <;> cases c <;> simp only [Bool.false_eq_true, if_false, if_true, reduceCtorEq]
  · exact (awc_add x y).symm
  · exact ((awc_carry x y).trans (awc_add _ _)).symm
  · exact ((awc_borrow x y).trans (awc_sub _ _)).symm
  · exact (awc_sub x y).symm

theorem awcFlags_n {w : Nat} (x y : BitVec w) (c : Bool) : (awcFlags x y c).n = (awc x y c).msb := rfl
theorem awcFlags_z {w : Nat} (x y : BitVec w) (c : Bool) :
    (awcFlags x y c).z = decide (awc x y c = 0#w) := rfl

/-- N and Z of the flags that the lifter computes are always right. -/
theorem adc_nz {w : Nat} (sub c : Bool) (x y : BitVec w) :
    let f := if sub = true then awcFlags x (~~~ (if c = sub then y else y + 1#w)) true
      else awcFlags x (if c = sub then y else y + 1#w) false
    f.n = (awcFlags x (if sub = true then ~~~ y else y) c).n ∧
    f.z = (awcFlags x (if sub = true then ~~~ y else y) c).z := by
  cases sub <;> cases c <;> simp only [Bool.false_eq_true, if_false, if_true, reduceCtorEq,
    awcFlags_n, awcFlags_z, awc_carry x y, awc_borrow x y, and_self]

/-- ADC, ADCS, SBC, SBCS without restriction as far as the result, N and Z are concerned. -/
theorem sim_adc_values {sub w32 sf : Bool} {rd rn rm : Reg}
    (hs : step (.adc sub w32 sf rd rn rm) len s = some s') :
    Simulates cfg slide (.adc sub w32 sf rd rn rm) len s
      (s'.forget fun f => sf && (f == .c || f == .v)) := by
  obtain ⟨s1, hp, rfl⟩ := step_plain hs rfl
  simp only [S.plain, bind, Option.bind_eq_some_iff, pure, Option.some.injEq] at hp
  obtain ⟨c, hc, rfl⟩ := hp
  have := plain_sim (s := s) (len := len) (cfg := cfg) (slide := slide) (i := .adc sub w32 sf rd rn rm)
    (fun m => some (liftAdc cfg m sub (W w32) sf rd rn rm)) (fun _ _ => rfl)
    (fun start m hr _ _ => ⟨_, rfl, adc_rel hr sub (W_pos w32) sf rd rn rm hc⟩)
  intro start m hr hpc
  obtain ⟨m', e, r⟩ := this start m hr hpc
  refine ⟨m', e, r.mono ?_ ?_ ?_ ?_ ?_ rfl ?_⟩
  any_goals (simp only [adc_val, S.forget]; cases sf <;> rfl)
  intro f b hb
  simp only [adc_val, S.forget] at hb ⊢
  cases sf
  · simpa using hb
  · cases f
    · exact (congrArg some (adc_nz sub c (s.reg (W w32) rn) (s.reg (W w32) rm)).1).trans hb
    · exact (congrArg some (adc_nz sub c (s.reg (W w32) rn) (s.reg (W w32) rm)).2).trans hb
    · simp at hb
    · simp at hb

theorem sim_adc {sub w32 sf : Bool} {rd rn rm : Reg}
    (ok : sf = true → ∀ c, s.fl .c = some c → CarryOk sub (s.reg (W w32) rm) c)
    (hs : step (.adc sub w32 sf rd rn rm) len s = some s') :
    Simulates cfg slide (.adc sub w32 sf rd rn rm) len s s' := by
  obtain ⟨s1, hp, rfl⟩ := step_plain hs rfl
  simp only [S.plain, bind, Option.bind_eq_some_iff, pure, Option.some.injEq] at hp
  obtain ⟨c, hc, rfl⟩ := hp
  refine plain_sim (s := s) (len := len) (cfg := cfg) (slide := slide) (i := .adc sub w32 sf rd rn rm)
    (fun m => some (liftAdc cfg m sub (W w32) sf rd rn rm)) (fun _ _ => rfl)
    (fun start m hr _ _ => ⟨_, rfl, ?_⟩)
  have := adc_rel (cfg := cfg) hr sub (W_pos w32) sf rd rn rm hc
  simp only [adc_val] at this
  cases sf
  · exact this
  · have hw : 1 < W w32 := by cases w32 <;> simp [W]
    have hfl : (if sub = true then awcFlags (s.reg (W w32) rn)
          (~~~ (if c = sub then s.reg (W w32) rm else s.reg (W w32) rm + 1#(W w32))) true
        else awcFlags (s.reg (W w32) rn)
          (if c = sub then s.reg (W w32) rm else s.reg (W w32) rm + 1#(W w32)) false) =
        awcFlags (s.reg (W w32) rn) (if sub = true then ~~~ s.reg (W w32) rm else s.reg (W w32) rm) c := by
      rcases ok rfl c hc with h | ⟨h1, h2⟩
      · subst h; cases c <;> simp
      · cases sub <;> cases c <;> simp only [Bool.false_eq_true, if_false, if_true, reduceCtorEq]
        · rw [awcFlags_carry hw _ _ h1 h2]
        · rw [awcFlags_borrow hw _ _ h1 h2]
    rw [hfl] at this
    exact this

/-! ### Conditional compares and selects -/

theorem ccmpSel_rel {m m2 : St} {c : Cond} {b : Bool} {fl : Nzcv} {nzcv : BitVec 4}
    (hr : Rel slide m s) (hc : s.cond c = some b) (hf : Rel slide m2 (s.setNzcv fl)) :
    Rel slide (ccmpSel m m2 c nzcv) (s.setNzcv (if b = true then fl else immFlags nzcv)) := by
  unfold ccmpSel
  simp only [hr.isTrue hc, select_bool]
  have h2 : s.setNzcv (if b = true then fl else immFlags nzcv) =
      (s.setNzcv fl).setNzcv (if b = true then fl else immFlags nzcv) := rfl
  rw [h2]
  refine hf.nzcv _ rfl ?_ ?_ ?_ ?_
  all_goals
    cases b
    · simp [St.setF, immFlags]
    · simp [St.setF]
      exact hf.fl _ _ rfl

theorem sim_ccmp {ccmn w32 : Bool} {rn : Reg} {rhs : CRhs} {c : Cond} {nzcv : BitVec 4}
    (hs : step (.ccmp ccmn w32 rn rhs c nzcv) len s = some s') :
    Simulates cfg slide (.ccmp ccmn w32 rn rhs c nzcv) len s s' := by
  obtain ⟨s1, hp, rfl⟩ := step_plain hs rfl
  simp only [S.plain, bind, Option.bind_eq_some_iff, pure, Option.some.injEq] at hp
  obtain ⟨b, hc, rfl⟩ := hp
  refine plain_sim (fun m => some (liftCcmp cfg m ccmn (W w32) rn rhs c nzcv)) (fun _ _ => rfl) ?_
  intro start m hr hpc hst
  refine ⟨_, rfl, ?_⟩
  have key : ∀ x y : BitVec (W w32),
      Rel slide (ccmpSel m (if ccmn = true then flagAdd cfg m (IR.add (some x) (some y)) (some x) (some y)
        else flagSub m (IR.sub (some x) (some y)) (some x) (some y)) c nzcv)
      (s.setNzcv (if b = true then (if ccmn = true then awcFlags x y false else awcFlags x (~~~ y) true)
        else immFlags nzcv)) := by
    intro x y
    apply ccmpSel_rel hr hc
    cases ccmn
    · exact hr.flagSub (W_pos w32) x y
    · exact hr.flagAdd cfg (W_pos w32) x y
  cases rhs with
  | reg rm =>
    have := key (s.reg (W w32) rn) (s.reg (W w32) rm)
    simp only [← hr.get] at this
    exact this
  | imm v =>
    have := key (s.reg (W w32) rn) (v.setWidth (W w32))
    simp only [← hr.get] at this
    simp only [ofNat_toNat]
    exact this

theorem sim_csel {k : Sel} {w32 : Bool} {rd rn rm : Reg} {c : Cond}
    (hs : step (.csel k w32 rd rn rm c) len s = some s') :
    Simulates cfg slide (.csel k w32 rd rn rm c) len s s' := by
  obtain ⟨s1, hp, rfl⟩ := step_plain hs rfl
  simp only [S.plain, bind, Option.bind_eq_some_iff, pure, Option.some.injEq] at hp
  obtain ⟨b, hc, rfl⟩ := hp
  refine plain_sim (fun m => some (liftCsel m k (W w32) rd rn rm c)) (fun _ _ => rfl) ?_
  intro start m hr hpc hst
  refine ⟨_, rfl, ?_⟩
  have hone : BitVec.ofInt (W w32) (-1) = BitVec.allOnes (W w32) := by cases w32 <;> decide
  have hb : (BitVec.ofBool b).setWidth (W w32) = if b = true then 1#(W w32) else 0#(W w32) := by
    cases w32 <;> cases b <;> decide
  have : liftCsel m k (W w32) rd rn rm c =
      m.set rd (some (selVal k b (s.reg (W w32) rn) (s.reg (W w32) rm))) := by
    unfold liftCsel
    simp only [hr.get, hr.isTrue hc]
    cases k <;> simp only [selVal, select_bool, add_some, not_some, neg_some, zext_some, hone, hb] <;>
      cases b <;> rfl
  rw [this]
  exact hr.set _ _

/-! ### Shifts -/

theorem sim_shiftImm {sh : Sh} {w32 : Bool} {rd rn : Reg} {a : Nat}
    (hs : step (.shiftImm sh w32 rd rn a) len s = some s') :
    Simulates cfg slide (.shiftImm sh w32 rd rn a) len s s' := by
  obtain ⟨s1, hp, rfl⟩ := step_plain hs rfl
  simp only [S.plain] at hp
  split at hp
  · rename_i ha
    cases hp
    refine plain_sim (fun m => (shift (m.get (W w32) rn) sh a).map fun v => m.set rd v)
      (fun _ _ => rfl) ?_
    intro start m hr hpc hst
    exact ⟨_, by rw [hr.get, shift_some _ _ _ ha]; rfl, hr.set _ _⟩
  · cases hp

theorem and_amount {w32 : Bool} (y : BitVec (W w32)) :
    (y &&& (if W w32 = 32 then 0x1f else 0x3f)).toNat = y.toNat % W w32 := by
  cases w32
  · exact Bv.toNat_and_63 y
  · exact Bv.toNat_and_31 y

theorem sim_shiftReg {sh : Sh} {w32 : Bool} {rd rn rm : Reg}
    (hs : step (.shiftReg sh w32 rd rn rm) len s = some s') :
    Simulates cfg slide (.shiftReg sh w32 rd rn rm) len s s' := by
  obtain ⟨s1, hp, rfl⟩ := step_plain hs rfl
  simp only [S.plain, Option.some.injEq] at hp
  subst hp
  refine plain_sim (fun m => some (liftShiftReg m sh (W w32) rd rn rm)) (fun _ _ => rfl) ?_
  intro start m hr hpc hst
  have hlt : (s.reg (W w32) rm).toNat % W w32 < W w32 := Nat.mod_lt _ (W_pos w32)
  refine ⟨m.set rd (some (shiftVal (s.reg (W w32) rn) ((s.reg (W w32) rm).toNat % W w32) sh)), ?_,
    hr.set _ _⟩
  unfold liftShiftReg
  simp only [hr.get, and_some]
  cases sh
  · simp only [shl_some, and_amount, hlt, if_true, shl_val]
  · simp only [lshr_some, and_amount, hlt, if_true, lshr_val]
  · simp only [ashr_some, and_amount, hlt, if_true, ashr_val]
  · simp only [fshr_some, fshr_rotate, and_amount, ror_val]

/-! ### Multiplication and division -/

theorem ofNat_mul_toNat {w : Nat} (x y : BitVec w) : BitVec.ofNat w (x.toNat * y.toNat) = x * y := by
  apply BitVec.eq_of_toNat_eq; simp [BitVec.toNat_mul]

theorem sim_mul {w32 : Bool} {rd rn rm : Reg} (hs : step (.mul w32 rd rn rm) len s = some s') :
    Simulates cfg slide (.mul w32 rd rn rm) len s s' := by
  refine set_sim hs rfl rfl (fun m => IR.mul (m.get (W w32) rn) (m.get (W w32) rm)) (fun _ _ => rfl) ?_
  intro start m hr hpc hst
  rw [hr.get, hr.get, mul_some, ofNat_mul_toNat]

theorem ofInt_sub {w : Nat} (a b : Int) : BitVec.ofInt w (a - b) = BitVec.ofInt w a - BitVec.ofInt w b := by
  rw [Int.sub_eq_add_neg, BitVec.ofInt_add, BitVec.ofInt_neg, BitVec.sub_eq_add_neg]

theorem sim_madd {sub w32 : Bool} {rd rn rm ra : Reg}
    (hs : step (.madd sub w32 rd rn rm ra) len s = some s') :
    Simulates cfg slide (.madd sub w32 rd rn rm ra) len s s' := by
  refine set_sim hs rfl rfl (fun m =>
    let prod := IR.mul (m.get (W w32) rn) (m.get (W w32) rm)
    let base := m.get (W w32) ra
    if sub then IR.sub base prod else IR.add base prod) (fun _ _ => rfl) ?_
  intro start m hr hpc hst
  simp only [hr.get, mul_some, sub_some, add_some]
  cases sub
  · simp [BitVec.ofInt_add, BitVec.ofInt_mul]
  · simp [ofInt_sub, BitVec.ofInt_mul]

theorem val_ext {w : Nat} (v : Nat) (signed : Bool) (x : BitVec w) :
    (if signed = true then sext v (some x) else zext v (some x)) = some (BitVec.ofInt v (val signed x)) := by
  cases signed
  · simp only [Bool.false_eq_true, if_false, zext_some, val, Bv.setWidth_eq_ofInt]
  · rfl

theorem mulAddSub_some {v w : Nat} (sub signed : Bool) (b : BitVec v) (x y : BitVec w) :
    mulAddSub sub signed (some b) (some x) (some y) =
      some (BitVec.ofInt (w * 2) (if sub then val signed b - val signed x * val signed y
        else val signed b + val signed x * val signed y)) := by
  simp only [mulAddSub, val_ext, mul_some, sub_some, add_some, ← BitVec.ofInt_mul]
  cases sub <;> simp [BitVec.ofInt_add, ofInt_sub]

theorem sim_maddl {sub signed : Bool} {rd rn rm ra : Reg}
    (hs : step (.maddl sub signed rd rn rm ra) len s = some s') :
    Simulates cfg slide (.maddl sub signed rd rn rm ra) len s s' := by
  refine set_sim hs rfl rfl
    (fun m => mulAddSub sub signed (m.get 64 ra) (m.get 32 rn) (m.get 32 rm)) (fun _ _ => rfl) ?_
  intro start m hr hpc hst
  rw [hr.get, hr.get, hr.get, mulAddSub_some]

theorem sim_mulh {signed : Bool} {rd rn rm : Reg} (hs : step (.mulh signed rd rn rm) len s = some s') :
    Simulates cfg slide (.mulh signed rd rn rm) len s s' := by
  refine set_sim hs rfl rfl (fun m =>
    trunc 64 (IR.lshr (mulAddSub false signed (some 0#64) (m.get 64 rn) (m.get 64 rm))
      (some (BitVec.ofNat _ 64)))) (fun _ _ => rfl) ?_
  intro start m hr hpc hst
  rw [hr.get, hr.get, mulAddSub_some, lshr_some, if_pos (by decide), trunc_some]
  have h0 : val signed 0#64 = 0 := by cases signed <;> decide
  simp only [Bool.false_eq_true, if_false, h0, Int.zero_add]
  exact congrArg some (Bv.hi64_ofInt _)

theorem udiv_val {w : Nat} (x y : BitVec w) : x.udiv y = BitVec.ofNat w (x.toNat / y.toNat) := by
  apply BitVec.eq_of_toNat_eq
  rw [BitVec.toNat_ofNat, Nat.mod_eq_of_lt (Nat.lt_of_le_of_lt (Nat.div_le_self _ _) x.isLt)]
  exact BitVec.toNat_udiv

theorem sim_div {signed w32 : Bool} {rd rn rm : Reg}
    (hs : step (.div signed w32 rd rn rm) len s = some s') :
    Simulates cfg slide (.div signed w32 rd rn rm) len s s' := by
  obtain ⟨s1, hp, rfl⟩ := step_plain hs rfl
  simp only [S.plain, Option.some.injEq] at hp
  subst hp
  refine plain_sim (fun m => if signed then liftSdiv m (W w32) rd rn rm
    else liftUdiv m (W w32) rd rn rm) (fun _ _ => rfl) ?_
  intro start m hr hpc hst
  generalize hx : s.reg (W w32) rn = x
  generalize hy : s.reg (W w32) rm = y
  have h10 : (1#(W w32) : BitVec (W w32)) ≠ 0#(W w32) := by cases w32 <;> decide
  have hm1 : BitVec.ofInt (W w32) (-1) = BitVec.allOnes (W w32) := by cases w32 <;> decide
  have h1a : (1#(W w32) : BitVec (W w32)) ≠ BitVec.allOnes (W w32) := by cases w32 <;> decide
  have ha0 : BitVec.allOnes (W w32) ≠ 0#(W w32) := by cases w32 <;> decide
  refine ⟨m.set rd (some (divVal signed x y)), ?_, hr.set _ _⟩
  cases signed
  · simp only [Bool.false_eq_true, if_false, liftUdiv, hr.get, hx, hy, icmp_some, Pred.eval, select_bool]
    by_cases h : y = 0#(W w32)
    · subst h
      simp [divVal, IR.udiv, h10]
    · simp [divVal, IR.udiv, h, un_some, udiv_val]
      exact congrArg _ (congrArg _ (udiv_val x y))
  · simp only [if_true, liftSdiv, hr.get, hx, hy, icmp_some, Pred.eval, and_some, hm1]
    have e2 : ∀ p q : Bool, BitVec.ofBool p &&& BitVec.ofBool q = BitVec.ofBool (p && q) := by decide
    simp only [e2, select_bool]
    by_cases h : y = 0#(W w32)
    · subst h
      have : (0#(W w32) == BitVec.allOnes (W w32)) = false := by cases w32 <;> decide
      simp [divVal, IR.sdiv, h10, h1a, this]
    · have h2 : (y == 0#(W w32)) = false := by simpa using h
      by_cases hov : x = BitVec.intMin (W w32) ∧ y = BitVec.allOnes (W w32)
      · obtain ⟨rfl, rfl⟩ := hov
        have hq : BitVec.ofInt (W w32) ((BitVec.intMin (W w32)).toInt.tdiv (BitVec.allOnes (W w32)).toInt)
            = BitVec.intMin (W w32) := by cases w32 <;> decide
        simp [divVal, IR.sdiv, h10, h1a, h2, ha0, hq, -BitVec.toInt_allOnes]
      · have h3 : (x == BitVec.intMin (W w32) && y == BitVec.allOnes (W w32)) = false := by
          rw [Bool.eq_false_iff]; intro e; apply hov; simpa using e
        simp [divVal, IR.sdiv, h2, h3, h, hov, Bv.sdiv_eq_ofInt]

end Verif.A64.Spec
