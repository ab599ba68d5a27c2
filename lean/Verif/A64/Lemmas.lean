import Verif.A64.Spec
import Verif.X86.Lemmas

/-! Register access, flags and conditions: the lifted code preserves the relation to the
architectural state. -/

set_option linter.unusedSimpArgs false
set_option linter.constructorNameAsVariable false

namespace Verif.A64.Spec

open Verif.IR
open Verif.X86 (trunc_some zext_some sext_some add_some sub_some mul_some and_some or_some xor_some
  not_some neg_some icmp_some extract0 pc_get msb_slt of_add of_add' of_sub cf_add)

variable {cfg : Cfg} {slide : BitVec 64} {m : St} {s : S}

theorem W_cases (b : Bool) : W b = 32 ∨ W b = 64 := by cases b <;> simp [W]
theorem W_pos (b : Bool) : 0 < W b := by cases b <;> simp [W]
theorem W_le (b : Bool) : W b ≤ 64 := by cases b <;> simp [W]

theorem getLsbD_bits (w : Nat) (f : Nat → Bool) (i : Nat) :
    (bits w f).getLsbD i = (decide (i < w) && f i) := by
  induction w with
  | zero => simp [bits]
  | succ w ih =>
    simp only [bits, BitVec.getLsbD_cons, ih]
    by_cases h : i = w
    · subst h; simp
    · by_cases h2 : i < w
      · simp [h, h2, show i < w + 1 by omega]
      · simp [h, h2, show ¬ i < w + 1 by omega]

/-! ### Registers -/

theorem ofNat_toNat {w : Nat} (v : Nat) (x : BitVec w) : BitVec.ofNat v x.toNat = x.setWidth v := by
  apply BitVec.eq_of_toNat_eq; simp

theorem Rel.get (h : Rel slide m s) (w : Nat) (r : Reg) : m.get w r = some (s.reg w r) := by
  cases r with
  | x r => simp only [St.get, Reg.idx, h.gp, trunc_some, S.reg, extract0]
  | sp => simp only [St.get, Reg.idx, h.sp, trunc_some, S.reg, extract0]
  | zr => rfl

theorem Rel.set (h : Rel slide m s) (r : Reg) {w : Nat} (v : BitVec w) :
    Rel slide (m.set r (some v)) (s.setReg r v) := by
  cases r with
  | x r =>
    have hne : (31 : Fin 32) ≠ ⟨r.val, by omega⟩ := by
      intro e; have := congrArg Fin.val e; simp at this; omega
    refine ⟨?_, ?_, h.vec, h.tpidr, h.mem, h.pc, h.fl⟩
    · intro k
      simp only [St.set, Reg.idx, S.setReg, zext_some, ofNat_toNat]
      by_cases e : k = r
      · subst e; simp
      · have : (⟨k.val, by omega⟩ : Fin 32) ≠ ⟨r.val, by omega⟩ := by
          intro e2; apply e; apply Fin.ext; have := congrArg (fun q : Fin 32 => q.val) e2; exact this
        simp [e, h.gp, this, Fin.val_inj]
    · simp only [St.set, Reg.idx, S.setReg, hne, if_false, h.sp]
  | sp =>
    refine ⟨?_, ?_, h.vec, h.tpidr, h.mem, h.pc, h.fl⟩
    · intro k
      have : (⟨k.val, by omega⟩ : Fin 32) ≠ 31 := by
        intro e; have := congrArg Fin.val e; simp at this; omega
      simp only [St.set, Reg.idx, S.setReg, this, if_false, h.gp]
    · simp only [St.set, Reg.idx, S.setReg, if_true, zext_some, ofNat_toNat]
  | zr => exact h

theorem Rel.getV (h : Rel slide m s) (r : Fin 32) (w : Nat) : m.getV r w = some (s.scalar r w) := by
  rw [St.getV, h.vec, trunc_some, S.scalar, extract0]

theorem Rel.setV (h : Rel slide m s) (r : Fin 32) {w : Nat} (v : BitVec w) :
    Rel slide (m.setV r (some v)) (s.setVec r v) := by
  refine ⟨h.gp, h.sp, ?_, h.tpidr, h.mem, h.pc, h.fl⟩
  intro k
  simp only [St.setV, S.setVec, zext_some, ofNat_toNat]
  split <;> simp [h.vec]

theorem Rel.setPc (h : Rel slide m s) {p : Pc} {v : BitVec 64} (hp : p.val slide = some v) :
    Rel slide { m with pc := p } { s with pc := v } :=
  ⟨h.gp, h.sp, h.vec, h.tpidr, h.mem, hp, h.fl⟩

theorem set_pc (m : St) (r : Reg) {w : Nat} (v : Val w) : (m.set r v).pc = m.pc := by
  unfold St.set; split <;> rfl
theorem setReg_pc (s : S) (r : Reg) {w : Nat} (v : BitVec w) : (s.setReg r v).pc = s.pc := by
  cases r <;> rfl
theorem setReg_fl (s : S) (r : Reg) {w : Nat} (v : BitVec w) : (s.setReg r v).fl = s.fl := by
  cases r <;> rfl
theorem setReg_mem (s : S) (r : Reg) {w : Nat} (v : BitVec w) : (s.setReg r v).mem = s.mem := by
  cases r <;> rfl
theorem setReg_vec (s : S) (r : Reg) {w : Nat} (v : BitVec w) : (s.setReg r v).vec = s.vec := by
  cases r <;> rfl

/-- An instruction that continues with the next one. -/
theorem plain_sim {i : Instr} {len : Nat} {s1 : S} (body : St → Option St)
    (hb : ∀ start m, lift cfg slide i start len m =
      (body { m with pc := .const start }).map fun m =>
        { st := { m with pc := .const (start + BitVec.ofNat 64 len) } })
    (h : ∀ start m, Rel slide m s → m.pc = .const start → s.pc = start + slide →
      ∃ m1, body m = some m1 ∧ Rel slide m1 s1) :
    Simulates cfg slide i len s { s1 with pc := s.pc + BitVec.ofNat 64 len } := by
  intro start m hr hpc
  have hr1 : Rel slide { m with pc := .const start } s := by
    have := hr.setPc (p := .const start) (v := s.pc) (by rw [Pc.val_const, hpc])
    exact this
  obtain ⟨m1, e1, r1⟩ := h start _ hr1 rfl hpc
  refine ⟨_, by rw [hb, e1, Option.map_some], r1.setPc ?_⟩
  rw [Pc.val_const, hpc]
  congr 1
  rw [BitVec.add_assoc, BitVec.add_assoc, BitVec.add_comm (BitVec.ofNat 64 len)]

/-- What `step` says about an instruction that continues with the next one. -/
theorem step_plain {i : Instr} {len : Nat} {s' : S} (hs : step i len s = some s')
    (hb : s.branch len i = none) :
    ∃ s1, s.plain i = some s1 ∧ s' = { s1 with pc := s.pc + BitVec.ofNat 64 len } := by
  unfold step at hs
  cases hp : s.plain i with
  | none => rw [hp, hb] at hs; cases hs
  | some s1 => rw [hp] at hs; exact ⟨s1, rfl, (Option.some.inj hs).symm⟩

/-! ### AddWithCarry -/

theorem awc_add {w : Nat} (a b : BitVec w) : awc a b false = a + b := by
  apply BitVec.eq_of_toNat_eq; simp [awc, BitVec.toNat_add]

theorem awc_sub {w : Nat} (a b : BitVec w) : awc a (~~~ b) true = a - b := by
  apply BitVec.eq_of_toNat_eq
  have := b.isLt
  simp only [awc, BitVec.toNat_ofNat, BitVec.toNat_not, BitVec.toNat_sub, Bool.toNat_true]
  congr 1; omega

theorem toInt_not' {w : Nat} (hw : 0 < w) (b : BitVec w) : (~~~ b).toInt = - b.toInt - 1 := by
  have h := b.isLt
  have e : 2 ^ w = 2 * 2 ^ (w - 1) := by rw [← Nat.pow_succ', Nat.succ_eq_add_one, Nat.sub_add_cancel hw]
  have e2 : ((2 ^ w : Nat) : Int) = 2 * ((2 ^ (w - 1) : Nat) : Int) := by rw [e]; push_cast; rfl
  have hp : (2 ^ (w - 1) : Nat) > 0 := Nat.pow_pos (by decide)
  simp only [BitVec.toInt_eq_toNat_cond, BitVec.toNat_not]
  generalize 2 ^ (w - 1) = N at *
  generalize b.toNat = x at *
  rw [e] at h ⊢
  split <;> split <;> omega

theorem awc_c_add {w : Nat} (a b : BitVec w) : (awcFlags a b false).c = (a + b).ult a := by
  have ha := a.isLt; have hb := b.isLt
  simp only [awcFlags, awc_add, BitVec.ult, BitVec.toNat_add, Bool.toNat_false]
  rw [decide_eq_decide]
  by_cases h : a.toNat + b.toNat < 2 ^ w
  · rw [Nat.mod_eq_of_lt h]; omega
  · rw [Nat.mod_eq_sub_mod (by omega), Nat.mod_eq_of_lt (by omega)]; omega

theorem awc_c_sub {w : Nat} (a b : BitVec w) : (awcFlags a (~~~ b) true).c = b.ule a := by
  have ha := a.isLt; have hb := b.isLt
  simp only [awcFlags, awc_sub, BitVec.ule, BitVec.toNat_sub, Bool.toNat_true, BitVec.toNat_not]
  rw [decide_eq_decide]
  by_cases h : a.toNat < b.toNat
  · rw [Nat.mod_eq_of_lt (by omega)]; omega
  · rw [Nat.mod_eq_sub_mod (by omega), Nat.mod_eq_of_lt (by omega)]; omega

/-- The signed result is the bounded remainder; it equals the sum iff the sum is in range. -/
theorem bmod_ne {w : Nat} (hw : 0 < w) (z : Int) :
    decide (z.bmod (2 ^ w) ≠ z) = X86.Spec.sOver w z := by
  have e : ((2 ^ w : Nat) : Int) = 2 * 2 ^ (w - 1) := by
    push_cast
    rw [← Int.pow_succ', Nat.sub_add_cancel hw]
  have hN : (0 : Int) < 2 ^ (w - 1) := Int.pow_pos (by decide)
  rw [X86.Spec.sOver, decide_eq_decide]
  have hlo := Int.le_bmod (x := z) (m := 2 ^ w) (Nat.pow_pos (by decide))
  have hhi := Int.bmod_lt (x := z) (m := 2 ^ w) (Nat.pow_pos (by decide))
  rw [e] at hlo hhi
  constructor
  · intro hne
    by_cases h1 : z < -2 ^ (w - 1)
    · exact Or.inl h1
    · by_cases h2 : 2 ^ (w - 1) ≤ z
      · exact Or.inr h2
      · exfalso; apply hne
        apply Int.bmod_eq_of_le
        · rw [e]; omega
        · rw [e]; omega
  · intro h he
    rw [he] at hlo hhi
    omega

theorem awc_v_add {w : Nat} (hw : 0 < w) (a b : BitVec w) :
    (awcFlags a b false).v = X86.Spec.addOf a b false := by
  simp only [awcFlags, awc_add, BitVec.toInt_add, Bool.toNat_false, X86.Spec.addOf, Bool.toInt_false]
  rw [← bmod_ne hw]; simp

theorem awc_v_sub {w : Nat} (hw : 0 < w) (a b : BitVec w) :
    (awcFlags a (~~~ b) true).v = ((a - b).slt 0#w != a.slt b) := by
  rw [of_sub]
  simp only [awcFlags, awc_sub, BitVec.toInt_sub, Bool.toNat_true, X86.Spec.subOf, Bool.toInt_false,
    toInt_not' hw]
  rw [← bmod_ne hw, decide_eq_decide]
  have : a.toInt + (-b.toInt - 1) + ((1 : Nat) : Int) = a.toInt - b.toInt - 0 := by omega
  rw [this]; simp

theorem ofBool_bne : ∀ p q : Bool, (BitVec.ofBool p != BitVec.ofBool q) = (p != q) := by decide

theorem sub_zero_iff {w : Nat} (a b : BitVec w) : (a == b) = decide (a - b = 0#w) := by
  rw [Bool.eq_iff_iff]
  simp only [beq_iff_eq, decide_eq_true_eq]
  constructor
  · rintro rfl; simp
  · intro e
    have := congrArg (· + b) e
    simpa [BitVec.sub_add_cancel] using this

/-! ### Flags -/

theorem Rel.nzcv (h : Rel slide m s) (f : Nzcv) {m' : St} (hm : m' = { m with fl := m'.fl })
    (hn : m'.fl .n = some (BitVec.ofBool f.n)) (hz : m'.fl .z = some (BitVec.ofBool f.z))
    (hc : m'.fl .c = some (BitVec.ofBool f.c)) (hv : m'.fl .v = some (BitVec.ofBool f.v)) :
    Rel slide m' (s.setNzcv f) := by
  rw [hm]
  refine ⟨h.gp, h.sp, h.vec, h.tpidr, h.mem, h.pc, ?_⟩
  intro g b hb
  cases g <;> simp only [S.setNzcv, Option.some.injEq] at hb <;> subst hb <;> assumption

theorem Rel.mono (h : Rel slide m s) {s' : S} (h1 : s'.x = s.x) (h2 : s'.sp = s.sp)
    (h3 : s'.vec = s.vec) (h4 : s'.tpidr = s.tpidr) (h5 : s'.mem = s.mem) (h6 : s'.pc = s.pc)
    (h7 : ∀ f b, s'.fl f = some b → s.fl f = some b) : Rel slide m s' where
  gp := h1 ▸ h.gp
  sp := h2 ▸ h.sp
  vec := h3 ▸ h.vec
  tpidr := h4 ▸ h.tpidr
  mem := h5 ▸ h.mem
  pc := h6 ▸ h.pc
  fl f b hb := h.fl f b (h7 f b hb)

/-- `FlagCalcAdd` on what it is given. -/
theorem Rel.flagAdd (h : Rel slide m s) (cfg : Cfg) {w : Nat} (hw : 0 < w) (a b : BitVec w) :
    Rel slide (A64.flagAdd cfg m (some (a + b)) (some a) (some b))
      (s.setNzcv (awcFlags a b false)) := by
  have hn : (awcFlags a b false).n = (a + b).msb := by simp only [awcFlags, awc_add]
  have hz : (awcFlags a b false).z = decide (a + b = 0#w) := by simp only [awcFlags, awc_add]
  have hov : (awcFlags a b false).v = a.saddOverflow b := by rw [awc_v_add hw, of_add]
  have hov2 := of_add' hw a b
  rw [← of_add] at hov2
  have hz2 : (a + b == 0#w) = decide (a + b = 0#w) := by rw [Bool.eq_iff_iff]; simp
  refine h.nzcv _ ?_ ?_ ?_ ?_ ?_
  · simp only [A64.flagAdd, St.setF]; split <;> rfl
  all_goals
    cases hi : cfg.overflowIntrinsics <;>
      simp [A64.flagAdd, hi, St.setF, icmp_some, Pred.eval, msb_slt, hn, hz, awc_c_add, hov, bin_some,
        and_some, xor_some, not_some, hov2, hz2]

/-- `FlagCalcSub` on what it is given. -/
theorem Rel.flagSub (h : Rel slide m s) {w : Nat} (hw : 0 < w) (a b : BitVec w) :
    Rel slide (A64.flagSub m (some (a - b)) (some a) (some b))
      (s.setNzcv (awcFlags a (~~~ b) true)) := by
  have hn : (awcFlags a (~~~ b) true).n = (a - b).msb := by simp only [awcFlags, awc_sub]
  have hz : (awcFlags a (~~~ b) true).z = (a == b) := by simp only [awcFlags, awc_sub, sub_zero_iff]
  refine h.nzcv _ rfl ?_ ?_ ?_ ?_
  all_goals
    simp [A64.flagSub, St.setF, icmp_some, Pred.eval, msb_slt, hn, hz, awc_c_sub, awc_v_sub hw,
      ofBool_bne]

theorem Rel.flagLogic (h : Rel slide m s) {w : Nat} (r : BitVec w) :
    Rel slide (A64.flagLogic m (some r)) (s.setNzcv (logicFlags r)) := by
  have hz2 : (r == 0#w) = decide (r = 0#w) := by rw [Bool.eq_iff_iff]; simp
  refine h.nzcv _ rfl ?_ ?_ ?_ ?_
  all_goals simp [A64.flagLogic, St.setF, icmp_some, Pred.eval, msb_slt, logicFlags, hz2]

theorem Rel.flagFp (h : Rel slide m s) {w : Nat} (a b : BitVec w) :
    Rel slide (A64.flagFp m (some a) (some b)) (s.setNzcv (fpFlags a b)) := by
  refine h.nzcv _ rfl ?_ ?_ ?_ ?_
  all_goals
    cases hc : Fp.cmp a b <;>
      simp [A64.flagFp, St.setF, fcmpOlt, fcmpOeq, fcmpUno, bin_some, not_some, fpFlags, hc] <;> decide

/-- `IsTrue`. -/
theorem Rel.isTrue (h : Rel slide m s) {c : Cond} {b : Bool} (hc : s.cond c = some b) :
    A64.isTrue m c = some (BitVec.ofBool b) := by
  have hn := h.fl .n; have hz := h.fl .z; have hcf := h.fl .c; have hv := h.fl .v
  have e1 : ∀ p : Bool, ~~~ BitVec.ofBool p = BitVec.ofBool (!p) := by decide
  cases c <;> simp only [S.cond, Option.map_eq_some_iff, bind, Option.bind_eq_some_iff, pure,
    Option.some.injEq] at hc
  all_goals first
    | (subst hc; rfl)
    | (obtain ⟨p, h1, q, h2, r, h3, rfl⟩ := hc
       simp only [A64.isTrue, Cond.odd, condBase, if_true, if_false, Bool.false_eq_true]
       first | rw [hn _ h1] | rw [hz _ h1]
       first | rw [hn _ h2] | skip
       rw [hv _ h3]
       cases p <;> cases q <;> cases r <;> rfl)
    | (obtain ⟨p, h1, q, h2, rfl⟩ := hc
       simp only [A64.isTrue, Cond.odd, condBase, if_true, if_false, Bool.false_eq_true]
       first | rw [hn _ h1] | rw [hcf _ h1]
       first | rw [hz _ h2] | rw [hv _ h2]
       cases p <;> cases q <;> rfl)
    | (obtain ⟨p, h1, rfl⟩ := hc
       simp only [A64.isTrue, Cond.odd, condBase, if_true, if_false, Bool.false_eq_true]
       first | rw [hn _ h1] | rw [hcf _ h1] | rw [hz _ h1] | rw [hv _ h1]
       simp only [not_some, e1])
    | (simp only [A64.isTrue, Cond.odd, condBase, if_true, if_false, Bool.false_eq_true]
       first | exact hn _ hc | exact hcf _ hc | exact hz _ hc | exact hv _ hc)

/-! ### Shifts and extensions -/

theorem shl_val {w : Nat} (x : BitVec w) (n : Nat) : x <<< n = shiftVal x n .lsl := by
  apply BitVec.eq_of_toNat_eq
  simp [shiftVal, Nat.shiftLeft_eq]

theorem lshr_val {w : Nat} (x : BitVec w) (n : Nat) : x >>> n = shiftVal x n .lsr := by
  apply BitVec.eq_of_toNat_eq
  have := Nat.lt_of_le_of_lt (Nat.div_le_self x.toNat (2 ^ n)) x.isLt
  simp [shiftVal, Nat.shiftRight_eq_div_pow, Nat.mod_eq_of_lt this]

theorem ashr_val {w : Nat} (x : BitVec w) (n : Nat) : x.sshiftRight n = shiftVal x n .asr := by
  rw [shiftVal, ← Int.shiftRight_eq_div_pow, BitVec.sshiftRight]

theorem ror_val {w : Nat} (x : BitVec w) (n : Nat) : x.rotateRight n = shiftVal x n .ror := by
  rcases Nat.eq_zero_or_pos w with hw | hw
  · subst hw; exact Subsingleton.elim _ _
  apply BitVec.eq_of_getLsbD_eq
  intro i hi
  have hn : n % w < w := Nat.mod_lt _ hw
  rw [shiftVal, getLsbD_bits, BitVec.getLsbD_rotateRight]
  simp only [hi, decide_true, Bool.true_and]
  have e : (i + n) % w = (i + n % w) % w := by rw [Nat.add_mod_mod]
  by_cases h : i < w - n % w
  · rw [decide_eq_true h, cond_true, e, Nat.mod_eq_of_lt (a := i + n % w) (by omega), Nat.add_comm]
  · rw [decide_eq_false h, cond_false, e, Nat.mod_eq_sub_mod (a := i + n % w) (by omega),
      Nat.mod_eq_of_lt (a := i + n % w - w) (by omega)]
    congr 1; omega

theorem shiftVal_zero {w : Nat} (x : BitVec w) (sh : Sh) : shiftVal x 0 sh = x := by
  cases sh
  · rw [← shl_val]; simp
  · rw [← lshr_val]; simp
  · rw [← ashr_val]; simp
  · rw [← ror_val]
    apply BitVec.eq_of_getLsbD_eq
    intro i hi
    rw [BitVec.getLsbD_rotateRight]; simp [hi]

theorem shift_some {w : Nat} (x : BitVec w) (sh : Sh) (a : Nat) (ha : a < w) :
    A64.shift (some x) sh a = some (some (shiftVal x a sh)) := by
  have hp : a < 2 ^ w := Nat.lt_trans ha Nat.lt_two_pow_self
  have hn : (BitVec.ofNat w a).toNat = a := by simp [Nat.mod_eq_of_lt hp]
  unfold A64.shift
  rw [if_neg (by omega)]
  by_cases h0 : a = 0
  · subst h0; rw [if_pos rfl, shiftVal_zero]
  · rw [if_neg h0]
    cases sh
    · simp only [shl_some, hn, ha, if_true, shl_val]
    · simp only [lshr_some, hn, ha, if_true, lshr_val]
    · simp only [ashr_some, hn, ha, if_true, ashr_val]
    · simp only [fshr_some, fshr_rotate, hn, ror_val]

theorem ofInt_mul_pow {w : Nat} (z : Int) (n : Nat) :
    shiftVal (BitVec.ofInt w z) n .lsl = BitVec.ofInt w (z * ((2 ^ n : Nat) : Int)) := by
  rw [BitVec.ofInt_mul, shiftVal]
  apply BitVec.eq_of_toNat_eq
  simp only [BitVec.toNat_ofNat, BitVec.toNat_mul]
  rw [show BitVec.ofInt w ((2 ^ n : Nat) : Int) = BitVec.ofNat w (2 ^ n) from BitVec.ofInt_natCast ..]
  simp [Nat.mul_mod]

theorem extend_some {w : Nat} (x : BitVec w) (e : Ext) (l : Nat) (he : 8 * e.bytes ≤ w) (hl : l < w) :
    A64.extend (some x) w e l = some (some (extVal x e l)) := by
  unfold A64.extend
  rw [if_pos ⟨he, he⟩]
  simp only [trunc_some]
  have : (if e.signed = true then sext w (some (BitVec.setWidth (8 * e.bytes) x))
      else zext w (some (BitVec.setWidth (8 * e.bytes) x))) =
      some (BitVec.ofInt w (lowVal x (min (8 * e.bytes) w) e.signed)) := by
    rw [Nat.min_eq_left he]
    cases hs : e.signed
    · simp only [Bool.false_eq_true, if_false, zext_some, lowVal, extract0]
      rw [BitVec.ofInt_natCast, ofNat_toNat]
    · simp only [if_true, sext_some, lowVal, extract0]
      rfl
  rw [this, shift_some _ _ _ hl, ofInt_mul_pow, extVal]

end Verif.A64.Spec
