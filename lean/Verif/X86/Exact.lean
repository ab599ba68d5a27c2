import Verif.X86.All

/-!
The exceptions of the general-purpose x86-64 properties are exactly the cases in which they are false: for every specified
general-purpose instruction, the lifted code is right (up to the flags left out in `after`) if and only if `Exact` holds.
-/

set_option linter.unusedSimpArgs false
set_option linter.constructorNameAsVariable false

namespace Verif.X86.Spec

open Verif.IR

variable {cfg : Cfg} {slide : BitVec 64} {len : Nat} {s s' : S} {m m' : St}

/-- Operands that have an encoding: no RIP-relative operand with an index. -/
def Op.wf : Op → Prop
  | .mem o => o.base = .ip → o.idx = none
  | _ => True

/-! ### What successful lifting tells -/

theorem addr_plain {o : MemOp} {a : Val 64} (hw : o.base = .ip → o.idx = none) (h : opAddr slide m o = some a) :
    MemOp.plain o = true := by
  obtain ⟨seg, a32, base, idx, off⟩ := o
  cases base <;> cases idx <;> cases seg <;> cases a32 <;> simp [MemOp.plain] at * <;>
    simp [opAddr] at h

theorem load_plain {z : Sz} {o : Op} {v : Val z.bits} (hw : Op.wf o) (h : opLoad slide m z o = some v) :
    Op.plain o = true := by
  cases o with
  | mem o =>
    simp only [opLoad, Option.bind_eq_bind, Option.bind_eq_some_iff] at h
    obtain ⟨a, h1, _⟩ := h
    exact addr_plain hw h1
  | _ => rfl

theorem store_plain {z : Sz} {o : Op} {v : Val z.bits} (hw : Op.wf o) (h : opStore slide m z o v = some m') :
    Op.plain o = true := by
  cases o with
  | mem o =>
    simp only [opStore, Option.bind_eq_bind, Option.bind_eq_some_iff] at h
    obtain ⟨a, h1, _⟩ := h
    exact addr_plain hw h1
  | _ => rfl

theorem load_aligned {a : BitVec 64} {n k : Nat} {v : Val (8 * n)} (h : load m (some a) n k = some v) : a.toNat % k = 0 := by
  simp only [load] at h
  split at h
  · assumption
  · cases h

theorem store_aligned {a : BitVec 64} {n k : Nat} {v : Val (8 * n)} (h : store m (some a) n k v = some m') :
    a.toNat % k = 0 := by
  simp only [store] at h
  split at h
  · assumption
  · cases h

theorem atomic_ok (hm : Rel slide m s) {z : Sz} {d : Op} (hw : Op.wf d) {f : Val z.bits → Val z.bits} {x : Val z.bits × St}
    (h : atomicRmw slide m z d f = some x) :
    Op.plain d = true ∧ ∃ o, d = .mem o ∧ (s.ea o).toNat % z.bytes = 0 := by
  cases d with
  | mem o =>
    simp only [atomicRmw, Option.bind_eq_bind, Option.bind_eq_some_iff] at h
    obtain ⟨a, h1, v, h2, _⟩ := h
    have hp := addr_plain hw h1
    rw [opAddr_plain hm o hp, Option.some.injEq] at h1
    subst h1
    exact ⟨hp, o, rfl, load_aligned h2⟩
  | _ => cases h

theorem rmw_ok (hm : Rel slide m s) {z : Sz} {lock : Bool} {d : Op} (hw : Op.wf d) {f : Val z.bits → Val z.bits}
    {x : Val z.bits × St} (h : rmwLoad slide m z lock d f = some x) : Op.plain d = true ∧ LockOk s z lock d := by
  cases lock with
  | false =>
    simp only [rmwLoad, Bool.false_eq_true, if_false, Option.map_eq_some_iff] at h
    obtain ⟨v, h1, _⟩ := h
    exact ⟨load_plain hw h1, by intro e; cases e⟩
  | true =>
    simp only [rmwLoad, if_true] at h
    obtain ⟨h1, h2⟩ := atomic_ok hm hw h
    exact ⟨h1, fun _ => h2⟩

/-- The lifted code applied to one representation of the state. -/
theorem Simulates.run {i : Instr} {t : S} (h : Simulates cfg slide i len s t) (body : St → Option St)
    (hl : ∀ start m, lift cfg slide i start len m =
      (body { m with pc := .const (stopPc start len) }).map (fun m => { st := m })) :
    ∃ m', body ((s.nx len).rep slide) = some m' ∧ Rel slide m' t := by
  obtain ⟨m', e, r⟩ := h (s.ip - slide) (s.rep slide) (rep_rel slide s) (BitVec.sub_add_cancel _ _).symm
  have e1 : ({ s.rep slide with pc := .const (stopPc (s.ip - slide) len) } : St) = (s.nx len).rep slide := by
    have : stopPc (s.ip - slide) len = s.ip + BitVec.ofNat 64 len - slide := by
      simp only [stopPc, BitVec.sub_eq_add_neg]
      ac_rfl
    rw [this]
    rfl
  rw [hl, e1, Option.map_eq_some_iff] at e
  obtain ⟨m1, h1, h2⟩ := e
  cases h2
  exact ⟨_, h1, r⟩

/-- Two states with a common representation agree. -/
theorem Rel.agree {t1 t2 : S} (h1 : Rel slide m t1) (h2 : Rel slide m t2) : t1.gp = t2.gp ∧ t1.mem = t2.mem ∧ t1.ip = t2.ip := by
  refine ⟨funext fun r => ?_, funext fun a => ?_, ?_⟩
  · exact Option.some.inj ((h1.gp r).symm.trans (h2.gp r))
  · exact Option.some.inj (congrFun (h1.mem.symm.trans h2.mem) a)
  · exact Option.some.inj (h1.pc.symm.trans h2.pc)

/-- The lifted code takes a state to one state only (up to flags). -/
theorem Simulates.agree {i : Instr} {t1 t2 : S} (h1 : Simulates cfg slide i len s t1) (h2 : Simulates cfg slide i len s t2) :
    t1.gp = t2.gp ∧ t1.mem = t2.mem ∧ t1.ip = t2.ip := by
  obtain ⟨m1, e1, r1⟩ := h1 (s.ip - slide) (s.rep slide) (rep_rel slide s) (BitVec.sub_add_cancel _ _).symm
  obtain ⟨m2, e2, r2⟩ := h2 (s.ip - slide) (s.rep slide) (rep_rel slide s) (BitVec.sub_add_cancel _ _).symm
  rw [e1] at e2
  cases e2
  exact r1.agree r2

theorem low_append {n w : Nat} (x : BitVec n) (v : BitVec w) : (x ++ v).extractLsb' 0 w = v := by
  apply BitVec.eq_of_getLsbD_eq; intro i hi
  rw [BitVec.getLsbD_extractLsb', BitVec.getLsbD_append]
  simp [hi]

theorem high_append {n w : Nat} (x : BitVec n) (v : BitVec w) : (x ++ v).extractLsb' w n = x := by
  apply BitVec.eq_of_getLsbD_eq; intro i hi
  rw [BitVec.getLsbD_extractLsb', BitVec.getLsbD_append]
  simp [hi]

theorem high_append2 (x : BitVec 48) (v y : BitVec 8) : (x ++ v ++ y).extractLsb' 16 48 = x := by
  apply BitVec.eq_of_getLsbD_eq; intro i hi
  simp only [BitVec.getLsbD_extractLsb', BitVec.getLsbD_append, hi, decide_true, Bool.true_and,
    show ¬ (16 + i < 8) by omega, show ¬ (16 + i - 8 < 8) by omega, if_false, show 16 + i - 8 - 8 = i by omega]

theorem mid_append (x : BitVec 48) (v y : BitVec 8) : (x ++ v ++ y).extractLsb' 8 8 = v := by
  apply BitVec.eq_of_getLsbD_eq; intro i hi
  simp only [BitVec.getLsbD_extractLsb', BitVec.getLsbD_append, hi, decide_true, Bool.true_and,
    show ¬ (8 + i < 8) by omega, if_false, Nat.add_sub_cancel_left]
  simp [hi]

theorem reg_setReg (t : S) (r : Fin 16) (z : Sz) (v : BitVec z.bits) : (t.setReg r z v).reg r z = v := by
  cases z <;> simp only [S.setReg, S.setGp, S.reg, if_true]
  · exact low_append _ _
  · exact low_append _ _
  · exact low_append _ _
  · exact (extract0 _).trans (BitVec.setWidth_eq _)

/-- The value written to an operand can be read off the state. -/
theorem write_inj {t t1 t2 : S} {z : Sz} {d : Op} {v1 v2 : BitVec z.bits} (h1 : t.write z d v1 = some t1)
    (h2 : t.write z d v2 = some t2) (hg : t1.gp = t2.gp) (hm : t1.mem = t2.mem) : v1 = v2 := by
  cases d with
  | imm _ => cases h1
  | reg r =>
    cases h1
    cases h2
    rw [← reg_setReg t r z v1, ← reg_setReg t r z v2, S.reg, S.reg, hg]
  | regH r =>
    cases z <;> simp only [S.write, S.writeAt, Option.some.injEq, reduceCtorEq] at h1 h2
    subst h1 h2
    have := congrArg (fun x => x.extractLsb' 8 8) (congrFun hg (hreg r))
    simpa only [S.setRegH, S.setGp, if_true, mid_append] using this
  | mem o =>
    cases h1
    cases h2
    have := congrArg (fun x => Mem.read x (t.ea o) z.bytes) hm
    simpa only [S.store, Mem.read_write _ _ _ _ (show z.bytes ≤ 2 ^ 64 by cases z <;> decide)] using this

/-! ### Instructions that are right in some states only -/

/-- XADD of a register with itself: the sum is overwritten with the old value. -/
theorem raw_xadd_same (h : Rel slide m s) (z : Sz) (d : Op) (hd : Op.plain d = true) {a : BitVec z.bits} {s1 s2 : S}
    (ha : s.read z d = some a) (h1 : s.write z d (a + a) = some s1) (h2 : s1.write z d a = some s2) :
    ∃ m', liftArith cfg slide m .xadd z false d d = some m' ∧ Rel slide m' (s2.addFl a a false) := by
  obtain ⟨m1, e1, r1⟩ := h.opStore z d _ hd h1
  obtain ⟨m2, e2, r2⟩ := r1.opStore z d _ hd h2
  have hf := r2.flagAdd cfg (bits_gt z) a a false
  refine ⟨X86.flagAdd cfg m2 (some (a + a)) (some a) (some a) false, ?_, by simpa [S.addFl] using hf⟩
  simp [liftArith, rmwLoad, h.opLoad z d a hd ha, add_some, opStoreIf, e1, e2]

theorem write_write {t t1 t2 : S} {z : Sz} {d : Op} (hm : ∀ o, d ≠ .mem o) {v w : BitVec z.bits} (h1 : t.write z d v = some t1)
    (h2 : t1.write z d w = some t2) : t.write z d w = some t2 := by
  cases d with
  | imm _ => cases h1
  | mem o => exact absurd rfl (hm o)
  | reg r =>
    cases h1
    cases h2
    simp only [S.write, S.writeAt]
    have : ∀ (x y : BitVec 64), (t.setGp r x).setGp r y = t.setGp r y := by
      intro x y
      simp only [S.setGp, S.mk.injEq, and_true]
      funext i
      by_cases hi : i = r <;> simp [hi]
    cases z <;> simp only [S.setReg, this, Option.some.injEq]
    · simp only [S.setGp, if_true]
      rw [high_append]
    · simp only [S.setGp, if_true]
      rw [high_append]
  | regH r =>
    cases z <;> simp only [S.write, S.writeAt, Option.some.injEq, reduceCtorEq] at h1 h2 ⊢
    subst h1 h2
    simp only [S.setRegH, S.setGp, S.mk.injEq, and_true, if_true]
    funext i
    by_cases hi : i = hreg r
    · simp only [hi, if_true, low_append, high_append2]
    · simp [hi]

theorem double_eq {w : Nat} {a : BitVec w} : a + a = a ↔ a = 0 := by
  constructor
  · intro h
    have := congrArg (· - a) h
    simpa [BitVec.add_sub_cancel] using this
  · rintro rfl
    simp

/-- XADD of a register with itself is right exactly if the register is zero. -/
theorem xadd_same_exact (z : Sz) (d : Op) (hm : ∀ o, d ≠ .mem o) (hs : step (.arith .xadd z false d d) len s = some s') :
    Simulates cfg slide (.arith .xadd z false d d) len s s' ↔ (s.nx len).read z d = some 0 := by
  have hd : Op.plain d = true := by
    cases d with
    | mem o => exact absurd rfl (hm o)
    | _ => rfl
  simp only [step, exec, stepArith, Option.bind_eq_bind, Option.bind_eq_some_iff] at hs
  obtain ⟨a, ha, b, hb, t1, h1, t2, h2, hs⟩ := hs
  rw [ha] at hb
  cases hb
  cases hs
  rw [writeAt_reg hm] at h1 h2
  -- what the lifted code does
  have hw : ∀ v : BitVec z.bits, ∃ u, (s.nx len).write z d v = some u := by
    intro v
    cases d with
    | mem o => exact absurd rfl (hm o)
    | imm _ => cases h1
    | reg _ => exact ⟨_, rfl⟩
    | regH _ => cases z <;> first | exact ⟨_, rfl⟩ | cases h1
  obtain ⟨u1, hu1⟩ := hw (a + a)
  have hw2 : ∃ u, u1.write z d a = some u := by
    cases d with
    | mem o => exact absurd rfl (hm o)
    | imm _ => cases h1
    | reg _ => exact ⟨_, rfl⟩
    | regH _ => cases z <;> first | exact ⟨_, rfl⟩ | cases h1
  obtain ⟨u2, hu2⟩ := hw2
  have raw : Simulates cfg slide (.arith .xadd z false d d) len s (u2.addFl a a false) :=
    .of_body (fun m => liftArith cfg slide m .xadd z false d d) (fun _ _ => rfl)
      (fun m h => raw_xadd_same h z d hd ha hu1 hu2)
  have e2 := write_write hm h1 h2
  have e3 := write_write hm hu1 hu2
  have hiff : (s.nx len).read z d = some 0 ↔ a + a = a := by
    rw [double_eq]
    show (s.nx len).read z d = _ ↔ _
    rw [ha, Option.some.injEq]
  rw [hiff]
  constructor
  · intro hsim
    obtain ⟨hg, hme, -⟩ := hsim.agree raw
    exact write_inj e2 e3 hg hme
  · intro he
    rw [he, e3] at e2
    cases e2
    exact raw

/-- The upper half of the accumulator is lost by a 32-bit write. -/
theorem gp_setReg32 {t : S} {r : Fin 16} {v : BitVec (Sz.bits .d)} (h : (t.setReg r .d v).gp r = s.gp r) (hv : v = s.reg r .d) :
    s.gp r = ((s.gp r).setWidth 32).setWidth 64 := by
  subst hv
  simp only [S.setReg, S.setGp, if_true, S.reg] at h
  exact h.symm.trans (zero_append_setWidth (s.gp r))

/-- CMPXCHG is right exactly if a destination that is the accumulator has the value of the source, and if the upper half of RAX
is zero when a 32-bit comparison with another destination succeeds. -/
theorem cmpxchg_exact (z : Sz) (lock : Bool) (d r : Op) (hd : Op.plain d = true) (hr : Op.plain r = true)
    (hl : LockOk (s.nx len) z lock d) (hs : step (.cmpxchg z lock d r) len s = some s') :
    Simulates cfg slide (.cmpxchg z lock d r) len s s' ↔
      if d = .reg rax then (s.nx len).read z r = some (s.reg rax z)
      else (z = .d → (s.nx len).read z d = some (s.reg rax z) → s.gp rax = ((s.gp rax).setWidth 32).setWidth 64) := by
  by_cases hx : d = .reg rax
  · subst hx
    rw [if_pos rfl]
    simp only [step, exec, stepCmpxchg, Option.bind_eq_bind, Option.bind_eq_some_iff] at hs
    obtain ⟨a, ha, b, hb, hs⟩ := hs
    have haa : a = s.reg rax z := (Option.some.inj ha).symm
    subst haa
    have hs : ((s.nx len).subFl (s.reg rax z) (s.reg rax z) false).write z (.reg rax) b = some s' := by
      split at hs
      · exact hs
      · rename_i hne
        exact absurd rfl hne
    have raw : Simulates cfg slide (.cmpxchg z lock (.reg rax) r) len s (s'.setReg rax z (s.reg rax z)) :=
      .of_body (fun m => liftCmpxchg slide m z lock (.reg rax) r) (fun _ _ => rfl)
        (fun m h => raw_cmpxchg h z lock (.reg rax) r hd hr hl ha hb (by
          have : (if S.reg (s.nx len) rax z = s.reg rax z then b else s.reg rax z) = b := if_pos rfl
          rw [this]; exact hs))
    have e1 : ((s.nx len).subFl (s.reg rax z) (s.reg rax z) false).write z (.reg rax) (s.reg rax z) =
        some (s'.setReg rax z (s.reg rax z)) := write_write (by simp) hs rfl
    have hiff : (s.nx len).read z r = some (s.reg rax z) ↔ b = s.reg rax z := by
      show (s.nx len).read z r = _ ↔ _
      rw [hb, Option.some.injEq]
    rw [hiff]
    constructor
    · intro hsim
      obtain ⟨hg, hme, -⟩ := hsim.agree raw
      exact write_inj hs e1 hg hme
    · intro he
      rw [he, e1] at hs
      rw [Option.some.inj hs] at raw
      exact raw
  · rw [if_neg hx]
    constructor
    · rintro hsim rfl hacc
      simp only [step, exec, stepCmpxchg, Option.bind_eq_bind, Option.bind_eq_some_iff] at hs
      obtain ⟨a, ha, b, hb, hs⟩ := hs
      have haa : a = s.reg rax .d := Option.some.inj (ha.symm.trans hacc)
      subst haa
      have hs : ((s.nx len).subFl (s.reg rax .d) (s.reg rax .d) false).write .d d b = some s' := by
        split at hs
        · exact hs
        · rename_i hne
          exact absurd rfl hne
      have raw : Simulates cfg slide (.cmpxchg .d lock d r) len s (s'.setReg rax .d (s.reg rax .d)) :=
        .of_body (fun m => liftCmpxchg slide m .d lock d r) (fun _ _ => rfl)
          (fun m h => raw_cmpxchg h .d lock d r hd hr hl ha hb (by
            have : (if S.reg (s.nx len) rax .d = s.reg rax .d then b else s.reg rax .d) = b := if_pos rfl
            rw [this]; exact hs))
      obtain ⟨hg, -, -⟩ := hsim.agree raw
      have h1 := gp_write_other rfl hx hs
      have h2 := congrFun hg rax
      rw [h1] at h2
      exact gp_setReg32 h2.symm rfl
    · intro h
      exact C26_cmpxchg_partial z lock d r hd hr hl ⟨hx, fun hz ha => h hz ha⟩ hs

theorem shiftd_all (left : Bool) (z : Sz) (a b : BitVec z.bits) :
    (if left then a <<< z.bits ||| b >>> (z.bits - z.bits) else a >>> z.bits ||| b <<< (z.bits - z.bits)) = b := by
  rw [Nat.sub_self, BitVec.shiftLeft_zero, BitVec.ushiftRight_zero, BitVec.shiftLeft_eq_zero (Nat.le_refl _),
    BitVec.ushiftRight_eq_zero (Nat.le_refl _), BitVec.zero_or, ite_self]

/-- SHLD and SHRD (results, ZF, SF, PF): right exactly if, with a count of 0, a 32-bit destination register has no upper half, and
if, with the operand size as count, both operands are equal. -/
theorem shiftd_exact (left : Bool) (z : Sz) (d r c : Op) (hd : Op.plain d = true)
    (hr : Op.plain r = true) (hc : Op.plain c = true) (cv : BitVec 8)
    (hcv : (s.nx len).read .b c = some cv) (hdi : ∀ v, d ≠ .imm v)
    (hs : step (.shiftd left z d r c) len s = some s') :
    Simulates cfg slide (.shiftd left z d r c) len s (s'.forget (if count z cv = 0 then status else cfof)) ↔
      (count z cv = 0 → UpperZero (s.nx len) z d) ∧
      (count z cv = z.bits → (s.nx len).read z d = (s.nx len).read z r) := by
  have hb0 : 0 < z.bits := by cases z <;> decide
  have hs0 : stepShiftd (s.nx len) left z d r c = some s' := hs
  simp only [stepShiftd, Option.bind_eq_bind, Option.bind_eq_some_iff] at hs0
  obtain ⟨a, ha, b, hb, cv', hcv', hs0⟩ := hs0
  rw [hcv] at hcv'
  cases hcv'
  have raw : ∀ s1, (s.nx len).write z d (shiftdVal left z a b (count z cv % z.bits)) = some s1 →
      Simulates cfg slide (.shiftd left z d r c) len s
        (s1.resFl (shiftdVal left z a b (count z cv % z.bits)) none none none) := fun s1 h1 =>
    .of_body (fun m => liftShiftd slide m left z d r c) (fun _ _ => rfl)
      (fun m h => raw_shiftd h left z d r c hd hr hc hcv ha hb h1)
  by_cases hn : count z cv = 0
  · constructor
    · intro hsim
      refine ⟨fun _ hz x hx => ?_, fun e => by omega⟩
      subst hz hx
      simp only [hn, if_true, Option.some.injEq] at hs0 hsim
      subst hs0
      simp only [hn, Nat.zero_mod, shiftdVal, if_true] at raw
      have h1 := (raw _ rfl).agree hsim
      exact gp_setReg32 (congrFun h1.1 x) (Option.some.inj ha).symm
    · rintro ⟨h1, -⟩
      exact C22_shiftd_partial left z d r c hd hr hc cv hcv hdi h1 (by omega) hs
  · by_cases hlt : count z cv < z.bits
    · exact ⟨fun _ => ⟨fun e => absurd e hn, fun e => by omega⟩,
        fun _ => C22_shiftd_partial left z d r c hd hr hc cv hcv hdi (fun e => absurd e hn) hlt hs⟩
    · rw [if_neg hn] at hs0
      split at hs0
      · cases hs0
      · rename_i hle
        have he : count z cv = z.bits := by omega
        simp only [he, shiftd_all, Nat.mod_self, shiftdVal, if_true] at hs0 raw
        simp only [Option.pure_def, Option.bind_eq_some_iff, Option.some.injEq] at hs0
        obtain ⟨s1, hw, hs0⟩ := hs0
        subst hs0
        have hw2 : ∃ s2, (s.nx len).write z d a = some s2 := by
          cases d with
          | imm v => exact absurd rfl (hdi v)
          | reg _ => exact ⟨_, rfl⟩
          | mem _ => exact ⟨_, rfl⟩
          | regH _ => cases z <;> first | exact ⟨_, rfl⟩ | cases ha
        obtain ⟨s2, hw2⟩ := hw2
        have hiff : (s.nx len).read z d = (s.nx len).read z r ↔ a = b := by rw [ha, hb, Option.some.injEq]
        rw [hiff]
        simp only [hn, if_false]
        constructor
        · intro hsim
          refine ⟨fun e => e.elim, fun _ => ?_⟩
          have h1 := (raw _ hw2).agree hsim
          exact write_inj hw2 hw h1.1 h1.2.1
        · rintro ⟨-, h1⟩
          have hab := h1 he
          subst hab
          rw [hw] at hw2
          cases hw2
          have h2 := raw _ hw
          intro start m hm hip
          obtain ⟨m', e, h3⟩ := h2 start m hm hip
          exact ⟨m', e, h3.mono_forget rfl (fun f hf => by cases f <;> simp [cfof] at hf <;> rfl)⟩

/-- The offset of a LEA operand without its address-size prefix. -/
def MemOp.a64 (o : MemOp) : MemOp := { o with a32 := false }

/-- LEA with a RIP-relative operand: right exactly if the address-size prefix does not change the bits written. -/
theorem lea_exact (z : Sz) (d : Op) (o : MemOp) (hd : Op.plain d = true) (ho : o.base = .ip) (hi : o.idx = none)
    (hs : step (.lea z d o) len s = some s') :
    Simulates cfg slide (.lea z d o) len s s' ↔
      ((s.nx len).offset o).setWidth z.bits = ((s.nx len).offset (MemOp.a64 o)).setWidth z.bits := by
  have hs : (s.nx len).write z d (((s.nx len).offset o).setWidth z.bits) = some s' := hs
  have hw2 : ∃ s2, (s.nx len).write z d (((s.nx len).offset (MemOp.a64 o)).setWidth z.bits) = some s2 := by
    cases d with
    | imm v => cases hs
    | reg _ => exact ⟨_, rfl⟩
    | mem _ => exact ⟨_, rfl⟩
    | regH _ => cases z <;> first | exact ⟨_, rfl⟩ | cases hs
  obtain ⟨s2, hw2⟩ := hw2
  have raw : Simulates cfg slide (.lea z d o) len s s2 :=
    .of_body (fun m => liftLea slide m z d o) (fun _ _ => rfl) (fun m h => by
      obtain ⟨m', e, h1⟩ := body_lea h z d (MemOp.a64 o) hd (fun _ => ⟨rfl, hi⟩) hw2
      refine ⟨m', ?_, h1⟩
      rw [← e]
      have : (MemOp.a64 o).base = .ip := ho
      simp only [liftLea, ho, this, if_true]
      rfl)
  constructor
  · intro hsim
    have h1 := hsim.agree raw
    exact write_inj hs hw2 h1.1 h1.2.1
  · intro he
    rw [he, hw2] at hs
    cases hs
    exact raw

/-- The address that XLAT reads. -/
def S.xlatEa (t : S) (a32 : Bool) (seg : Seg) : BitVec 64 :=
  t.segBase seg + (if a32 then ((t.gp rbx + (t.reg rax .b).setWidth 64).extractLsb' 0 32).setWidth 64
    else t.gp rbx + (t.reg rax .b).setWidth 64)

/-- The address that the lifted code of XLAT reads: without segment base and with a carry out of the lower half. -/
def S.xlatLifted (t : S) (a32 : Bool) : BitVec 64 :=
  (if a32 then (t.reg rbx .d).setWidth 64 else t.gp rbx) + (t.reg rax .b).setWidth 64

theorem raw_xlat (h : Rel slide m s) (a32 : Bool) :
    ∃ m', liftXlat m a32 = some m' ∧ Rel slide m' (s.setReg rax .b (s.mem (s.xlatLifted a32))) := by
  have hr := h.read (s.xlatLifted a32) 1 1 (Nat.mod_one _)
  have ha : IR.add (if a32 = true then zext 64 (m.get rbx .d) else m.gp rbx) (zext 64 (m.get rax .b)) =
      some (s.xlatLifted a32) := by
    cases a32 <;> simp only [Bool.false_eq_true, if_true, if_false, h.gp, h.get, zext_some, add_some, S.xlatLifted]
  refine ⟨m.store rax .b (some (s.mem.read (s.xlatLifted a32) 1)), ?_, ?_⟩
  · simp only [liftXlat, ha, hr, Option.bind_eq_bind, Option.bind_some, Option.pure_def]
  · have e : s.mem.read (s.xlatLifted a32) 1 = s.mem (s.xlatLifted a32) := by
      apply BitVec.eq_of_getLsbD_eq
      intro i hi
      rw [Mem.getLsbD_read]
      have h0 : i / 8 = 0 := by omega
      simp [h0, Nat.mod_eq_of_lt hi, hi]
    rw [e]
    exact h.store rax .b _

/-- XLAT is right exactly if the two addresses hold the same byte. -/
theorem xlat_exact (a32 : Bool) (seg : Seg) (hs : step (.xlat a32 seg) len s = some s') :
    Simulates cfg slide (.xlat a32 seg) len s s' ↔ s.mem (s.xlatEa a32 seg) = s.mem (s.xlatLifted a32) := by
  have hs : (s.nx len).setReg rax .b (s.mem (s.xlatEa a32 seg)) = s' := Option.some.inj hs
  have raw : Simulates cfg slide (.xlat a32 seg) len s ((s.nx len).setReg rax .b (s.mem (s.xlatLifted a32))) :=
    .of_body (fun m => liftXlat m a32) (fun _ _ => rfl) (fun m h => raw_xlat h a32)
  constructor
  · intro hsim
    have h1 := hsim.agree raw
    exact write_inj (t := s.nx len) (z := .b) (d := .reg rax) (congrArg some hs) rfl h1.1 h1.2.1
  · intro he
    rw [← he, hs] at raw
    exact raw

/-- The operand of an indirect jump without its segment prefix. -/
def Op.noSeg : Op → Op
  | .mem o => .mem { o with seg := .none }
  | o => o

theorem noSeg_load (z : Sz) (r : Op) : opLoad slide m z r true = opLoad slide m z (Op.noSeg r) := by
  cases r <;> rfl

theorem noSeg_seg (r : Op) : ∀ a, Op.noSeg r = .mem a → a.seg = .none := by
  rintro a h
  cases r <;> simp only [Op.noSeg, Op.mem.injEq, reduceCtorEq] at h
  subst h
  rfl

theorem noSeg_wf {r : Op} (h : Op.wf r) : Op.wf (Op.noSeg r) := by
  cases r <;> exact h

/-- JMP is right exactly if the lifter has code for the operand without segment and finds the same target there. -/
theorem jmp_exact (r : Op) (hw : Op.wf r) (hs : step (.jmp r) len s = some s') :
    Simulates cfg slide (.jmp r) len s s' ↔
      Op.plain (Op.noSeg r) = true ∧ (s.nx len).read .q r = (s.nx len).read .q (Op.noSeg r) := by
  have hl : ∀ t, Simulates cfg slide (.jmp r) len s t ↔ Simulates cfg slide (.jmp (Op.noSeg r)) len s t := by
    intro t
    unfold Simulates
    have : ∀ start m, lift cfg slide (.jmp r) start len m = lift cfg slide (.jmp (Op.noSeg r)) start len m := by
      intro start m
      cases r <;> rfl
    simp only [this]
  simp only [step, exec, Option.bind_eq_bind, Option.bind_eq_some_iff, Option.pure_def, Option.some.injEq] at hs
  obtain ⟨v, hv, rfl⟩ := hs
  have hv2 : ∃ v2, (s.nx len).read .q (Op.noSeg r) = some v2 := by
    cases r <;> first | exact ⟨_, rfl⟩ | cases hv
  obtain ⟨v2, hv2⟩ := hv2
  have hv : (s.nx len).read .q r = some v := hv
  rw [hl, hv, hv2, Option.some.injEq]
  have hstep : step (.jmp (Op.noSeg r)) len s = some { s.nx len with ip := v2 } := by
    show (do return { s.nx len with ip := ← (s.nx len).read .q (Op.noSeg r) }) = _
    rw [hv2]; rfl
  constructor
  · intro hsim
    obtain ⟨m', e, -⟩ := hsim.run (fun m => (opLoad slide m .q (Op.noSeg r) true).map (fun v => { m with pc := .value v }))
      (fun _ _ => rfl)
    rw [Option.map_eq_some_iff] at e
    obtain ⟨x, e, -⟩ := e
    have hp : Op.plain (Op.noSeg r) = true := by
      rw [noSeg_load] at e
      exact load_plain (noSeg_wf (noSeg_wf hw)) e |> fun h => by cases r <;> exact h
    refine ⟨hp, ?_⟩
    exact (hsim.agree (sim_jmp _ hp (noSeg_seg r) hstep)).2.2
  · rintro ⟨hp, rfl⟩
    exact sim_jmp _ hp (noSeg_seg r) hstep

theorem push_aligned (h : Rel slide m s) {z : Sz} {v : Val z.bits} (e : stackPush m z v = some m') :
    Aligned (s.gp rsp) z.bytes := by
  simp only [stackPush, h.gp, add_some, Option.bind_eq_bind, Option.bind_eq_some_iff] at e
  obtain ⟨m1, e, -⟩ := e
  have := store_aligned e
  simp only [Aligned]
  rw [BitVec.toNat_add, BitVec.toNat_neg] at this
  cases z <;> simp only [Sz.bytes, BitVec.toNat_ofNat] at * <;> omega

theorem pop_aligned (h : Rel slide m s) {src : Fin 16} {x : Val 64 × St} (e : stackPop m src = some x) :
    Aligned (s.gp src) 8 ∧ x.2 = m.setGp rsp (some (s.gp src + 8#64)) := by
  simp only [stackPop, h.gp, add_some, Option.bind_eq_bind, Option.bind_eq_some_iff, Option.pure_def, Option.some.injEq] at e
  obtain ⟨v, e, rfl⟩ := e
  exact ⟨load_aligned e, rfl⟩

theorem call_ok (h : Rel slide m s) {tgt : St → Option (Val 64)} {next : BitVec 64}
    (e : liftCall cfg slide m tgt next = some m') : Aligned (s.gp rsp) 8 ∧ ∃ v, tgt (X86.clobber cfg m) = some v := by
  simp only [liftCall, Option.bind_eq_bind, Option.bind_eq_some_iff] at e
  obtain ⟨v, e1, m1, e2, -⟩ := e
  have h1 := push_aligned (Rel.clobber cfg h) e2
  have hg : (if cfg.clobberFlags then s.forget status else s).gp = s.gp := by split <;> rfl
  rw [hg] at h1
  exact ⟨h1, v, e1⟩

/-- CALL is right exactly if the stack is aligned and the target is found without the segment base. -/
theorem call_exact (hf : cfg.callFunction = none) (r : Op) (hw : Op.wf r) (hs : step (.call r) len s = some s') :
    Simulates cfg slide (.call r) len s (callFl cfg s') ↔
      (Op.plain (Op.noSeg r) = true ∧ (s.nx len).read .q r = (s.nx len).read .q (Op.noSeg r)) ∧ Aligned (s.gp rsp) 8 := by
  have hl : ∀ t, Simulates cfg slide (.call r) len s t ↔ Simulates cfg slide (.call (Op.noSeg r)) len s t := by
    intro t
    unfold Simulates
    have : ∀ start m, lift cfg slide (.call r) start len m = lift cfg slide (.call (Op.noSeg r)) start len m := by
      intro start m
      cases r <;> rfl
    simp only [this]
  simp only [step, exec, Option.bind_eq_bind, Option.bind_eq_some_iff, Option.pure_def, Option.some.injEq] at hs
  obtain ⟨v, hv, rfl⟩ := hs
  have hv2 : ∃ v2, (s.nx len).read .q (Op.noSeg r) = some v2 := by
    cases r <;> first | exact ⟨_, rfl⟩ | cases hv
  obtain ⟨v2, hv2⟩ := hv2
  have hv : (s.nx len).read .q r = some v := hv
  rw [hl, hv, hv2, Option.some.injEq]
  have hstep : step (.call (Op.noSeg r)) len s = some { (s.nx len).push .q (s.nx len).ip with ip := v2 } := by
    show (do
      let t ← (s.nx len).read .q (Op.noSeg r)
      return { (s.nx len).push .q (s.nx len).ip with ip := t }) = _
    rw [hv2]; rfl
  have hip : ∀ (t : S), (callFl cfg t).ip = t.ip := by
    intro t; unfold callFl; split <;> rfl
  constructor
  · intro hsim
    obtain ⟨m', e, -⟩ := hsim (s.ip - slide) (s.rep slide) (rep_rel slide s) (BitVec.sub_add_cancel _ _).symm
    have hr : Rel slide { s.rep slide with pc := .const (stopPc (s.ip - slide) len) }
        { s with ip := stopPc (s.ip - slide) len + slide } := (rep_rel slide s).setPc _ _ (Pc.val_const _ _)
    simp only [lift, Option.map_eq_some_iff] at e
    obtain ⟨m1, e, -⟩ := e
    obtain ⟨ha, x, hx⟩ := call_ok hr e
    have hp : Op.plain (Op.noSeg r) = true := by
      rw [noSeg_load] at hx
      exact load_plain (noSeg_wf (noSeg_wf hw)) hx |> fun h => by cases r <;> exact h
    refine ⟨⟨hp, ?_⟩, ha⟩
    have := (hsim.agree (sim_call _ hp (noSeg_seg r) hf ha hstep)).2.2
    rw [hip, hip] at this
    exact this
  · rintro ⟨⟨hp, rfl⟩, ha⟩
    exact sim_call _ hp (noSeg_seg r) hf ha hstep

/-- A POP of less than 64 bits is never right: it advances the stack pointer by 8. -/
theorem pop_wrong (z : Sz) (hz : z ≠ .q) (d : Op) (hs : step (.pop z d) len s = some s') :
    ¬ Simulates cfg slide (.pop z d) len s s' := by
  intro hsim
  obtain ⟨m', e, r⟩ := hsim.run (fun m => do
    let (v, m) ← stackPop m
    popStore slide m z d v) (fun _ _ => rfl)
  simp only [Option.bind_eq_bind, Option.bind_eq_some_iff] at e
  obtain ⟨⟨v, m1⟩, e1, e2⟩ := e
  have h1 := (pop_aligned (rep_rel slide (s.nx len)) e1).2
  cases d with
  | mem o =>
    have hs : ((s.nx len).pop z).2.write z (.mem o) ((s.nx len).pop z).1 = some s' := hs
    cases hs
    have h2 : m'.gp = m1.gp := by
      have : opStore slide m1 .q (.mem o) v = some m' := by cases z <;> first | exact absurd rfl hz | exact e2
      simp only [opStore, Option.bind_eq_bind, Option.bind_eq_some_iff] at this
      obtain ⟨a, -, h3⟩ := this
      unfold X86.store at h3
      split at h3
      · cases h3
      · split at h3
        · cases h3; rfl
        · cases h3
    have h3 := r.gp rsp
    simp only at h1
    rw [h2, h1] at h3
    simp only [St.setGp, S.setGp, S.store, S.pop, if_true, Option.some.injEq] at h3
    have h4 := congrArg (fun x => x - s.gp rsp) h3
    simp only [BitVec.add_sub_cancel, BitVec.add_comm (s.gp rsp)] at h4
    revert h4
    cases z <;> first | exact absurd rfl hz | decide
  | _ => cases z <;> first | exact absurd rfl hz | cases e2

/-- A POPF of less than 64 bits is never right. -/
theorem popf_wrong (z : Sz) (hz : z ≠ .q) (hs : step (.popf z) len s = some s') :
    ¬ Simulates cfg slide (.popf z) len s s' := by
  intro hsim
  obtain ⟨m', e, r⟩ := hsim.run (fun m => do
    let (v, m) ← stackPop m
    return flagFromReg m v) (fun _ _ => rfl)
  simp only [Option.bind_eq_bind, Option.bind_eq_some_iff, Option.pure_def, Option.some.injEq] at e
  obtain ⟨⟨v, m1⟩, e1, e2⟩ := e
  have h1 := (pop_aligned (rep_rel slide (s.nx len)) e1).2
  have hs : (((s.nx len).pop z).2.setRflags ((s.nx len).pop z).1) = s' := Option.some.inj hs
  subst hs
  have h2 : m'.gp = m1.gp := by rw [← e2]; rfl
  have h3 := r.gp rsp
  simp only at h1
  rw [h2, h1] at h3
  simp only [St.setGp, S.setRflags, S.setGp, S.pop, if_true, Option.some.injEq] at h3
  have h4 := congrArg (fun x => x - s.gp rsp) h3
  simp only [BitVec.add_sub_cancel, BitVec.add_comm (s.gp rsp)] at h4
  revert h4
  cases z <;> first | exact absurd rfl hz | decide

theorem or_none_right {w : Nat} (x : Val w) : IR.or x none = none := by cases x <;> rfl
theorem or_none_left {w : Nat} (x : Val w) : IR.or none x = none := by cases x <;> rfl
theorem shl_none_left {w : Nat} (x : Val w) : IR.shl none x = none := by cases x <;> rfl
theorem zext_none {w : Nat} (v : Nat) : zext (w := w) v none = none := rfl
theorem trunc_none {w : Nat} (v : Nat) : trunc (w := w) v none = none := rfl

/-- LAHF is right exactly if DF and OF are defined. -/
theorem lahf_exact (hs : step .lahf len s = some s') :
    Simulates cfg slide .lahf len s s' ↔ (∃ b, s.fl .df = some b) ∧ ∃ b, s.fl .of = some b := by
  constructor
  · intro hsim
    obtain ⟨m', e, r⟩ := hsim.run (fun m => some (m.storeH rax (flagAsReg m .b))) (fun _ _ => rfl)
    cases e
    have h1 := r.gp rax
    have h2 : flagAsReg ((s.nx len).rep slide) .b ≠ none := by
      intro e
      rw [e] at h1
      simp [St.storeH, St.setGp, zext_none, shl_none_left, or_none_left] at h1
    constructor
    · cases hd : s.fl .df with
      | some b => exact ⟨b, rfl⟩
      | none =>
        refine absurd ?_ h2
        simp only [flagAsReg, rflagsIndices, List.foldl, St.getF, S.rep, S.nx, hd]
        simp only [Option.map_none, zext_none, shl_none_left, or_none_left, or_none_right, trunc_none]
    · cases hd : s.fl .of with
      | some b => exact ⟨b, rfl⟩
      | none =>
        refine absurd ?_ h2
        simp only [flagAsReg, rflagsIndices, List.foldl, St.getF, S.rep, S.nx, hd]
        simp only [Option.map_none, zext_none, shl_none_left, or_none_left, or_none_right, trunc_none]
  · rintro ⟨h1, h2⟩
    exact sim_lahf h1 h2 hs

/-- TZCNT and LZCNT are never right: the carry flag is left undefined. -/
theorem bitcnt_wrong (trailing : Bool) (z : Sz) (d r : Op) (hs : step (.bitscan trailing true z d r) len s = some s') :
    ¬ Simulates cfg slide (.bitscan trailing true z d r) len s s' := by
  intro hsim
  obtain ⟨m', e, h⟩ := hsim.run (fun m => liftBitscan slide m trailing z d r) (fun _ _ => rfl)
  simp only [liftBitscan, Option.bind_eq_bind, Option.bind_eq_some_iff, Option.pure_def, Option.some.injEq] at e
  obtain ⟨_, _, m1, _, rfl⟩ := e
  have hs : stepBitscan (s.nx len) trailing true z d r = some s' := hs
  simp only [stepBitscan, if_true, Option.bind_eq_bind, Option.bind_eq_some_iff, Option.pure_def, Option.some.injEq] at hs
  obtain ⟨a, _, s1, _, rfl⟩ := hs
  have := h.fl .cf _ rfl
  simp [St.undef, St.setF, St.setPf, St.getF] at this

theorem body_aligned {k : Str} {z : Sz} {ax : Val z.bits} {si di : BitVec 64} {x : St × Val z.bits × Val z.bits}
    (e : strBody k z ax m (some si) (some di) = some x) :
    (k.hasSi = true → Aligned si z.bytes) ∧ (k.hasDi = true → Aligned di z.bytes) := by
  cases k <;> simp only [strBody, Option.bind_eq_bind, Option.bind_eq_some_iff] at e
  · obtain ⟨v, h1, -⟩ := e
    exact ⟨fun _ => load_aligned h1, (fun h => nomatch h)⟩
  · obtain ⟨v, h1, -⟩ := e
    exact ⟨(fun h => nomatch h), fun _ => store_aligned h1⟩
  · obtain ⟨v, h1, m1, h2, -⟩ := e
    exact ⟨fun _ => load_aligned h1, fun _ => store_aligned h2⟩
  · obtain ⟨v, h1, -⟩ := e
    exact ⟨(fun h => nomatch h), fun _ => load_aligned h1⟩
  · obtain ⟨v, h1, w, h2, -⟩ := e
    exact ⟨fun _ => load_aligned h1, fun _ => load_aligned h2⟩

/-- The lifted code of a string instruction that accesses memory has no undefined behaviour only with aligned pointers. -/
theorem str_aligned (h : Rel slide m s) (k : Str) (z : Sz) (rep : Rep) (hc : rep = .none ∨ s.gp rcx ≠ 0)
    (hr : rep = .repnz → k.isCmp = true) (e : liftStr m k z rep = some m') : StrAligned s k z := by
  unfold liftStr at e
  split at e
  · rename_i hk
    obtain ⟨rfl, -, rfl⟩ := hk
    exact ⟨(fun h => nomatch h), fun _ => Nat.mod_one _⟩
  · split at e
    · simp only [h.gp, Option.bind_eq_bind, Option.bind_eq_some_iff] at e
      obtain ⟨x, h1, -⟩ := e
      exact body_aligned h1
    · rename_i hno
      simp only [h.gp] at e
      have hn : s.gp rcx ≠ 0 := by
        rcases hc with rfl | h1
        · exact absurd rfl hno
        · exact h1
      rw [if_neg hn] at e
      simp only [Option.bind_eq_bind, Option.bind_eq_some_iff] at e
      obtain ⟨x, h1, -⟩ := e
      have : ∃ n, (s.gp rcx).toNat = n + 1 := by
        cases h2 : (s.gp rcx).toNat with
        | zero => exact absurd (BitVec.eq_of_toNat_eq (by simpa using h2)) hn
        | succ n => exact ⟨n, rfl⟩
      obtain ⟨n, hn2⟩ := this
      rw [hn2] at h1
      simp only [repLoop, Option.bind_eq_bind, Option.bind_eq_some_iff] at h1
      obtain ⟨y, h1, -⟩ := h1
      exact body_aligned h1

/-- String instructions: right exactly if the pointers are aligned to the element size, or nothing is to be done (where REP STOSB
still needs DF). -/
def StrExact (s : S) (k : Str) (z : Sz) (rep : Rep) : Prop :=
  if rep ≠ .none ∧ s.gp rcx = 0 then k = .stos ∧ z = .b → ∃ df, s.fl .df = some df else StrAligned s k z

theorem str_exact (k : Str) (z : Sz) (rep : Rep) (hs : step (.str k z rep false .none) len s = some s') :
    Simulates cfg slide (.str k z rep false .none) len s s' ↔ StrExact s k z rep := by
  have hs0 : stepStr (s.nx len) k z rep false .none = some s' := hs
  have hnz : rep = .repnz → k.isCmp = true := by
    rintro rfl
    cases hk : k.isCmp with
    | true => rfl
    | false => simp [stepStr, hk] at hs0
  have hrun : Simulates cfg slide (.str k z rep false .none) len s s' →
      ∃ m', liftStr ((s.nx len).rep slide) k z rep = some m' := by
    intro hsim
    obtain ⟨m', e, -⟩ := hsim.run (fun m => liftStr m k z rep) (fun _ _ => rfl)
    exact ⟨m', e⟩
  have hdf : ∀ t, strStep (s.nx len) k z false .none = some t → ∃ df, s.fl .df = some df := by
    intro t ht
    simp only [strStep, Option.bind_eq_bind, Option.bind_eq_some_iff] at ht
    obtain ⟨df, h1, -⟩ := ht
    exact ⟨df, h1⟩
  unfold StrExact
  by_cases hz : rep ≠ .none ∧ s.gp rcx = 0
  · rw [if_pos hz]
    obtain ⟨h1, h2⟩ := hz
    -- the instruction does nothing
    have hs1 : s' = s.nx len := by
      have hp : (s.nx len).ptr false rcx = 0 := h2
      cases rep with
      | none => exact absurd rfl h1
      | rep =>
        simp only [stepStr, reduceCtorEq, false_and, if_false, hp] at hs0
        unfold repStep at hs0
        rw [if_pos hp] at hs0
        exact (Option.some.inj hs0).symm
      | repnz =>
        simp only [stepStr, hnz rfl, reduceCtorEq, and_false, if_false, hp, Bool.true_eq_false] at hs0
        unfold repStep at hs0
        rw [if_pos hp] at hs0
        exact (Option.some.inj hs0).symm
    constructor
    · rintro hsim ⟨rfl, rfl⟩
      obtain ⟨m', e⟩ := hrun hsim
      cases rep with
      | none => exact absurd rfl h1
      | repnz => exact absurd (hnz rfl) (by decide)
      | rep =>
        simp only [liftStr, and_self, if_true] at e
        cases hd : s.fl .df with
        | some b => exact ⟨b, rfl⟩
        | none => simp [S.rep, St.getF, hd] at e
    · intro hd
      by_cases hk : k = .stos ∧ z = .b
      · obtain ⟨rfl, rfl⟩ := hk
        exact sim_str _ _ _ (hd ⟨rfl, rfl⟩) ⟨(fun h => nomatch h), fun _ => Nat.mod_one _⟩ hs
      · rw [hs1]
        refine .of_body (fun m => liftStr m k z rep) (fun _ _ => rfl) (fun m h => ?_)
        have hno : repMode k rep ≠ .no := by
          cases rep with
          | none => exact absurd rfl h1
          | rep => cases k <;> decide
          | repnz =>
            have := hnz rfl
            cases k <;> first | decide | cases this
        have hg : m.gp rcx = some 0 := by rw [h.gp, ← h2]
        have hn : ¬ (k = .stos ∧ rep = .rep ∧ z = .b) := fun ⟨a, _, c⟩ => hk ⟨a, c⟩
        have e : liftStr m k z rep = some (if k.isCmp then m.setF .pf (IR.not (m.getF .pf)) else m) := by
          unfold liftStr
          rw [if_neg hn]
          split
          · rename_i h3; exact absurd h3 hno
          · rw [hg]; rfl
        refine ⟨_, e, ?_⟩
        split
        · exact h.reencode
        · exact h
  · rw [if_neg hz]
    have hc : rep = .none ∨ s.gp rcx ≠ 0 := by
      by_cases h : rep = .none
      · exact .inl h
      · exact .inr (fun h2 => hz ⟨h, h2⟩)
    constructor
    · intro hsim
      obtain ⟨m', e⟩ := hrun hsim
      exact str_aligned (rep_rel slide (s.nx len)) k z rep hc hnz e
    · intro ha
      refine sim_str k z rep ?_ ha hs
      by_cases hn : rep = .none
      · subst hn
        exact hdf _ hs0
      · have h2 : s.gp rcx ≠ 0 := hc.resolve_left hn
        have h3 : ∃ n t, repStep k z rep false .none n (s.nx len) = some t := by
          cases rep with
          | none => exact absurd rfl hn
          | rep =>
            simp only [stepStr, reduceCtorEq, false_and, if_false] at hs0
            exact ⟨_, _, hs0⟩
          | repnz =>
            simp only [stepStr, hnz rfl, and_false, if_false, Bool.true_eq_false] at hs0
            exact ⟨_, _, hs0⟩
        obtain ⟨n, t, h3⟩ := h3
        unfold repStep at h3
        have hp : (s.nx len).ptr false rcx ≠ 0 := h2
        rw [if_neg hp] at h3
        cases n with
        | zero => cases h3
        | succ n =>
          simp only [Option.bind_eq_bind, Option.bind_eq_some_iff] at h3
          obtain ⟨t1, h3, -⟩ := h3
          exact hdf _ h3

/-! ### ADC and SBB -/

theorem adc_wrong {w : Nat} (hw : 4 < w) (a b : BitVec w) :
    (b = BitVec.allOnes w → addCf a (b + 1#w) false ≠ addCf a b true ∧ subCf a (b + 1#w) false ≠ subCf a b true) ∧
    (b = BitVec.intMax w → addOf a (b + 1#w) false ≠ addOf a b true ∧ subOf a (b + 1#w) false ≠ subOf a b true) ∧
    (b.toNat % 16 = 15 → addAf a (b + 1#w) false ≠ addAf a b true ∧ subAf a (b + 1#w) false ≠ subAf a b true) := by
  have hp := Nat.two_pow_pos w
  have h1 : (1#w).toNat = 1 := by
    rw [BitVec.toNat_ofNat, Nat.mod_eq_of_lt (Nat.one_lt_two_pow (by omega))]
  refine ⟨fun h => ?_, fun h => ?_, fun h => ?_⟩
  · have e : (b + 1#w).toNat = 0 := by
      rw [BitVec.toNat_add, h1, h, BitVec.toNat_allOnes, Nat.sub_add_cancel hp, Nat.mod_self]
    have e2 : b.toNat = 2 ^ w - 1 := by rw [h, BitVec.toNat_allOnes]
    have := a.isLt
    simp only [addCf, subCf, e, e2, Bool.toNat_true, Bool.toNat_false, ne_eq, decide_eq_decide]
    omega
  · have e0 : (2 : Int) ^ w = 2 * 2 ^ (w - 1) := by rw [← Int.pow_succ', Nat.sub_add_cancel (by omega)]
    have e2 : b.toInt = 2 ^ (w - 1) - 1 := by rw [h, BitVec.toInt_intMax]
    have e : (b + 1#w).toInt = - 2 ^ (w - 1) := by
      rw [BitVec.toInt_add, e2, BitVec.toInt_one (by omega), Int.sub_add_cancel]
      have hb : ((2 ^ w : Nat) : Int) = 2 * 2 ^ (w - 1) := by push_cast; exact e0
      have h0 : (0 : Int) < 2 ^ (w - 1) := Int.pow_pos (by decide)
      rw [Int.bmod_def, hb]
      have : (2 : Int) ^ (w - 1) % (2 * 2 ^ (w - 1)) = 2 ^ (w - 1) := Int.emod_eq_of_lt (by omega) (by omega)
      rw [this]
      split <;> omega
    have l1 := @BitVec.two_mul_toInt_lt w a
    have l2 := @BitVec.le_two_mul_toInt w a
    rw [e0] at l1 l2
    have h0 : (0 : Int) < 2 ^ (w - 1) := Int.pow_pos (by decide)
    simp only [addOf, subOf, sOver, e, e2, Bool.toInt_true, Bool.toInt_false, ne_eq, decide_eq_decide]
    omega
  · have hd : 2 ^ w % 16 = 0 := by
      obtain ⟨k, rfl⟩ : ∃ k, w = k + 4 := ⟨w - 4, by omega⟩
      rw [Nat.pow_add]; omega
    have e : (b + 1#w).toNat % 16 = 0 := by
      rw [BitVec.toNat_add, h1, Nat.mod_mod_of_dvd _ (Nat.dvd_of_mod_eq_zero hd)]
      omega
    simp only [addAf, subAf, e, h, Bool.toNat_true, Bool.toNat_false, ne_eq, decide_eq_decide]
    omega

/-- What the code of ADC and SBB computes: the flags are those of adding or subtracting the sum of the second operand and the carry. -/
theorem raw_adc (h : Rel slide m s) (sub : Bool) (z : Sz) (lock : Bool) (d r : Op) (hd : Op.plain d = true) (hr : Op.plain r = true)
    (hl : LockOk s z lock d) {a b : BitVec z.bits} {c : Bool} (ha : s.read z d = some a) (hb : s.read z r = some b)
    (hc : s.fl .cf = some c) {s1 : S} (hw : s.write z d (if sub then a - (b + BitVec.ofNat _ c.toNat) else
      a + (b + BitVec.ofNat _ c.toNat)) = some s1) :
    ∃ m', liftArith cfg slide m (if sub then .sbb else .adc) z lock d r = some m' ∧
      Rel slide m' (if sub then s1.subFl a (b + BitVec.ofNat _ c.toNat) false else s1.addFl a (b + BitVec.ofNat _ c.toNat) false) := by
  have hb' := h.opLoad z r b hr hb
  have hop2 : IR.add (some b) (zext z.bits (m.getF .cf)) = some (b + BitVec.ofNat z.bits c.toNat) := by
    rw [h.getFl hc, zext_some, add_some, ofBool_setWidth]
  cases sub with
  | false =>
    obtain ⟨m1, m2, h1, h2, h3⟩ := h.rmw z lock d hd hl (fun x => IR.add x (some (b + BitVec.ofNat z.bits c.toNat))) a _ ha
      (by rw [add_some]; rfl) hw
    have hf := h3.flagAdd cfg (bits_gt z) a (b + BitVec.ofNat z.bits c.toNat) false
    refine ⟨_, ?_, (show Rel slide (flagAdd cfg m2 (some (a + (b + BitVec.ofNat z.bits c.toNat))) (some a)
      (some (b + BitVec.ofNat z.bits c.toNat))) (s1.addFl a (b + BitVec.ofNat z.bits c.toNat) false) by
        simpa [S.addFl] using hf)⟩
    simp [opStoreIf] at h2
    simp [liftArith, hb', hop2, h1, h2, opStoreIf, add_some]
  | true =>
    obtain ⟨m1, m2, h1, h2, h3⟩ := h.rmw z lock d hd hl (fun x => IR.sub x (some (b + BitVec.ofNat z.bits c.toNat))) a _ ha
      (by rw [sub_some]; rfl) hw
    have hf := h3.flagSub (bits_gt z) a (b + BitVec.ofNat z.bits c.toNat) false false
    refine ⟨_, ?_, (show Rel slide (flagSub m2 (some (a - (b + BitVec.ofNat z.bits c.toNat))) (some a)
      (some (b + BitVec.ofNat z.bits c.toNat))) (s1.subFl a (b + BitVec.ofNat z.bits c.toNat) false) by
        simpa [S.subFl] using hf)⟩
    simp [opStoreIf] at h2
    simp [liftArith, hb', hop2, h1, h2, opStoreIf, sub_some]

/-- The lifted code of ADC and SBB is right if and only if none of the flags named by `adcBad` is concerned: it is wrong whenever CF is
set and the second operand has all bits set (CF), is the greatest positive number (OF) or ends in the hexadecimal digit F (AF). -/
theorem adc_exact (sub : Bool) (z : Sz) (lock : Bool) (d r : Op) (hd : Op.plain d = true) (hr : Op.plain r = true)
    (hl : LockOk (s.nx len) z lock d) (hs : step (.arith (if sub then .sbb else .adc) z lock d r) len s = some s') :
    Simulates cfg slide (.arith (if sub then .sbb else .adc) z lock d r) len s s' ↔
      ∀ f, adcBad (s.nx len) (if sub then .sbb else .adc) z r f = false := by
  constructor
  · intro hsim f
    have hs2 : stepArith (s.nx len) (if sub then .sbb else .adc) z d r = some s' := hs
    obtain ⟨m', e, hr1⟩ := hsim.run (fun m => liftArith cfg slide m (if sub then .sbb else .adc) z lock d r) (fun _ _ => rfl)
    simp only [stepArith, Option.bind_eq_bind, Option.bind_eq_some_iff] at hs2
    obtain ⟨a, ha, b, hb, hs2⟩ := hs2
    have hfl := adc_wrong (bits_gt z) a b
    cases sub with
    | false =>
      simp only [Bool.false_eq_true, if_false, Option.bind_eq_bind, Option.bind_eq_some_iff] at hs2
      obtain ⟨c, hc, s1, hw, hs2⟩ := hs2
      cases hs2
      obtain ⟨m2, e2, hr2⟩ := raw_adc (cfg := cfg) (rep_rel slide (s.nx len)) false z lock d r hd hr hl ha hb hc
        (s1 := s1) (by simpa [BitVec.add_assoc] using hw)
      simp only [Bool.false_eq_true, if_false] at e e2 hr2
      rw [e] at e2
      cases e2
      unfold adcBad
      rw [hb, hc]
      cases c with
      | false => rfl
      | true =>
        have e1 : BitVec.ofNat z.bits true.toNat = 1#z.bits := rfl
        rw [e1] at hr2
        have hag : ∀ f x y, (s1.addFl a b true).fl f = some x → (s1.addFl a (b + 1#z.bits) false).fl f = some y → x = y := by
          intro f x y hx hy
          have := (hr1.getFl hx).symm.trans (hr2.getFl hy)
          cases x <;> cases y <;> simp_all
        cases f with
        | cf =>
          cases hbb : (b == BitVec.allOnes z.bits) with
          | false => simp [hbb]
          | true => exact absurd (hag .cf _ _ rfl rfl).symm (hfl.1 (by simpa using hbb)).1
        | of =>
          cases hbb : (b == BitVec.intMax z.bits) with
          | false => simp [hbb]
          | true => exact absurd (hag .of _ _ rfl rfl).symm (hfl.2.1 (by simpa using hbb)).1
        | af =>
          cases hbb : (b.toNat % 16 == 15) with
          | false => simp [hbb]
          | true => exact absurd (hag .af _ _ rfl rfl).symm (hfl.2.2 (by simpa using hbb)).1
        | _ => rfl
    | true =>
      simp only [if_true, Option.bind_eq_bind, Option.bind_eq_some_iff] at hs2
      obtain ⟨c, hc, s1, hw, hs2⟩ := hs2
      cases hs2
      have e0 : ∀ x : BitVec z.bits, a - (b + x) = a - b - x := by
        intro x
        rw [BitVec.sub_eq_add_neg, BitVec.neg_add, BitVec.sub_eq_add_neg, BitVec.sub_eq_add_neg,
          BitVec.sub_eq_add_neg, BitVec.add_assoc]
      obtain ⟨m2, e2, hr2⟩ := raw_adc (cfg := cfg) (rep_rel slide (s.nx len)) true z lock d r hd hr hl ha hb hc
        (s1 := s1) (by simpa only [if_true, e0] using hw)
      simp only [if_true] at e e2 hr2
      rw [e] at e2
      cases e2
      unfold adcBad
      rw [hb, hc]
      cases c with
      | false => rfl
      | true =>
        have e1 : BitVec.ofNat z.bits true.toNat = 1#z.bits := rfl
        rw [e1] at hr2
        have hag : ∀ f x y, (s1.subFl a b true).fl f = some x → (s1.subFl a (b + 1#z.bits) false).fl f = some y → x = y := by
          intro f x y hx hy
          have := (hr1.getFl hx).symm.trans (hr2.getFl hy)
          cases x <;> cases y <;> simp_all
        cases f with
        | cf =>
          cases hbb : (b == BitVec.allOnes z.bits) with
          | false => simp [hbb]
          | true => exact absurd (hag .cf _ _ rfl rfl).symm (hfl.1 (by simpa using hbb)).2
        | of =>
          cases hbb : (b == BitVec.intMax z.bits) with
          | false => simp [hbb]
          | true => exact absurd (hag .of _ _ rfl rfl).symm (hfl.2.1 (by simpa using hbb)).2
        | af =>
          cases hbb : (b.toNat % 16 == 15) with
          | false => simp [hbb]
          | true => exact absurd (hag .af _ _ rfl rfl).symm (hfl.2.2 (by simpa using hbb)).2
        | _ => rfl
  · intro h
    have := C19_adc_sbb_partial (cfg := cfg) (slide := slide) (if sub then .sbb else .adc) (by cases sub <;> simp) z lock d r hd hr hl hs
    have e : s'.forget (adcBad (s.nx len) (if sub then .sbb else .adc) z r) = s' := by simp [S.forget, h]
    rwa [e] at this

/-! ### All instructions -/

/-- General-purpose instructions; string instructions with 64-bit addresses and without segment override only. -/
def general : Instr → Bool
  | .sse _ => false
  | .str _ _ _ a32 seg => !a32 && seg == .none
  | _ => true

/-- What the lifter believes to know about the upper half of a dividend is true. -/
def HighTrue (s : S) (z : Sz) : High → Prop
  | .unknown => True
  | .null => s.reg rdx z = 0
  | .ashr none => True
  | .ashr (some k) => s.reg rdx z = (s.reg rax z).sshiftRight k

/-- Instructions as the decoder delivers them: encodable operands, a LOCK prefix only where it is allowed, and correct knowledge about
a dividend. -/
def WellFormed (s : S) : Instr → Prop
  | .mov _ _ d r | .movbe _ d r | .popcnt _ d r | .cmov _ _ d r | .shift _ _ d r | .rotate _ _ d r => Op.wf d ∧ Op.wf r
  | .movzx z sz d r => sz.bits ≤ z.bits ∧ Op.wf d ∧ Op.wf r
  | .bswap _ d | .setcc _ d | .not _ _ d | .neg _ _ d | .incdec _ _ _ d | .mul1 _ _ d | .push _ d | .pop _ d | .jmp d
  | .call d => Op.wf d
  | .arith k _ lock d r => Op.wf d ∧ Op.wf r ∧ (lock = true → k ≠ .cmp) ∧ (k = .xadd → ∀ o, r ≠ .mem o)
  | .cmpxchg _ _ d r => Op.wf d ∧ Op.wf r
  | .xchg _ d r => Op.wf d ∧ ∀ o, r ≠ .mem o
  | .logic k _ lock d r => Op.wf d ∧ Op.wf r ∧ (lock = true → k ≠ .test ∧ ∃ o, d = .mem o)
  | .shiftd _ _ d r c => Op.wf d ∧ Op.wf r ∧ Op.wf c ∧ ∀ v, d ≠ .imm v
  | .imul2 _ d r t => Op.wf d ∧ Op.wf r ∧ Op.wf t
  | .div _ z r high => Op.wf r ∧ (z ≠ .b → HighTrue s z high)
  | .lea _ d o => Op.wf d ∧ (o.base = .ip → o.idx = none)
  | .bitscan _ _ _ d r => (∃ x, d = .reg x) ∧ Op.wf r
  | .bittest k _ lock d r => Op.wf d ∧ ((∃ x, r = .reg x) ∨ ∃ v, r = .imm v) ∧ (lock = true → k ≠ .bt)
  | _ => True

/-- Where the lifted code of the general-purpose instructions is right.  `Op.plain`: the lifter has code for the operand; `LockOk`:
atomic accesses are aligned. -/
def Exact (len : Nat) (s : S) : Instr → Prop
  | .mov _ _ d r | .movzx _ _ d r | .movbe _ d r | .popcnt _ d r | .cmov _ _ d r | .shift _ _ d r | .rotate _ _ d r =>
    Op.plain d = true ∧ Op.plain r = true
  | .bswap _ d | .setcc _ d | .mul1 _ _ d => Op.plain d = true
  | .arith k z lock d r => Op.plain d = true ∧ Op.plain r = true ∧ LockOk (s.nx len) z lock d ∧
    (k = .xadd → d = r → (s.nx len).read z d = some 0)
  | .cmpxchg z lock d r => (Op.plain d = true ∧ Op.plain r = true ∧ LockOk (s.nx len) z lock d) ∧
    if d = .reg rax then (s.nx len).read z r = some (s.reg rax z)
    else (z = .d → (s.nx len).read z d = some (s.reg rax z) → s.gp rax = ((s.gp rax).setWidth 32).setWidth 64)
  | .xchg z d _ => Op.plain d = true ∧ ∀ o, d = .mem o → ((s.nx len).ea o).toNat % z.bytes = 0
  | .logic _ z lock d r => Op.plain d = true ∧ Op.plain r = true ∧ LockOk (s.nx len) z lock d
  | .not z lock d | .incdec _ z lock d => Op.plain d = true ∧ LockOk (s.nx len) z lock d
  | .neg _ lock d => lock = false ∧ Op.plain d = true
  | .shiftd _ z d r c => (Op.plain d = true ∧ Op.plain r = true ∧ Op.plain c = true) ∧
    ∀ cv, (s.nx len).read .b c = some cv → (count z cv = 0 → UpperZero (s.nx len) z d) ∧
      (count z cv = z.bits → (s.nx len).read z d = (s.nx len).read z r)
  | .imul2 _ d r t => Op.plain d = true ∧ Op.plain r = true ∧ Op.plain t = true
  | .div signed z r high => Op.plain r = true ∧ ¬ (z ≠ .b ∧ signed = true ∧ high = .ashr none)
  | .lea z d o => Op.plain d = true ∧ (o.base = .ip →
    ((s.nx len).offset o).setWidth z.bits = ((s.nx len).offset (MemOp.a64 o)).setWidth z.bits)
  | .xlat a32 seg => s.mem (s.xlatEa a32 seg) = s.mem (s.xlatLifted a32)
  | .bitscan _ cnt _ _ r => cnt = false ∧ Op.plain r = true
  | .bittest _ z lock d r => Op.plain d = true ∧ (lock = true → ∃ o, d = .mem o) ∧
    ∀ o i, d = .mem o → (s.nx len).read z r = some i → (bitAddr (s.nx len) z o r i).toNat % z.bytes = 0
  | .jmp r => Op.plain (Op.noSeg r) = true ∧ (s.nx len).read .q r = (s.nx len).read .q (Op.noSeg r)
  | .call r => (Op.plain (Op.noSeg r) = true ∧ (s.nx len).read .q r = (s.nx len).read .q (Op.noSeg r)) ∧ Aligned (s.gp rsp) 8
  | .callRel _ | .ret _ => Aligned (s.gp rsp) 8
  | .push z r => Op.plain r = true ∧ Aligned (s.gp rsp) z.bytes
  | .pop z d => z = .q ∧ Op.plain d = true ∧ Aligned (s.gp rsp) 8
  | .pushf z => Aligned (s.gp rsp) z.bytes
  | .popf z => z = .q ∧ Aligned (s.gp rsp) 8
  | .leave => Aligned (s.gp rbp) 8
  | .lahf => (∃ b, s.fl .df = some b) ∧ ∃ b, s.fl .of = some b
  | .str k z rep _ _ => StrExact s k z rep
  | _ => True

theorem forget_nothing {i : Instr} {P : Flag → Bool} (hP : ∀ f, P f = false) :
    Simulates cfg slide i len s (s'.forget P) ↔ Simulates cfg slide i len s s' := by
  have : s'.forget P = s' := by simp [S.forget, hP]
  rw [this]

theorem bittest_ok (hm : Rel slide m s) {k : BitOp} {z : Sz} {lock : Bool} {d r : Op} (hd : Op.wf d)
    (hr : (∃ x, r = .reg x) ∨ ∃ v, r = .imm v) (h : liftBittest slide m k z lock d r = some m') :
    Op.plain d = true ∧ (lock = true → ∃ o, d = .mem o) ∧
      ∀ o i, d = .mem o → s.read z r = some i → (bitAddr s z o r i).toNat % z.bytes = 0 := by
  unfold liftBittest at h
  split at h
  · cases h
  simp only [Option.bind_eq_bind, Option.bind_eq_some_iff] at h
  obtain ⟨j, hj, x, h, -⟩ := h
  cases d with
  | mem o =>
    simp only [btAccess, btAddr, Option.bind_eq_bind, Option.bind_eq_some_iff] at h
    obtain ⟨a, ⟨b, h1, h2⟩, v, h3, -⟩ := h
    have hp := addr_plain hd h1
    rw [opAddr_plain hm o hp, Option.some.injEq] at h1
    subst h1
    refine ⟨hp, fun _ => ⟨o, rfl⟩, ?_⟩
    intro o' i ho hi
    cases ho
    rcases hr with ⟨y, rfl⟩ | ⟨y, rfl⟩
    · have hji : j = some i := by
        have := hm.opLoad z (.reg y) i rfl hi
        simp only [btIndex, this, Option.some.injEq] at hj
        exact hj.symm
      have hlg : (BitVec.ofNat z.bits z.lg).toNat = z.lg := by apply ofNat_toNat_lt; cases z <;> decide
      have hll : z.lg < z.bits := by cases z <;> decide
      simp only [hji, ashr_some, hlg, if_pos hll, sext_some, mul_some, add_some, bt_disp, Option.some.injEq] at h2
      subst h2
      exact load_aligned h3
    · simp only [Option.some.injEq] at h2
      subst h2
      exact load_aligned h3
  | _ =>
    refine ⟨rfl, fun hl => ?_, fun _ _ ho => nomatch ho⟩
    subst hl
    simp [btAccess] at h

/-- The lifted code of a specified general-purpose instruction is right, up to the flags left out in `after`, if and only if `Exact`
holds. -/
theorem X86_exact (i : Instr) (hg : general i = true) (hw : WellFormed s i) (hf : cfg.callFunction = none)
    (hs : step i len s = some s') : Simulates cfg slide i len s (after cfg len s s' i) ↔ Exact len s i := by
  have hrel := rep_rel slide (s.nx len)
  cases i with
  | sse i => cases hg
  | nop | jmpRel _ | jcc _ _ | jcxz _ _ | loop _ _ _ | cext _ | csep _ | sahf | clc | stc | cmc | cld | std | cpuid | rdtsc | ctl _ _
  | syscall | unknown => exact ⟨fun _ => trivial, fun _ => X86_instruction_partial _ trivial hs⟩
  | mov z sz d r =>
    refine ⟨fun h => ?_, fun h => X86_instruction_partial _ h hs⟩
    obtain ⟨m', e, -⟩ := h.run (fun m => liftMov slide m z sz d r) (fun _ _ => rfl)
    simp only [liftMov, Option.bind_eq_bind, Option.bind_eq_some_iff] at e
    obtain ⟨v, e1, e2⟩ := e
    exact ⟨store_plain hw.1 e2, load_plain hw.2 e1⟩
  | movzx z sz d r =>
    refine ⟨fun h => ?_, fun h => X86_instruction_partial _ ⟨hw.1, h⟩ hs⟩
    obtain ⟨m', e, -⟩ := h.run (fun m => liftMovzx slide m z sz d r) (fun _ _ => rfl)
    simp only [liftMovzx, Option.bind_eq_bind, Option.bind_eq_some_iff] at e
    obtain ⟨v, e1, e2⟩ := e
    refine ⟨?_, load_plain hw.2.2 e1⟩
    split at e2
    · rfl
    · rfl
    · exact store_plain hw.2.1 e2
  | movbe z d r =>
    refine ⟨fun h => ?_, fun h => X86_instruction_partial _ h hs⟩
    obtain ⟨m', e, -⟩ := h.run (fun m => liftMovbe slide m z d r) (fun _ _ => rfl)
    simp only [liftMovbe, Option.bind_eq_bind, Option.bind_eq_some_iff] at e
    obtain ⟨v, e1, e2⟩ := e
    exact ⟨store_plain hw.1 e2, load_plain hw.2 e1⟩
  | bswap z d =>
    refine ⟨fun h => ?_, fun h => X86_instruction_partial _ h hs⟩
    obtain ⟨m', e, -⟩ := h.run (fun m => liftMovbe slide m z d d) (fun _ _ => rfl)
    simp only [liftMovbe, Option.bind_eq_bind, Option.bind_eq_some_iff] at e
    obtain ⟨v, e1, e2⟩ := e
    exact load_plain hw e1
  | arith k z lock d r =>
    have hpart : Simulates cfg slide (.arith k z lock d r) len s (after cfg len s s' (.arith k z lock d r)) →
        Op.plain d = true ∧ Op.plain r = true ∧ LockOk (s.nx len) z lock d := by
      intro h
      obtain ⟨m', e, -⟩ := h.run (fun m => liftArith cfg slide m k z lock d r) (fun _ _ => rfl)
      simp only [liftArith, Option.bind_eq_bind, Option.bind_eq_some_iff] at e
      obtain ⟨v, e1, x, e2, -⟩ := e
      obtain ⟨h1, h2⟩ := rmw_ok hrel hw.1 e2
      exact ⟨h1, load_plain hw.2.1 e1, h2⟩
    by_cases hk : k = .xadd ∧ d = r
    · obtain ⟨rfl, rfl⟩ := hk
      have hm := hw.2.2.2 rfl
      have hx : ∀ f, adcBad (s.nx len) .xadd z d f = false := by intro f; simp only [adcBad]; split <;> rfl
      constructor
      · intro h
        obtain ⟨h1, h2, h3⟩ := hpart h
        have hl : lock = false := by
          cases lock with
          | false => rfl
          | true =>
            obtain ⟨o, ho, -⟩ := h3 rfl
            exact absurd ho (hm o)
        subst hl
        refine ⟨h1, h2, h3, fun _ _ => ?_⟩
        exact (xadd_same_exact z d hm hs).1 ((forget_nothing hx).1 h)
      · rintro ⟨h1, h2, h3, h4⟩
        have hl : lock = false := by
          cases lock with
          | false => rfl
          | true =>
            obtain ⟨o, ho, -⟩ := h3 rfl
            exact absurd ho (hm o)
        subst hl
        exact (forget_nothing hx).2 ((xadd_same_exact z d hm hs).2 (h4 rfl rfl))
    · constructor
      · intro h
        obtain ⟨h1, h2, h3⟩ := hpart h
        exact ⟨h1, h2, h3, fun a b => absurd ⟨a, b⟩ hk⟩
      · rintro ⟨h1, h2, h3, -⟩
        refine X86_instruction_partial _ ⟨h1, h3, ?_⟩ hs
        split
        · rename_i he
          exact ⟨hw.2.2.2 he, fun hd => hk ⟨he, hd⟩⟩
        · exact ⟨h2, hw.2.2.1⟩
  | cmpxchg z lock d r =>
    have hpart : Simulates cfg slide (.cmpxchg z lock d r) len s s' →
        Op.plain d = true ∧ Op.plain r = true ∧ LockOk (s.nx len) z lock d := by
      intro h
      obtain ⟨m', e, -⟩ := h.run (fun m => liftCmpxchg slide m z lock d r) (fun _ _ => rfl)
      simp only [liftCmpxchg, Option.bind_eq_bind, Option.bind_eq_some_iff] at e
      obtain ⟨v, e1, e2⟩ := e
      cases lock with
      | true =>
        simp only [if_true, Option.bind_eq_some_iff] at e2
        obtain ⟨x, e2, -⟩ := e2
        obtain ⟨h1, h2⟩ := atomic_ok hrel hw.1 e2
        exact ⟨h1, load_plain hw.2 e1, fun _ => h2⟩
      | false =>
        simp only [Bool.false_eq_true, if_false, Option.bind_eq_some_iff] at e2
        obtain ⟨x, e2, -⟩ := e2
        exact ⟨load_plain hw.1 e2, load_plain hw.2 e1, fun h => nomatch h⟩
    constructor
    · intro h
      obtain ⟨h1, h2, h3⟩ := hpart h
      exact ⟨⟨h1, h2, h3⟩, (cmpxchg_exact z lock d r h1 h2 h3 hs).1 h⟩
    · rintro ⟨⟨h1, h2, h3⟩, h4⟩
      exact (cmpxchg_exact z lock d r h1 h2 h3 hs).2 h4
  | xchg z d r =>
    refine ⟨fun h => ?_, fun h => X86_instruction_partial _ ⟨h.1, hw.2, h.2⟩ hs⟩
    obtain ⟨m', e, -⟩ := h.run (fun m => liftXchg slide m z d r) (fun _ _ => rfl)
    simp only [liftXchg, Option.bind_eq_bind, Option.bind_eq_some_iff] at e
    obtain ⟨v, e1, e2⟩ := e
    cases d with
    | mem o =>
      simp only [Option.bind_eq_some_iff] at e2
      obtain ⟨x, e2, -⟩ := e2
      obtain ⟨h1, o', ho, h2⟩ := atomic_ok hrel hw.1 e2
      cases ho
      exact ⟨h1, fun o ho => by cases ho; exact h2⟩
    | _ => exact ⟨rfl, fun o ho => nomatch ho⟩
  | logic k z lock d r =>
    refine ⟨fun h => ?_, fun h => X86_instruction_partial _ ⟨h.1, h.2.1, h.2.2, fun hl => (hw.2.2 hl).1⟩ hs⟩
    obtain ⟨m', e, -⟩ := h.run (fun m => liftLogic slide m k z lock d r) (fun _ _ => rfl)
    simp only [liftLogic] at e
    split at e
    · rename_i hx
      obtain ⟨rfl, hsr, -⟩ := hx
      cases d with
      | reg x =>
        cases r with
        | reg y => exact ⟨rfl, rfl, fun hl => by obtain ⟨-, o, ho⟩ := hw.2.2 hl; cases ho⟩
        | _ => cases hsr
      | _ => cases hsr
    · simp only [Option.bind_eq_bind, Option.bind_eq_some_iff] at e
      obtain ⟨v, e1, x, e2, -⟩ := e
      obtain ⟨h1, h2⟩ := rmw_ok hrel hw.1 e2
      exact ⟨h1, load_plain hw.2.1 e1, h2⟩
  | not z lock d =>
    refine ⟨fun h => ?_, fun h => X86_instruction_partial _ h hs⟩
    obtain ⟨m', e, -⟩ := h.run (fun m => liftNot slide m z lock d) (fun _ _ => rfl)
    unfold liftNot at e
    cases lock with
    | true =>
      simp only [if_true, Option.map_eq_some_iff] at e
      obtain ⟨x, e, -⟩ := e
      obtain ⟨h1, h2⟩ := atomic_ok hrel hw e
      exact ⟨h1, fun _ => h2⟩
    | false =>
      simp only [Bool.false_eq_true, if_false, Option.bind_eq_bind, Option.bind_eq_some_iff] at e
      obtain ⟨x, e, -⟩ := e
      exact ⟨load_plain hw e, fun h => nomatch h⟩
  | neg z lock d =>
    refine ⟨fun h => ?_, fun h => X86_instruction_partial _ h hs⟩
    obtain ⟨m', e, -⟩ := h.run (fun m => liftNeg slide m z lock d) (fun _ _ => rfl)
    unfold liftNeg at e
    cases lock with
    | true => cases e
    | false =>
      simp only [Bool.false_eq_true, if_false, Option.bind_eq_bind, Option.bind_eq_some_iff] at e
      obtain ⟨x, e, -⟩ := e
      exact ⟨rfl, load_plain hw e⟩
  | incdec dec z lock d =>
    refine ⟨fun h => ?_, fun h => X86_instruction_partial _ h hs⟩
    obtain ⟨m', e, -⟩ := h.run (fun m => liftIncDec cfg slide m dec z lock d) (fun _ _ => rfl)
    simp only [liftIncDec, Option.bind_eq_bind, Option.bind_eq_some_iff] at e
    obtain ⟨x, e, -⟩ := e
    exact rmw_ok hrel hw e
  | shift k z d c =>
    refine ⟨fun h => ?_, fun h => X86_instruction_partial _ h hs⟩
    obtain ⟨m', e, -⟩ := h.run (fun m => liftShift slide m k z d c) (fun _ _ => rfl)
    simp only [liftShift, Option.bind_eq_bind, Option.bind_eq_some_iff] at e
    obtain ⟨x, e1, y, e2, -⟩ := e
    exact ⟨load_plain hw.1 e1, load_plain hw.2 e2⟩
  | rotate left z d c =>
    refine ⟨fun h => ?_, fun h => X86_instruction_partial _ h hs⟩
    obtain ⟨m', e, -⟩ := h.run (fun m => liftRotate slide m left z d c) (fun _ _ => rfl)
    simp only [liftRotate, Option.bind_eq_bind, Option.bind_eq_some_iff] at e
    obtain ⟨x, e1, y, e2, -⟩ := e
    exact ⟨load_plain hw.1 e1, load_plain hw.2 e2⟩
  | shiftd left z d r c =>
    have hcv : ∃ cv, (s.nx len).read .b c = some cv := by
      have h3 : stepShiftd (s.nx len) left z d r c = some s' := hs
      simp only [stepShiftd, Option.bind_eq_bind, Option.bind_eq_some_iff] at h3
      obtain ⟨_, _, _, _, cv, h4, _⟩ := h3
      exact ⟨cv, h4⟩
    obtain ⟨cv, hcv⟩ := hcv
    have ha : after cfg len s s' (.shiftd left z d r c) = s'.forget (if count z cv = 0 then status else cfof) := by
      simp only [after, hcv]
    rw [ha]
    constructor
    · intro h
      obtain ⟨m', e, -⟩ := h.run (fun m => liftShiftd slide m left z d r c) (fun _ _ => rfl)
      simp only [liftShiftd, Option.bind_eq_bind, Option.bind_eq_some_iff] at e
      obtain ⟨x, e1, y, e2, w, e3, -⟩ := e
      refine ⟨⟨load_plain hw.1 e1, load_plain hw.2.1 e2, load_plain hw.2.2.1 e3⟩, ?_⟩
      intro cv' hcv'
      rw [hcv] at hcv'
      cases hcv'
      exact (shiftd_exact left z d r c (load_plain hw.1 e1) (load_plain hw.2.1 e2) (load_plain hw.2.2.1 e3) cv hcv
        hw.2.2.2 hs).1 h
    · rintro ⟨⟨h1, h2, h3⟩, h4⟩
      exact (shiftd_exact left z d r c h1 h2 h3 cv hcv hw.2.2.2 hs).2 (h4 cv hcv)
  | mul1 signed z r =>
    refine ⟨fun h => ?_, fun h => X86_instruction_partial _ h hs⟩
    obtain ⟨m', e, -⟩ := h.run (fun m => liftMul1 cfg slide m signed z r) (fun _ _ => rfl)
    simp only [liftMul1, Option.bind_eq_bind, Option.bind_eq_some_iff] at e
    obtain ⟨x, e1, -⟩ := e
    exact load_plain hw e1
  | imul2 z d r t =>
    refine ⟨fun h => ?_, fun h => X86_instruction_partial _ h hs⟩
    obtain ⟨m', e, -⟩ := h.run (fun m => liftImul2 cfg slide m z d r t) (fun _ _ => rfl)
    simp only [liftImul2, Option.bind_eq_bind, Option.bind_eq_some_iff] at e
    obtain ⟨x, e1, y, e2, w, e3, -⟩ := e
    exact ⟨store_plain hw.1 e3, load_plain hw.2.1 e1, load_plain hw.2.2 e2⟩
  | div signed z r high =>
    constructor
    · intro h
      obtain ⟨m', e, -⟩ := h.run (fun m => liftDiv slide m signed z r high) (fun _ _ => rfl)
      simp only [liftDiv, Option.bind_eq_bind, Option.bind_eq_some_iff] at e
      obtain ⟨m1, e, -⟩ := e
      unfold divCore at e
      refine ⟨?_, ?_⟩
      · split at e
        · rename_i hz
          subst hz
          simp only [div8, Option.bind_eq_bind, Option.bind_eq_some_iff] at e
          obtain ⟨x, e1, -⟩ := e
          exact load_plain hw.1 e1
        · split at e
          · cases e
          · simp only [divLow, Option.bind_eq_bind, Option.bind_eq_some_iff] at e
            obtain ⟨x, e1, -⟩ := e
            exact load_plain hw.1 e1
          · simp only [divFull, Option.bind_eq_bind, Option.bind_eq_some_iff] at e
            obtain ⟨x, e1, -⟩ := e
            exact load_plain hw.1 e1
      · rintro ⟨hz, rfl, rfl⟩
        rw [if_neg hz] at e
        cases e
    · rintro ⟨h1, h2⟩
      refine X86_instruction_partial _ ⟨h1, fun hz => ?_⟩ hs
      have h3 := hw.2 hz
      cases high with
      | unknown => trivial
      | null => exact h3
      | ashr k =>
        cases k with
        | some k => exact h3
        | none =>
          cases signed with
          | false => rfl
          | true => exact absurd ⟨hz, rfl, rfl⟩ h2
  | lea z d o =>
    constructor
    · intro h
      obtain ⟨m', e, -⟩ := h.run (fun m => liftLea slide m z d o) (fun _ _ => rfl)
      unfold liftLea at e
      have hp := store_plain hw.1 e
      exact ⟨hp, fun ho => (lea_exact z d o hp ho (hw.2 ho) hs).1 h⟩
    · rintro ⟨hp, h⟩
      by_cases ho : o.base = .ip
      · exact (lea_exact z d o hp ho (hw.2 ho) hs).2 (h ho)
      · exact X86_instruction_partial _ ⟨hp, fun e => absurd e ho⟩ hs
  | xlat a32 seg => exact xlat_exact a32 seg hs
  | cmov c z d r =>
    refine ⟨fun h => ?_, fun h => X86_instruction_partial _ h hs⟩
    obtain ⟨m', e, -⟩ := h.run (fun m => liftCmov slide m c z d r) (fun _ _ => rfl)
    simp only [liftCmov, Option.bind_eq_bind, Option.bind_eq_some_iff] at e
    obtain ⟨v, e1, w, e2, -⟩ := e
    exact ⟨load_plain hw.1 e1, load_plain hw.2 e2⟩
  | setcc c d =>
    refine ⟨fun h => ?_, fun h => X86_instruction_partial _ h hs⟩
    obtain ⟨m', e, -⟩ := h.run (fun m => liftSetcc slide m c d) (fun _ _ => rfl)
    exact store_plain hw e
  | bitscan trailing cnt z d r =>
    cases cnt with
    | true => exact ⟨fun h => absurd h (bitcnt_wrong trailing z d r hs), fun h => nomatch h.1⟩
    | false =>
      refine ⟨fun h => ?_, fun h => X86_instruction_partial _ ⟨rfl, hw.1, h.2⟩ hs⟩
      obtain ⟨m', e, -⟩ := h.run (fun m => liftBitscan slide m trailing z d r) (fun _ _ => rfl)
      simp only [liftBitscan, Option.bind_eq_bind, Option.bind_eq_some_iff] at e
      obtain ⟨v, e1, -⟩ := e
      exact ⟨rfl, load_plain hw.2 e1⟩
  | popcnt z d r =>
    refine ⟨fun h => ?_, fun h => X86_instruction_partial _ h hs⟩
    obtain ⟨m', e, -⟩ := h.run (fun m => liftPopcnt slide m z d r) (fun _ _ => rfl)
    simp only [liftPopcnt, Option.bind_eq_bind, Option.bind_eq_some_iff] at e
    obtain ⟨v, e1, w, e2, -⟩ := e
    exact ⟨store_plain hw.1 e2, load_plain hw.2 e1⟩
  | bittest k z lock d r =>
    refine ⟨fun h => ?_, fun h => X86_instruction_partial _ ⟨h.1, hw.2.1, fun hl => ⟨hw.2.2 hl, h.2.1 hl⟩, h.2.2⟩ hs⟩
    obtain ⟨m', e, -⟩ := h.run (fun m => liftBittest slide m k z lock d r) (fun _ _ => rfl)
    exact bittest_ok hrel hw.1 hw.2.1 e
  | jmp r => exact jmp_exact r hw hs
  | callRel off =>
    refine ⟨fun h => ?_, fun h => X86_instruction_partial _ ⟨hf, h⟩ hs⟩
    obtain ⟨m', e, -⟩ := h (s.ip - slide) (s.rep slide) (rep_rel slide s) (BitVec.sub_add_cancel _ _).symm
    have hr : Rel slide { s.rep slide with pc := .const (stopPc (s.ip - slide) len) }
        { s with ip := stopPc (s.ip - slide) len + slide } := (rep_rel slide s).setPc _ _ (Pc.val_const _ _)
    simp only [lift, Option.map_eq_some_iff] at e
    obtain ⟨m1, e, -⟩ := e
    exact (call_ok hr e).1
  | call r => exact call_exact hf r hw hs
  | ret pop =>
    refine ⟨fun h => ?_, fun h => X86_instruction_partial _ ⟨hf, h⟩ hs⟩
    obtain ⟨m', e, -⟩ := h (s.ip - slide) (s.rep slide) (rep_rel slide s) (BitVec.sub_add_cancel _ _).symm
    have hr : Rel slide { s.rep slide with pc := .const (stopPc (s.ip - slide) len) }
        { s with ip := stopPc (s.ip - slide) len + slide } := (rep_rel slide s).setPc _ _ (Pc.val_const _ _)
    simp only [lift, liftRet, Option.bind_eq_bind, Option.bind_eq_some_iff] at e
    obtain ⟨m1, e, -⟩ := e
    have h1 := (pop_aligned (Rel.clobber cfg hr) e).1
    have hg : ∀ t : S, (if cfg.clobberFlags then t.forget status else t).gp = t.gp := by intro t; split <;> rfl
    rw [hg] at h1
    exact h1
  | push z r =>
    refine ⟨fun h => ?_, fun h => X86_instruction_partial _ h hs⟩
    obtain ⟨m', e, -⟩ := h.run (fun m => do stackPush m z (← opLoad slide m z r)) (fun _ _ => rfl)
    simp only [Option.bind_eq_bind, Option.bind_eq_some_iff] at e
    obtain ⟨v, e1, e2⟩ := e
    exact ⟨load_plain hw e1, push_aligned hrel e2⟩
  | pop z d =>
    by_cases hz : z = .q
    · subst hz
      refine ⟨fun h => ?_, fun h => X86_instruction_partial _ h hs⟩
      obtain ⟨m', e, -⟩ := h.run (fun m => do
        let (v, m) ← stackPop m
        popStore slide m .q d v) (fun _ _ => rfl)
      simp only [Option.bind_eq_bind, Option.bind_eq_some_iff] at e
      obtain ⟨v, e1, e2⟩ := e
      exact ⟨rfl, store_plain hw e2, (pop_aligned hrel e1).1⟩
    · exact ⟨fun h => absurd h (pop_wrong z hz d hs), fun h => absurd h.1 hz⟩
  | pushf z =>
    refine ⟨fun h => ?_, fun h => X86_instruction_partial _ h hs⟩
    obtain ⟨m', e, -⟩ := h.run (fun m => stackPush m z (flagAsReg m z)) (fun _ _ => rfl)
    exact push_aligned hrel e
  | popf z =>
    by_cases hz : z = .q
    · subst hz
      refine ⟨fun h => ?_, fun h => X86_instruction_partial _ h hs⟩
      obtain ⟨m', e, -⟩ := h.run (fun m => do
        let (v, m) ← stackPop m
        return flagFromReg m v) (fun _ _ => rfl)
      simp only [Option.bind_eq_bind, Option.bind_eq_some_iff] at e
      obtain ⟨v, e1, -⟩ := e
      exact ⟨rfl, (pop_aligned hrel e1).1⟩
    · exact ⟨fun h => absurd h (popf_wrong z hz hs), fun h => absurd h.1 hz⟩
  | leave =>
    refine ⟨fun h => ?_, fun h => X86_instruction_partial _ h hs⟩
    obtain ⟨m', e, -⟩ := h.run (fun m => do
      let (v, m) ← stackPop m rbp
      return m.store rbp .q v) (fun _ _ => rfl)
    simp only [Option.bind_eq_bind, Option.bind_eq_some_iff] at e
    obtain ⟨v, e1, -⟩ := e
    exact (pop_aligned hrel e1).1
  | lahf => exact lahf_exact hs
  | str k z rep a32 seg =>
    simp only [general, Bool.and_eq_true, Bool.not_eq_true', beq_iff_eq] at hg
    obtain ⟨rfl, rfl⟩ := hg
    exact str_exact k z rep hs

-- `push rax` with an aligned stack pointer, a locked `sub`, `shld`
example : Exact 4 s0 (.push .q (.reg 0)) ∧ WellFormed s0 (.push .q (.reg 0)) := ⟨⟨rfl, by unfold Aligned; decide +kernel⟩, trivial⟩
example : Exact 4 s0 (.arith .sub .d true (.mem { base := .reg 6, off := 8 }) (.reg 1)) ∧
    WellFormed s0 (.arith .sub .d true (.mem { base := .reg 6, off := 8 }) (.reg 1)) :=
  ⟨⟨rfl, rfl, fun _ => ⟨_, rfl, by decide +kernel⟩, fun h => nomatch h⟩, (fun h => nomatch h), trivial, fun _ => by decide, fun h => nomatch h⟩
example : Exact 4 s0 (.shiftd true .q (.reg 0) (.reg 1) (.imm 4)) := by
  refine ⟨⟨rfl, rfl, rfl⟩, ?_⟩
  intro cv hcv
  cases hcv
  exact ⟨fun h => absurd h (by decide +kernel), fun h => absurd h (by decide +kernel)⟩
-- `pop ax` is never right, `xadd rax, rax` only for 0
example (s : S) : ¬ Exact 4 s (.pop .w (.reg 0)) := fun h => nomatch h.1
example : ¬ Exact 4 s0 (.arith .xadd .q false (.reg 0) (.reg 0)) := fun h => absurd (h.2.2.2 rfl rfl) (by decide +kernel)

end Verif.X86.Spec
