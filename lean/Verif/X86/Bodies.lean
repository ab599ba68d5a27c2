import Verif.X86.Flags

/-! Each lifted instruction body against the specification: moves, arithmetic and logic. -/

set_option linter.unusedSimpArgs false

namespace Verif.X86.Spec

open Verif.IR

variable {slide : BitVec 64} {m : St} {s s' : S}

theorem bits_gt (z : Sz) : 4 < z.bits := by cases z <;> decide

theorem bits_le (z : Sz) : z.bits ≤ 64 := by cases z <;> decide

/-- Everything a body does, seen from `lift`. -/
theorem Simulates.of_body {cfg : Cfg} {i : Instr} {len : Nat} (body : St → Option St)
    (hl : ∀ start m, lift cfg slide i start len m =
      (body { m with pc := .const (stopPc start len) }).map (fun m => { st := m }))
    (hb : ∀ m, Rel slide m { s with ip := s.ip + BitVec.ofNat 64 len } →
      ∃ m', body m = some m' ∧ Rel slide m' s') :
    Simulates cfg slide i len s s' := by
  intro start m h hip
  have h' : Rel slide { m with pc := .const (stopPc start len) }
      { s with ip := s.ip + BitVec.ofNat 64 len } :=
    { gp := h.gp, vec := h.vec, fs := h.fs, gs := h.gs, mem := h.mem
      pc := by
        simp only [Pc.val_const, stopPc, hip]
        congr 1
        rw [BitVec.add_assoc, BitVec.add_assoc, BitVec.add_comm slide]
      fl := fun f b hb => by have := h.fl f b hb; cases f <;> exact this }
  obtain ⟨m', h1, h2⟩ := hb _ h'
  exact ⟨m', by rw [hl, h1]; rfl, h2⟩

theorem Rel.atomicRmw (h : Rel slide m s) (z : Sz) (o : MemOp) (ho : MemOp.plain o = true)
    (ha : (s.ea o).toNat % z.bytes = 0) (f : Val z.bits → Val z.bits) (v : BitVec z.bits)
    (hf : f (some (s.mem.read (s.ea o) z.bytes)) = some v) :
    ∃ m', X86.atomicRmw slide m z (.mem o) f = some (some (s.mem.read (s.ea o) z.bytes), m') ∧
      Rel slide m' (s.store (s.ea o) z.bytes v) := by
  obtain ⟨m', h1, h2, _⟩ := h.write (s.ea o) z.bytes z.bytes v ha
  refine ⟨m', ?_, h2⟩
  simp only [X86.atomicRmw, opAddr_plain h o ho, Option.bind_eq_bind, Option.bind_some,
    h.read _ _ z.bytes ha, hf, h1, Option.pure_def]

/-- Read-modify-write of the destination, with or without LOCK. -/
theorem Rel.rmw (h : Rel slide m s) (z : Sz) (lock : Bool) (d : Op) (hd : Op.plain d = true)
    (hl : LockOk s z lock d) (f : Val z.bits → Val z.bits) (a v : BitVec z.bits)
    (hr : s.read z d = some a) (hf : f (some a) = some v) (hw : s.write z d v = some s') :
    ∃ m1 m', rmwLoad slide m z lock d f = some (some a, m1) ∧
      opStoreIf slide m1 (lock = false) z d (some v) = some m' ∧ Rel slide m' s' := by
  simp only [rmwLoad, opStoreIf]
  cases lock with
  | false =>
    obtain ⟨m', h1, h2⟩ := h.opStore z d v hd hw
    exact ⟨m, m', by simp [h.opLoad z d a hd hr], by simp [h1], h2⟩
  | true =>
    obtain ⟨o, rfl, ha⟩ := hl rfl
    simp only [S.read, Option.some.injEq] at hr
    simp only [S.write, S.writeAt, Option.some.injEq] at hw
    obtain ⟨m', h1, h2⟩ := h.atomicRmw z o hd ha f v (by rw [hr]; exact hf)
    exact ⟨m', m', by simp [h1, hr], by simp, hw ▸ h2⟩

theorem setWidth_up {w a b : Nat} (x : BitVec w) (h : w ≤ a) :
    (x.setWidth a).setWidth b = x.setWidth b := by
  apply BitVec.eq_of_toNat_eq
  have := x.isLt
  have h2 : 2 ^ w ≤ 2 ^ a := Nat.pow_le_pow_right (by decide) h
  simp only [BitVec.toNat_setWidth]
  rw [Nat.mod_eq_of_lt (by omega : x.toNat < 2 ^ a)]

theorem ofBool_setWidth (c : Bool) (w : Nat) :
    (BitVec.ofBool c).setWidth w = BitVec.ofNat w c.toNat := by
  apply BitVec.eq_of_toNat_eq
  cases c <;> simp

/-! ### Moves -/

theorem body_mov (h : Rel slide m s) (z sz : Sz) (d r : Op) (hd : Op.plain d = true)
    (hr : Op.plain r = true)
    (hs : (do s.write z d ((← s.read sz r).signExtend z.bits)) = some s') :
    ∃ m', liftMov slide m z sz d r = some m' ∧ Rel slide m' s' := by
  simp only [Option.bind_eq_bind, Option.bind_eq_some_iff] at hs
  obtain ⟨v, h1, h2⟩ := hs
  simp only [liftMov, h.opLoad sz r v hr h1, Option.bind_eq_bind, Option.bind_some, sext_some]
  exact h.opStore z d _ hd h2

theorem body_movzx (h : Rel slide m s) (z sz : Sz) (hz : sz.bits ≤ z.bits) (d r : Op)
    (hd : Op.plain d = true) (hr : Op.plain r = true)
    (hs : (do s.write z d ((← s.read sz r).setWidth z.bits)) = some s') :
    ∃ m', liftMovzx slide m z sz d r = some m' ∧ Rel slide m' s' := by
  simp only [Option.bind_eq_bind, Option.bind_eq_some_iff] at hs
  obtain ⟨v, h1, h2⟩ := hs
  have h3 := h.opStore z d _ hd h2
  simp only [liftMovzx, h.opLoad sz r v hr h1, Option.bind_eq_bind, Option.bind_some]
  split
  · simp only [S.write, S.writeAt, Option.some.injEq] at h2
    refine ⟨_, rfl, ?_⟩
    have := h.store ‹_› .d (v.setWidth (Sz.bits .d))
    simp only [St.store, zext_some] at this
    rw [setWidth_up _ hz] at this
    rw [zext_some]; exact h2 ▸ this
  · simp only [S.write, S.writeAt, Option.some.injEq] at h2
    refine ⟨_, rfl, ?_⟩
    have := h.store ‹_› .q (v.setWidth (Sz.bits .q))
    simp only [St.store, zext_some] at this
    rw [setWidth_up _ hz] at this
    rw [zext_some]; exact h2 ▸ this
  · exact h3

theorem body_movbe (h : Rel slide m s) (z : Sz) (d r : Op) (hd : Op.plain d = true)
    (hr : Op.plain r = true) (hs : (do s.write z d (byteRev (← s.read z r))) = some s') :
    ∃ m', liftMovbe slide m z d r = some m' ∧ Rel slide m' s' := by
  simp only [Option.bind_eq_bind, Option.bind_eq_some_iff] at hs
  obtain ⟨v, h1, h2⟩ := hs
  simp only [liftMovbe, h.opLoad z r v hr h1, Option.bind_eq_bind, Option.bind_some, bswap, un_some]
  exact h.opStore z d _ hd h2

/-! ### Arithmetic -/

/-- The flags that ADC and SBB get wrong (C19): the second operand plus carry is formed first, and
its own overflow is lost. -/
def adcBad (s : S) (k : Arith) (z : Sz) (r : Op) (f : Flag) : Bool :=
  match s.read z r, s.fl .cf with
  | some b, some true => (k == .adc || k == .sbb) && (match f with
    | .cf => b == BitVec.allOnes _
    | .of => b == BitVec.intMax _
    | .af => b.toNat % 16 == 15
    | _ => false)
  | _, _ => false

theorem toInt_succ {w : Nat} (hw : 0 < w) (b : BitVec w) (h : b ≠ BitVec.intMax w) :
    (b + 1#w).toInt = b.toInt + 1 := by
  rw [BitVec.toInt_add]
  have h1 := @BitVec.two_mul_toInt_lt w b
  have h3 := @BitVec.le_two_mul_toInt w b
  have h2 : b.toInt ≠ 2 ^ (w - 1) - 1 := by
    intro e
    apply h
    apply BitVec.eq_of_toInt_eq
    rw [e, BitVec.toInt_intMax]
  have e : (2 : Int) ^ w = 2 * 2 ^ (w - 1) := by
    rw [← Int.pow_succ', Nat.sub_add_cancel hw]
  rw [e] at h1 h3
  by_cases hw1 : w = 1
  · subst hw1
    simp at h1 h2 h3
    have : b.toInt = -1 := by omega
    rw [this]; decide
  have h11 : (1#w).toInt = 1 := by
    rw [BitVec.toInt_one (by omega)]
  have hp : (2 : Int) ≤ 2 ^ (w - 1) := by
    obtain ⟨k, hk⟩ : ∃ k, w - 1 = k + 1 := ⟨w - 2, by omega⟩
    rw [hk, Int.pow_succ]
    have : (0 : Int) < 2 ^ k := Int.pow_pos (by decide)
    omega
  rw [h11]
  apply Int.bmod_eq_of_le
  · have : ((2 ^ w : Nat) : Int) = 2 * 2 ^ (w - 1) := by push_cast; exact e
    omega
  · have : ((2 ^ w : Nat) : Int) = 2 * 2 ^ (w - 1) := by push_cast; exact e
    omega

theorem toNat_succ {w : Nat} (b : BitVec w) (h : b ≠ BitVec.allOnes w) :
    (b + 1#w).toNat = b.toNat + 1 := by
  have h1 := b.isLt
  have h2 : b.toNat ≠ 2 ^ w - 1 := by
    intro e; apply h; apply BitVec.eq_of_toNat_eq; rw [e, BitVec.toNat_allOnes]
  rcases Nat.eq_zero_or_pos w with h0 | h0
  · subst h0; simp at h1 h2; omega
  have : 1 < 2 ^ w := Nat.one_lt_two_pow (by omega)
  rw [BitVec.toNat_add, BitVec.toNat_ofNat, Nat.mod_eq_of_lt this, Nat.mod_eq_of_lt (by omega)]

theorem toNat_succ_mod16 {w : Nat} (hw : 4 < w) (b : BitVec w) (h : b.toNat % 16 ≠ 15) :
    (b + 1#w).toNat % 16 = b.toNat % 16 + 1 := by
  have hd : 2 ^ w % 16 = 0 := by
    obtain ⟨k, rfl⟩ : ∃ k, w = k + 4 := ⟨w - 4, by omega⟩
    rw [Nat.pow_add]; omega
  have : b ≠ BitVec.allOnes w := by
    intro e; apply h; rw [e, BitVec.toNat_allOnes]
    have := Nat.two_pow_pos w
    omega
  rw [toNat_succ b this]; omega

theorem adc_flags {w : Nat} (hw : 4 < w) (a b : BitVec w) :
    (b ≠ BitVec.allOnes w → addCf a (b + 1#w) false = addCf a b true) ∧
    (b ≠ BitVec.intMax w → addOf a (b + 1#w) false = addOf a b true) ∧
    (b.toNat % 16 ≠ 15 → addAf a (b + 1#w) false = addAf a b true) := by
  refine ⟨fun h => ?_, fun h => ?_, fun h => ?_⟩
  · simp [addCf, toNat_succ b h, Nat.add_assoc]
  · simp [addOf, toInt_succ (by omega) b h, Int.add_assoc]
  · simp only [addAf, toNat_succ_mod16 hw b h]; simp [Nat.add_assoc]

theorem sbb_flags {w : Nat} (hw : 4 < w) (a b : BitVec w) :
    (b ≠ BitVec.allOnes w → subCf a (b + 1#w) false = subCf a b true) ∧
    (b ≠ BitVec.intMax w → subOf a (b + 1#w) false = subOf a b true) ∧
    (b.toNat % 16 ≠ 15 → subAf a (b + 1#w) false = subAf a b true) := by
  refine ⟨fun h => ?_, fun h => ?_, fun h => ?_⟩
  · simp [subCf, toNat_succ b h]
  · simp [subOf, toInt_succ (by omega) b h, Int.sub_sub]
  · simp only [subAf, toNat_succ_mod16 hw b h]; simp

/-- XADD: the second operand is a register, and different from the destination (C26). -/
def XaddOk (d r : Op) : Prop := (∀ o, r ≠ .mem o) ∧ d ≠ r

theorem body_arith (cfg : Cfg) (h : Rel slide m s) (k : Arith) (hk : k ≠ .xadd) (z : Sz)
    (lock : Bool) (d r : Op) (hd : Op.plain d = true) (hr : Op.plain r = true)
    (hl : LockOk s z lock d) (hc : lock = true → k ≠ .cmp)
    (hs : stepArith s k z d r = some s') :
    ∃ m', liftArith cfg slide m k z lock d r = some m' ∧
      Rel slide m' (s'.forget (adcBad s k z r)) := by
  simp only [stepArith, Option.bind_eq_bind, Option.bind_eq_some_iff] at hs
  obtain ⟨a, ha, b, hb, hs⟩ := hs
  have hb' := h.opLoad z r b hr hb
  have key : ∀ (c : Bool) (sub : Bool), k ≠ .cmp →
      (k = .sub ∨ k = .sbb ∨ k = .cmp ↔ sub = true) →
      ((k = .adc ∨ k = .sbb) → s.fl .cf = some c) → (¬ (k = .adc ∨ k = .sbb) → c = false) →
      ∀ s1, s.write z d (if sub then a - (b + BitVec.ofNat _ c.toNat) else a + (b + BitVec.ofNat _ c.toNat)) = some s1 →
      s' = (if sub then s1.subFl a b c else s1.addFl a b c) →
      ∃ m', liftArith cfg slide m k z lock d r = some m' ∧
        Rel slide m' (s'.forget (adcBad s k z r)) := by
    intro c sub hcmp hsub hcf hcf0 s1 hw hs'
    have hop2 : (if k = .adc ∨ k = .sbb then IR.add (some b) (zext z.bits (m.getF .cf)) else some b)
        = some (b + BitVec.ofNat z.bits c.toNat) := by
      split
      · rename_i hk
        rw [h.getFl (hcf hk), zext_some, add_some]
        rw [ofBool_setWidth]
      · rename_i hk
        rw [hcf0 hk]; simp
    obtain ⟨m1, m2, h1, h2, h3⟩ := h.rmw z lock d hd hl
      (fun x => if (decide (k = .sub ∨ k = .sbb ∨ k = .cmp)) = true then
          IR.sub x (some (b + BitVec.ofNat z.bits c.toNat))
        else IR.add x (some (b + BitVec.ofNat z.bits c.toNat))) a _ ha
      (by
        show _ = some (if sub then _ else _)
        cases sub
        · have : ¬ (k = .sub ∨ k = .sbb ∨ k = .cmp) := by rw [hsub]; decide
          simp [this, add_some]
        · have : (k = .sub ∨ k = .sbb ∨ k = .cmp) := by rw [hsub]
          simp [this, sub_some]) hw
    have hcond : (k ≠ .cmp ∧ lock = false) ↔ lock = false := by simp [hcmp]
    have hx : ∀ m v, opStoreIf slide m (k = .xadd) z r v = some m := by
      intro m v; simp [opStoreIf, hk]
    simp only [liftArith, hb', Option.bind_eq_bind, Option.bind_some, hop2, h1, hcond, hx]
    cases sub with
    | false =>
      have hn : ¬ (k = .sub ∨ k = .sbb ∨ k = .cmp) := by rw [hsub]; decide
      simp only [hn, decide_false, Bool.false_eq_true, if_false, add_some] at h2 ⊢
      rw [h2]
      simp only [Option.bind_some]
      refine ⟨_, rfl, ?_⟩
      have hf := h3.flagAdd cfg (bits_gt z) a (b + BitVec.ofNat z.bits c.toNat) false
      subst hs'
      refine hf.mono rfl rfl rfl rfl rfl ?_
      intro f x hx
      simp only [S.forget, Bool.false_eq_true, if_false, S.addFl, S.resFl] at hx ⊢
      split at hx
      · simp at hx
      · rename_i hbad
        cases c with
        | false =>
          cases f <;> simp_all
        | true =>
          have hadc : k = .adc ∨ k = .sbb := by
            exact Classical.byContradiction fun hno => absurd (hcf0 hno) (by decide)
          have hkb : (k == .adc || k == .sbb) = true := by
            rcases hadc with e | e <;> simp [e]
          have hfl := adc_flags (bits_gt z) a b
          simp only [adcBad, hb, hcf hadc, hkb, Bool.true_and] at hbad
          have e1 : BitVec.ofNat z.bits true.toNat = 1#z.bits := rfl
          rw [e1] at hx ⊢
          cases f <;> simp only [beq_iff_eq, Bool.false_eq_true, not_false_eq_true] at hbad <;>
            first
            | (rw [hfl.1 hbad]; exact hx)
            | (rw [hfl.2.1 hbad]; exact hx)
            | (rw [hfl.2.2 hbad]; exact hx)
            | (simpa [BitVec.add_assoc] using hx)
    | true =>
      have hn : (k = .sub ∨ k = .sbb ∨ k = .cmp) := by rw [hsub]
      have hkc : decide (k = .cmp) = false := by simp [hcmp]
      simp only [hn, decide_true, if_true, sub_some] at h2 ⊢
      rw [h2]
      simp only [Option.bind_some]
      refine ⟨_, rfl, ?_⟩
      have hf := h3.flagSub (bits_gt z) a (b + BitVec.ofNat z.bits c.toNat) false (decide (k = .cmp))
      subst hs'
      refine hf.mono rfl rfl rfl rfl rfl ?_
      intro f x hx
      simp only [S.forget, Bool.false_eq_true, if_false, if_true, S.subFl, S.resFl] at hx ⊢
      split at hx
      · simp at hx
      · rename_i hbad
        cases c with
        | false =>
          cases f <;> simp_all
        | true =>
          have hadc : k = .adc ∨ k = .sbb := by
            exact Classical.byContradiction fun hno => absurd (hcf0 hno) (by decide)
          have hkb : (k == .adc || k == .sbb) = true := by
            rcases hadc with e | e <;> simp [e]
          have hfl := sbb_flags (bits_gt z) a b
          simp only [adcBad, hb, hcf hadc, hkb, Bool.true_and] at hbad
          have e1 : BitVec.ofNat z.bits true.toNat = 1#z.bits := rfl
          rw [e1] at hx ⊢
          have e2 : a - (b + 1#z.bits) = a - b - 1#z.bits := by
            rw [BitVec.sub_eq_add_neg, BitVec.neg_add, BitVec.sub_eq_add_neg, BitVec.sub_eq_add_neg,
              BitVec.sub_eq_add_neg, BitVec.add_assoc]
          rw [e2]
          cases f <;> simp only [beq_iff_eq, Bool.false_eq_true, not_false_eq_true] at hbad <;>
            first
            | (rw [hfl.1 hbad]; exact hx)
            | (rw [hfl.2.1 hbad]; exact hx)
            | (rw [hfl.2.2 hbad]; exact hx)
            | exact hx
  cases k with
  | xadd => exact absurd rfl hk
  | add =>
    simp only [Option.bind_eq_bind, Option.bind_eq_some_iff] at hs
    obtain ⟨s1, hw, hs⟩ := hs
    refine key false false (by decide) (by decide) (by simp) (fun _ => rfl) s1 (by simpa using hw) ?_
    simpa using hs.symm
  | sub =>
    simp only [Option.bind_eq_bind, Option.bind_eq_some_iff] at hs
    obtain ⟨s1, hw, hs⟩ := hs
    refine key false true (by decide) (by decide) (by simp) (fun _ => rfl) s1 (by simpa using hw) ?_
    simpa using hs.symm
  | adc =>
    simp only [Option.bind_eq_bind, Option.bind_eq_some_iff] at hs
    obtain ⟨c, hcf, s1, hw, hs⟩ := hs
    refine key c false (by decide) (by decide) (fun _ => hcf) (by simp) s1 ?_ ?_
    · simpa [BitVec.add_assoc] using hw
    · simpa using hs.symm
  | sbb =>
    simp only [Option.bind_eq_bind, Option.bind_eq_some_iff] at hs
    obtain ⟨c, hcf, s1, hw, hs⟩ := hs
    refine key c true (by decide) (by decide) (fun _ => hcf) (by simp) s1 ?_ ?_
    · have e2 : a - (b + BitVec.ofNat z.bits c.toNat) = a - b - BitVec.ofNat z.bits c.toNat := by
        rw [BitVec.sub_eq_add_neg, BitVec.neg_add, BitVec.sub_eq_add_neg, BitVec.sub_eq_add_neg,
          BitVec.sub_eq_add_neg, BitVec.add_assoc]
      rw [if_pos rfl, e2]; exact hw
    · simpa using hs.symm
  | cmp =>
    have hlk : lock = false := by cases lock; rfl; exact absurd rfl (hc rfl)
    subst hlk
    simp only [Option.some.injEq] at hs
    have hf := h.flagSub (bits_gt z) a b false true
    refine ⟨X86.flagSub m (some (a - b)) (some a) (some b) false true, ?_, ?_⟩
    · simp [liftArith, hb', rmwLoad, opStoreIf, h.opLoad z d a hd ha, sub_some]
    subst hs
    refine Rel.forget ?_ _
    simp only [S.subFl, Bool.toNat_false, BitVec.sub_zero]
    simpa using hf

/-- The 64-bit value after a partial write. -/
def mergeReg (old : BitVec 64) : (z : Sz) → BitVec z.bits → BitVec 64
  | .b, v => old.extractLsb' 8 56 ++ v
  | .w, v => old.extractLsb' 16 48 ++ v
  | .d, v => 0#32 ++ v
  | .q, v => v

theorem setReg_eq (s : S) (r : Fin 16) (z : Sz) (v : BitVec z.bits) :
    s.setReg r z v = s.setGp r (mergeReg (s.gp r) z v) := by
  cases z <;> rfl

theorem setGp_comm (s : S) (x y : Fin 16) (a b : BitVec 64) (h : x ≠ y) :
    (s.setGp x a).setGp y b = (s.setGp y b).setGp x a := by
  simp only [S.setGp]
  congr 1
  funext t
  by_cases e : t = y
  · subst e; simp [Ne.symm h]
  · simp [e]

theorem setReg_comm (s : S) (x y : Fin 16) (z : Sz) (a b : BitVec z.bits) (h : x ≠ y) :
    (s.setReg x z a).setReg y z b = (s.setReg y z b).setReg x z a := by
  have e1 : (s.setGp x (mergeReg (s.gp x) z a)).gp y = s.gp y := by
    simp [S.setGp, Ne.symm h]
  have e2 : (s.setGp y (mergeReg (s.gp y) z b)).gp x = s.gp x := by
    simp [S.setGp, h]
  simp only [setReg_eq, e1, e2]
  exact setGp_comm _ _ _ _ _ h

theorem hreg_inj {x y : Fin 4} (h : x ≠ y) : hreg x ≠ hreg y := by
  intro e
  apply h
  simpa [hreg, Fin.ext_iff] using e

theorem low_high_comm (x : BitVec 64) (a : BitVec 8) (b : BitVec 8) :
    (x.extractLsb' 8 56 ++ a).extractLsb' 16 48 ++ b ++ (x.extractLsb' 8 56 ++ a).extractLsb' 0 8 =
      (x.extractLsb' 16 48 ++ b ++ x.extractLsb' 0 8).extractLsb' 8 56 ++ a := by
  apply BitVec.eq_of_getLsbD_eq; intro i hi
  simp only [BitVec.getLsbD_append, BitVec.getLsbD_extractLsb']
  by_cases h8 : i < 8
  · simp [h8]
  · by_cases h16 : i - 8 < 8
    · simp [h8, h16, show 8 + (i - 8) = i by omega, show i - 8 < 56 by omega]
    · simp [h8, h16, show 8 + (i - 8) = i by omega, show 16 + (i - 8 - 8) = i by omega, show ¬ 16 + (i - 8 - 8) < 8 by omega]
      grind

/-- The low and the high byte of registers can be written in either order. -/
theorem setReg_setRegH (s : S) (x : Fin 16) (y : Fin 4) (a b : BitVec 8) :
    (s.setReg x .b a).setRegH y b = (s.setRegH y b).setReg x .b a := by
  by_cases hr : hreg y = x
  · subst hr
    simp only [S.setReg, S.setRegH, S.setGp, if_true]
    congr 1
    funext t
    by_cases h1 : t = hreg y
    · simp only [h1, if_true]
      exact low_high_comm _ _ _
    · simp [h1]
  · simp only [S.setReg, S.setRegH, S.setGp, if_neg hr, if_neg (Ne.symm hr)]
    congr 1
    funext t
    by_cases h1 : t = x <;> by_cases h2 : t = hreg y <;> simp_all

theorem setRegH_comm (s : S) (x y : Fin 4) (a b : BitVec 8) (h : x ≠ y) :
    (s.setRegH x a).setRegH y b = (s.setRegH y b).setRegH x a := by
  have hn := hreg_inj h
  simp only [S.setRegH, S.setGp, if_neg hn, if_neg hn.symm]
  congr 1
  funext t
  by_cases h1 : t = hreg x <;> by_cases h2 : t = hreg y <;> simp_all

/-- A register and another operand can be written in either order. -/
theorem writeAt_comm {s e s1 s2 : S} {z : Sz} {d r : Op} {a v : BitVec z.bits} (hm : ∀ o, r ≠ .mem o) (hne : d ≠ r)
    (h1 : s.writeAt e z r a = some s1) (h2 : s1.writeAt e z d v = some s2) :
    ∃ s3, s.writeAt e z d v = some s3 ∧ s3.writeAt e z r a = some s2 := by
  cases r with
  | mem o => exact absurd rfl (hm o)
  | imm _ => simp [S.writeAt] at h1
  | reg x =>
    simp only [S.writeAt, Option.some.injEq] at h1
    subst h1
    cases d with
    | imm _ => simp [S.writeAt] at h2
    | reg y =>
      simp only [S.writeAt, Option.some.injEq] at h2
      subst h2
      exact ⟨_, rfl, congrArg some (setReg_comm _ _ _ _ _ _ fun h => hne (by rw [h]))⟩
    | regH y =>
      cases z <;> simp only [S.writeAt, Option.some.injEq, reduceCtorEq] at h2
      subst h2
      exact ⟨_, rfl, congrArg some (setReg_setRegH _ _ _ _ _).symm⟩
    | mem o =>
      simp only [S.writeAt, Option.some.injEq] at h2
      subst h2
      refine ⟨_, rfl, ?_⟩
      cases z <;> rfl
  | regH x =>
    cases z <;> simp only [S.writeAt, Option.some.injEq, reduceCtorEq] at h1
    subst h1
    cases d with
    | imm _ => simp [S.writeAt] at h2
    | reg y =>
      simp only [S.writeAt, Option.some.injEq] at h2
      subst h2
      exact ⟨_, rfl, congrArg some (setReg_setRegH _ _ _ _ _)⟩
    | regH y =>
      simp only [S.writeAt, Option.some.injEq] at h2
      subst h2
      exact ⟨_, rfl, congrArg some (setRegH_comm _ _ _ _ _ fun h => hne (by rw [h]))⟩
    | mem o =>
      simp only [S.writeAt, Option.some.injEq] at h2
      subst h2
      exact ⟨_, rfl, rfl⟩

/-- The address of an operand that is a register does not matter. -/
theorem writeAt_reg {s e : S} {z : Sz} {r : Op} {a : BitVec z.bits} (hm : ∀ o, r ≠ .mem o) : s.writeAt e z r a = s.write z r a := by
  cases r with
  | mem o => exact absurd rfl (hm o)
  | imm _ => rfl
  | reg _ => rfl
  | regH _ => cases z <;> rfl

theorem body_xadd (cfg : Cfg) (h : Rel slide m s) (z : Sz) (lock : Bool) (d r : Op)
    (hd : Op.plain d = true) (hl : LockOk s z lock d) (hx : XaddOk d r)
    (hs : stepArith s .xadd z d r = some s') :
    ∃ m', liftArith cfg slide m .xadd z lock d r = some m' ∧ Rel slide m' s' := by
  simp only [stepArith, Option.bind_eq_bind, Option.bind_eq_some_iff] at hs
  obtain ⟨a, ha, b, hb, s1, h1, s2, h2, hs⟩ := hs
  simp only [Option.some.injEq] at hs
  have hr : Op.plain r = true := by
    cases r with
    | mem o => exact absurd rfl (hx.1 o)
    | _ => rfl
  -- the two writes commute
  obtain ⟨s3, hw, hw2⟩ := writeAt_comm hx.1 hx.2 h1 h2
  rw [writeAt_reg hx.1] at hw2
  obtain ⟨m1, m2, e1, e2, e3⟩ := h.rmw z lock d hd hl (fun x => IR.add x (some b)) a _ ha rfl hw
  obtain ⟨m3, e4, e5⟩ := e3.opStore z r a hr hw2
  have hf := e5.flagAdd cfg (bits_gt z) a b false
  refine ⟨X86.flagAdd cfg m3 (some (a + b)) (some a) (some b) false, ?_, ?_⟩
  · have e6 : opStoreIf slide m2 true z r (some a) = some m3 := by simp [opStoreIf, e4]
    simp only [Bool.decide_eq_false] at e2
    simp [liftArith, h.opLoad z r b hr hb, e1, e2, e6, add_some]
  · rw [← hs]; simpa [S.addFl] using hf

/-! ### Logic -/

theorem body_logic (h : Rel slide m s) (k : Logic) (z : Sz) (lock : Bool) (d r : Op)
    (hd : Op.plain d = true) (hr : Op.plain r = true) (hl : LockOk s z lock d)
    (hc : lock = true → k ≠ .test) (hs : stepLogic s k z d r = some s') :
    ∃ m', liftLogic slide m k z lock d r = some m' ∧ Rel slide m' s' := by
  simp only [stepLogic, Option.bind_eq_bind, Option.bind_eq_some_iff] at hs
  obtain ⟨a, ha, b, hb, s1, hw, hs⟩ := hs
  simp only [Option.some.injEq] at hs
  rw [liftLogic]
  split
  · -- XOR r, r
    rename_i hx
    obtain ⟨rfl, hsame, hz⟩ := hx
    obtain ⟨x, rfl, rfl⟩ : ∃ x, d = .reg x ∧ r = .reg x := by
      cases d <;> cases r <;> simp [sameReg] at hsame
      subst hsame; exact ⟨_, rfl, rfl⟩
    rw [ha] at hb
    simp only [Option.some.injEq] at hb
    subst hb
    simp only [S.writeIf, ne_eq, reduceCtorEq, not_false_eq_true, decide_true, if_true, BitVec.xor_self] at hw hs
    obtain ⟨m1, e1, e2⟩ := h.opStore z (.reg x) (0#z.bits) rfl hw
    have e1' : X86.opStore slide m z (.reg x) (some 0) = some m1 := e1
    refine ⟨_, by rw [e1']; rfl, ?_⟩
    subst hs
    have hf := e2.flagLogic (0#64)
    refine hf.flags rfl rfl ?_
    intro f x hx
    have := hf.fl f x
    cases f <;> simp only [S.resFl, Option.some.injEq, reduceCtorEq] at hx this <;>
      first
      | (simpa [flagSap, flagZ, St.setF, St.setPf, St.getF, isZero, icmp_some, Pred.eval] using this hx)
      | (subst hx; simp [flagSap, flagZ, St.setF, St.setPf, St.getF, isZero, isNeg, icmp_some, Pred.eval, BitVec.slt]
         done)
      | (subst hx
         have hp : parity (0#z.bits) = parity (0#64) := by simp [parity]
         rw [hp]
         exact getF_pf ((0#64).setWidth 8) _ rfl)
  · -- the general case
    have hb' := h.opLoad z r b hr hb
    cases k with
    | test =>
      have hlk : lock = false := by cases lock; rfl; exact absurd rfl (hc rfl)
      subst hlk
      simp only [S.writeIf, ne_eq, not_true_eq_false, decide_false, Bool.false_eq_true, if_false, Option.some.injEq] at hw
      subst hw hs
      refine ⟨_, ?_, h.flagLogic (a &&& b)⟩
      simp [hb', rmwLoad, opStoreIf, h.opLoad z d a hd ha, and_some]
    | and =>
      simp only [S.writeIf, ne_eq, reduceCtorEq, not_false_eq_true, decide_true, if_true] at hw
      obtain ⟨m1, m2, e1, e2, e3⟩ := h.rmw z lock d hd hl (fun x => IR.and x (some b)) a _ ha rfl hw
      subst hs
      refine ⟨_, ?_, e3.flagLogic (a &&& b)⟩
      simp only [Bool.decide_eq_false] at e2
      simp [hb', e1, e2, and_some]
    | or =>
      simp only [S.writeIf, ne_eq, reduceCtorEq, not_false_eq_true, decide_true, if_true] at hw
      obtain ⟨m1, m2, e1, e2, e3⟩ := h.rmw z lock d hd hl (fun x => IR.or x (some b)) a _ ha rfl hw
      subst hs
      refine ⟨_, ?_, e3.flagLogic (a ||| b)⟩
      simp only [Bool.decide_eq_false] at e2
      simp [hb', e1, e2, or_some]
    | xor =>
      simp only [S.writeIf, ne_eq, reduceCtorEq, not_false_eq_true, decide_true, if_true] at hw
      obtain ⟨m1, m2, e1, e2, e3⟩ := h.rmw z lock d hd hl (fun x => IR.xor x (some b)) a _ ha rfl hw
      subst hs
      refine ⟨_, ?_, e3.flagLogic (a ^^^ b)⟩
      simp only [Bool.decide_eq_false] at e2
      simp [hb', e1, e2, xor_some]

theorem body_not (h : Rel slide m s) (z : Sz) (lock : Bool) (d : Op)
    (hd : Op.plain d = true) (hl : LockOk s z lock d)
    (hs : (do s.write z d (~~~ (← s.read z d))) = some s') :
    ∃ m', liftNot slide m z lock d = some m' ∧ Rel slide m' s' := by
  simp only [Option.bind_eq_bind, Option.bind_eq_some_iff] at hs
  obtain ⟨a, ha, hw⟩ := hs
  cases lock with
  | false =>
    simp only [liftNot, Bool.false_eq_true, if_false, h.opLoad z d a hd ha, Option.bind_eq_bind,
      Option.bind_some, not_some]
    exact h.opStore z d _ hd hw
  | true =>
    obtain ⟨o, rfl, hal⟩ := hl rfl
    simp only [S.read, Option.some.injEq] at ha
    simp only [S.write, S.writeAt, Option.some.injEq] at hw
    obtain ⟨m', h1, h2⟩ := h.atomicRmw z o hd hal (fun a => IR.xor a (some (BitVec.allOnes z.bits)))
      (~~~ a) (by rw [ha, xor_some, BitVec.xor_allOnes])
    exact ⟨m', by simp [liftNot, h1], hw ▸ h2⟩

/-- Writing an operand does not change the flags. -/
theorem write_fl {z : Sz} {d : Op} {v : BitVec z.bits} (hw : s.write z d v = some s') :
    s'.fl = s.fl := by
  cases d with
  | imm _ => simp [S.write, S.writeAt] at hw
  | reg r => simp only [S.write, S.writeAt, Option.some.injEq] at hw; subst hw; cases z <;> rfl
  | regH r =>
    cases z <;> simp only [S.write, S.writeAt, Option.some.injEq, reduceCtorEq] at hw
    subst hw; rfl
  | mem o => simp only [S.write, S.writeAt, Option.some.injEq] at hw; subst hw; rfl

/-- Writing commutes with changing flags. -/
theorem write_withFl {z : Sz} {d : Op} {v : BitVec z.bits} (g : Flag → Option Bool)
    (hw : s.write z d v = some s') :
    S.write { s with fl := g } z d v = some { s' with fl := g } := by
  cases d with
  | imm _ => simp [S.write, S.writeAt] at hw
  | reg r => simp only [S.write, S.writeAt, Option.some.injEq] at hw ⊢; subst hw; cases z <;> rfl
  | regH r =>
    cases z <;> simp only [S.write, S.writeAt, Option.some.injEq, reduceCtorEq] at hw ⊢
    subst hw; rfl
  | mem o => simp only [S.write, S.writeAt, Option.some.injEq] at hw ⊢; subst hw; rfl

theorem body_neg (h : Rel slide m s) (z : Sz) (d : Op) (hd : Op.plain d = true)
    (hs : (do
      let a ← s.read z d
      return (← s.write z d (-a)).subFl 0 a false) = some s') :
    ∃ m', liftNeg slide m z false d = some m' ∧ Rel slide m' s' := by
  simp only [Option.bind_eq_bind, Option.bind_eq_some_iff, Option.pure_def] at hs
  obtain ⟨a, ha, s1, hw, hs⟩ := hs
  simp only [Option.some.injEq] at hs
  simp only [liftNeg, Bool.false_eq_true, if_false, h.opLoad z d a hd ha, Option.bind_eq_bind,
    Option.bind_some, neg_some]
  have hf := h.flagSub (bits_gt z) 0#z.bits a false false
  have hw' : (s.resFl (0#z.bits - a) (if false = true then s.fl .cf else some (subCf 0#z.bits a false))
      (some (subOf 0#z.bits a false)) (some (subAf 0#z.bits a false))).write z d (-a) = some s' := by
    have := write_withFl (s.resFl (0#z.bits - a) (some (subCf 0#z.bits a false))
      (some (subOf 0#z.bits a false)) (some (subAf 0#z.bits a false))).fl hw
    have e := write_fl hw
    rw [← hs]
    simpa [S.resFl, S.subFl, e] using this
  rw [BitVec.zero_sub] at hf
  rw [BitVec.zero_sub] at hw'
  exact hf.opStore z d _ hd hw'

theorem body_incdec (cfg : Cfg) (h : Rel slide m s) (dec : Bool) (z : Sz) (lock : Bool) (d : Op)
    (hd : Op.plain d = true) (hl : LockOk s z lock d)
    (hs : exec s (.incdec dec z lock d) = some s') :
    ∃ m', liftIncDec cfg slide m dec z lock d = some m' ∧ Rel slide m' s' := by
  simp only [exec, Option.bind_eq_bind, Option.bind_eq_some_iff] at hs
  obtain ⟨a, ha, hs⟩ := hs
  cases dec with
  | true =>
    simp only [if_true, Option.bind_eq_some_iff, Option.pure_def, Option.some.injEq] at hs
    obtain ⟨s1, hw, hs⟩ := hs
    obtain ⟨m1, m2, e1, e2, e3⟩ := h.rmw z lock d hd hl (fun x => IR.sub x (some 1#z.bits)) a _ ha rfl hw
    have hf := e3.flagSub (bits_gt z) a 1#z.bits true false
    simp only [Bool.decide_eq_false] at e2
    refine ⟨flagSub m2 (some (a - 1#z.bits)) (some a) (some 1#z.bits) true, ?_, ?_⟩
    · simp only [liftIncDec, if_true, e1, Option.bind_eq_bind, Option.bind_some, Bool.decide_eq_false,
        sub_some, e2, Option.pure_def]
    · rw [← hs, ← write_fl hw]; simpa using hf
  | false =>
    simp only [Bool.false_eq_true, if_false, Option.bind_eq_some_iff, Option.pure_def,
      Option.some.injEq] at hs
    obtain ⟨s1, hw, hs⟩ := hs
    obtain ⟨m1, m2, e1, e2, e3⟩ := h.rmw z lock d hd hl (fun x => IR.add x (some 1#z.bits)) a _ ha rfl hw
    have hf := e3.flagAdd cfg (bits_gt z) a 1#z.bits true
    simp only [Bool.decide_eq_false] at e2
    refine ⟨flagAdd cfg m2 (some (a + 1#z.bits)) (some a) (some 1#z.bits) true, ?_, ?_⟩
    · simp only [liftIncDec, if_true, e1, Option.bind_eq_bind, Option.bind_some, Bool.decide_eq_false,
        add_some, e2, Option.pure_def, Bool.false_eq_true, if_false]
    · rw [← hs, ← write_fl hw]; simpa using hf

/-! ### XCHG, CMPXCHG -/

theorem body_xchg (h : Rel slide m s) (z : Sz) (d r : Op) (hd : Op.plain d = true)
    (hr : ∀ o, r ≠ .mem o) (ha : ∀ o, d = .mem o → (s.ea o).toNat % z.bytes = 0)
    (hs : exec s (.xchg z d r) = some s') :
    ∃ m', liftXchg slide m z d r = some m' ∧ Rel slide m' s' := by
  simp only [exec, Option.bind_eq_bind, Option.bind_eq_some_iff] at hs
  obtain ⟨a, ha', b, hb, s1, hw, hw2⟩ := hs
  have hrp : Op.plain r = true := by cases r <;> first | rfl | exact absurd rfl (hr _)
  have hw2' : s1.write z r a = some s' := by
    cases r with
    | mem o => exact absurd rfl (hr o)
    | _ => exact hw2
  simp only [liftXchg, h.opLoad z r b hrp hb, Option.bind_eq_bind, Option.bind_some]
  cases d with
  | mem o =>
    simp only [S.read, Option.some.injEq] at ha'
    simp only [S.write, S.writeAt, Option.some.injEq] at hw
    obtain ⟨m1, e1, e2⟩ := h.atomicRmw z o hd (ha o rfl) (fun _ => some b) b rfl
    simp only [e1, Option.bind_some, ha']
    exact (hw ▸ e2).opStore z r a hrp hw2'
  | reg x =>
    obtain ⟨m1, e1, e2⟩ := h.opStore z (.reg x) b rfl hw
    simp only [h.opLoad z (.reg x) a hd ha', e1, Option.bind_some]
    exact e2.opStore z r a hrp hw2'
  | regH x =>
    obtain ⟨m1, e1, e2⟩ := h.opStore z (.regH x) b rfl hw
    simp only [h.opLoad z (.regH x) a hd ha', e1, Option.bind_some]
    exact e2.opStore z r a hrp hw2'
  | imm v => simp [S.writeAt] at hw

end Verif.X86.Spec
