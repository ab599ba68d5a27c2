import Verif.RV64.FlowProps

/-! C44 continued: sign injection and classification. -/

namespace Verif.RV64

set_option linter.unusedSimpArgs false

open Verif.IR

theorem and_field (x e f : Nat) : x &&& ((2 ^ e - 1) * 2 ^ f) = (x / 2 ^ f % 2 ^ e) * 2 ^ f := by
  apply Nat.eq_of_testBit_eq
  intro k
  rw [Nat.testBit_and, Nat.testBit_mul_two_pow, Nat.testBit_mul_two_pow, Nat.testBit_two_pow_sub_one,
    Nat.testBit_mod_two_pow, Nat.testBit_div_two_pow]
  by_cases h : f ≤ k
  · simp only [h, decide_true, Bool.true_and, Nat.sub_add_cancel h]
    rw [Bool.and_comm]
  · simp [h]

theorem field_zero {w : Nat} (v : BitVec w) (e f : Nat) (hw : e + f ≤ w) :
    ((v &&& BitVec.ofNat w ((2 ^ e - 1) * 2 ^ f)) == 0#w) = decide (v.toNat / 2 ^ f % 2 ^ e = 0) := by
  have hlt : (2 ^ e - 1) * 2 ^ f < 2 ^ w := by
    have h1 : 2 ^ (e + f) ≤ 2 ^ w := Nat.pow_le_pow_right (by decide) hw
    have h2 : (2 ^ e - 1) * 2 ^ f < 2 ^ e * 2 ^ f := by
      apply Nat.mul_lt_mul_of_pos_right _ (Nat.two_pow_pos _)
      have := Nat.two_pow_pos e; omega
    rw [← Nat.pow_add] at h2; omega
  rw [Bool.eq_iff_iff, beq_iff_eq, decide_eq_true_iff, ← BitVec.toNat_inj, BitVec.toNat_and,
    BitVec.toNat_ofNat, BitVec.toNat_ofNat, Nat.mod_eq_of_lt hlt, and_field]
  have := Nat.two_pow_pos f
  simp only [Nat.zero_mod, Nat.mul_eq_zero]; omega

theorem field_max {w : Nat} (v : BitVec w) (e f : Nat) (hw : e + f ≤ w) :
    ((v &&& BitVec.ofNat w ((2 ^ e - 1) * 2 ^ f)) == BitVec.ofNat w ((2 ^ e - 1) * 2 ^ f))
      = decide (v.toNat / 2 ^ f % 2 ^ e = 2 ^ e - 1) := by
  have hlt : (2 ^ e - 1) * 2 ^ f < 2 ^ w := by
    have h1 : 2 ^ (e + f) ≤ 2 ^ w := Nat.pow_le_pow_right (by decide) hw
    have h2 : (2 ^ e - 1) * 2 ^ f < 2 ^ e * 2 ^ f := by
      apply Nat.mul_lt_mul_of_pos_right _ (Nat.two_pow_pos _)
      have := Nat.two_pow_pos e; omega
    rw [← Nat.pow_add] at h2; omega
  rw [Bool.eq_iff_iff, beq_iff_eq, decide_eq_true_iff, ← BitVec.toNat_inj, BitVec.toNat_and,
    BitVec.toNat_ofNat, Nat.mod_eq_of_lt hlt, and_field]
  exact Nat.mul_left_inj (by have := Nat.two_pow_pos f; omega)

theorem sign_zero {w : Nat} (v : BitVec w) (k : Nat) (hk : k < w) :
    ((v &&& BitVec.ofNat w (2 ^ k)) == 0#w) = !v.getLsbD k := by
  have ht : BitVec.ofNat w (2 ^ k) = BitVec.twoPow w k := by
    apply BitVec.eq_of_toNat_eq
    rw [BitVec.toNat_twoPow, BitVec.toNat_ofNat]
  rw [ht]
  cases hy : v.getLsbD k
  · simp only [Bool.not_false, beq_iff_eq]
    apply BitVec.eq_of_getLsbD_eq
    intro j hj
    rw [BitVec.getLsbD_and, BitVec.getLsbD_twoPow, BitVec.getLsbD_zero]
    by_cases h : k = j
    · subst h; simp [hy]
    · simp [h]
  · simp only [Bool.not_true, beq_eq_false_iff_ne, ne_eq]
    intro h
    have := congrArg (fun v => v.getLsbD k) h
    simp only [BitVec.getLsbD_and, BitVec.getLsbD_twoPow, BitVec.getLsbD_zero, hy, hk] at this
    simp at this

theorem frac_toNat {w : Nat} (v : BitVec w) (f : Nat) (hf : f ≤ w) :
    (v &&& BitVec.ofNat w (2 ^ f - 1)).toNat = v.toNat % 2 ^ f := by
  have h1 : 2 ^ f ≤ 2 ^ w := Nat.pow_le_pow_right (by decide) hf
  have h2 := Nat.two_pow_pos f
  rw [BitVec.toNat_and, BitVec.toNat_ofNat, Nat.mod_eq_of_lt (by omega),
    Nat.and_two_pow_sub_one_eq_mod]

theorem frac_ne {w : Nat} (v : BitVec w) (f : Nat) (hf : f ≤ w) :
    ((v &&& BitVec.ofNat w (2 ^ f - 1)) != 0#w) = decide (v.toNat % 2 ^ f ≠ 0) := by
  rw [Bool.eq_iff_iff, bne_iff_ne, decide_eq_true_iff, ne_eq, ← BitVec.toNat_inj, frac_toNat v f hf]
  simp

theorem quiet_bit {w : Nat} (v : BitVec w) (f : Nat) (hf : f ≤ w) (h0 : 0 < f) :
    (v &&& BitVec.ofNat w (2 ^ f - 1)) >>> (f - 1)
      = if 2 ^ (f - 1) ≤ v.toNat % 2 ^ f then 1#w else 0#w := by
  have hp : 2 ^ f = 2 * 2 ^ (f - 1) := by rw [← Nat.pow_succ']; congr 1; omega
  have hlt : v.toNat % 2 ^ f < 2 ^ f := Nat.mod_lt _ (Nat.two_pow_pos _)
  have hpos := Nat.two_pow_pos (f - 1)
  have hw : 1 < 2 ^ w := Nat.one_lt_two_pow (by omega)
  apply BitVec.eq_of_toNat_eq
  rw [BitVec.toNat_ushiftRight, frac_toNat v f hf, Nat.shiftRight_eq_div_pow]
  split
  · rw [BitVec.toNat_ofNat, Nat.mod_eq_of_lt hw]
    generalize v.toNat % 2 ^ f = q at *
    apply Nat.div_eq_of_lt_le <;> omega
  · rw [BitVec.toNat_ofNat, Nat.zero_mod]
    exact Nat.div_eq_of_lt (by omega)

theorem fclass32 {m : St} {s : Spec.State} (hr : RegRel m s) (i : Frv) :
    liftFclass m i 32 0x7f800000 0x007fffff 22
      = storeGp m i.rd (some (BitVec.ofNat 32 (Spec.fclassIdx 8 23 ((s.fp i.rs1).setWidth 32)))) := by
  unfold liftFclass
  rw [loadFp_rel hr]
  generalize (s.fp i.rs1).setWidth 32 = v
  have e1 := field_zero v 8 23 (by decide)
  have e2 := field_max v 8 23 (by decide)
  have e3 := sign_zero v 31 (by decide)
  have e4 := frac_ne v 23 (by decide)
  have e5 := quiet_bit v 23 (by decide) (by decide)
  simp only [Nat.reducePow, Nat.reduceSub, Nat.reduceMul, Nat.reduceAdd] at e1 e2 e3 e4 e5
  simp only [ir, Pred.eval, Nat.reduceSub, Nat.reducePow, e1, e2, e3, e4]
  simp only [Spec.fclassIdx, Nat.reducePow, Nat.reduceSub, Nat.reduceAdd, BitVec.toNat_ofNat,
    Nat.reduceMod, Nat.reduceLT, if_true]
  rw [e5]
  have hs : v.getLsbD 31 = true ∨ v.getLsbD 31 = false := by cases v.getLsbD 31 <;> simp
  by_cases hz : v.toNat / 8388608 % 256 = 0
  · have hn : ¬ v.toNat / 8388608 % 256 = 255 := by omega
    by_cases hm : v.toNat % 8388608 = 0 <;> rcases hs with hs | hs <;>
      simp [hz, hn, hm, hs, ir, -BitVec.getLsbD_eq_getElem]
  · by_cases hn : v.toNat / 8388608 % 256 = 255
    · by_cases hm : v.toNat % 8388608 = 0
      · rcases hs with hs | hs <;> simp [hz, hn, hm, hs, ir, -BitVec.getLsbD_eq_getElem]
      · by_cases hq : 4194304 ≤ v.toNat % 8388608 <;> rcases hs with hs | hs <;>
          simp [hz, hn, hm, hs, hq, ir, -BitVec.getLsbD_eq_getElem]
    · rcases hs with hs | hs <;> simp [hz, hn, hs, ir, -BitVec.getLsbD_eq_getElem]

theorem fclass64 {m : St} {s : Spec.State} (hr : RegRel m s) (i : Frv) :
    liftFclass m i 64 0x7ff0000000000000 0x000fffffffffffff 51
      = storeGp m i.rd (some (BitVec.ofNat 64 (Spec.fclassIdx 11 52 (s.fp i.rs1)))) := by
  unfold liftFclass
  rw [loadFp_rel hr, BitVec.setWidth_eq]
  generalize s.fp i.rs1 = v
  have e1 := field_zero v 11 52 (by decide)
  have e2 := field_max v 11 52 (by decide)
  have e3 := sign_zero v 63 (by decide)
  have e4 := frac_ne v 52 (by decide)
  have e5 := quiet_bit v 52 (by decide) (by decide)
  simp only [Nat.reducePow, Nat.reduceSub, Nat.reduceMul, Nat.reduceAdd] at e1 e2 e3 e4 e5
  simp only [ir, Pred.eval, Nat.reduceSub, Nat.reducePow, e1, e2, e3, e4]
  simp only [Spec.fclassIdx, Nat.reducePow, Nat.reduceSub, Nat.reduceAdd, BitVec.toNat_ofNat,
    Nat.reduceMod, Nat.reduceLT, if_true]
  rw [e5]
  have hs : v.getLsbD 63 = true ∨ v.getLsbD 63 = false := by cases v.getLsbD 63 <;> simp
  by_cases hz : v.toNat / 4503599627370496 % 2048 = 0
  · have hn : ¬ v.toNat / 4503599627370496 % 2048 = 2047 := by omega
    by_cases hm : v.toNat % 4503599627370496 = 0 <;> rcases hs with hs | hs <;>
      simp [hz, hn, hm, hs, ir, -BitVec.getLsbD_eq_getElem]
  · by_cases hn : v.toNat / 4503599627370496 % 2048 = 2047
    · by_cases hm : v.toNat % 4503599627370496 = 0
      · rcases hs with hs | hs <;> simp [hz, hn, hm, hs, ir, -BitVec.getLsbD_eq_getElem]
      · by_cases hq : 2251799813685248 ≤ v.toNat % 4503599627370496 <;> rcases hs with hs | hs <;>
          simp [hz, hn, hm, hs, hq, ir, -BitVec.getLsbD_eq_getElem]
    · rcases hs with hs | hs <;> simp [hz, hn, hs, ir, -BitVec.getLsbD_eq_getElem]

theorem fclassIdx_lt (e f : Nat) (v : BitVec (1 + e + f)) : Spec.fclassIdx e f v < 10 := by
  unfold Spec.fclassIdx
  simp only
  repeat' split
  all_goals omega

/-- **C44** (`FCLASS`, partial) The classification is right: the lifted code computes the number of
the class of the IEEE value.  Missing: the ISA wants the bit with that number set,
`1 << class`; the code leaves the number itself (`C44_fclass_counterexample`). -/
theorem C44_rv64_fclass_partial (cfg : Cfg) (slide : BitVec 64) (i : Frv) (start : BitVec 64)
    (len : Nat) (m : St) (s : Spec.State) (hr : Rel slide m s) (hs : s.pc = start + slide)
    (hm : i.mnem = .fclasss ∨ i.mnem = .fclassd) :
    ∃ m', lift cfg slide i start len m = some { st := m' } ∧
      Rel slide m' (s.wr i.rd (BitVec.ofNat 64
        (if i.mnem = .fclasss then Spec.fclassIdx 8 23 ((s.fp i.rs1).setWidth 32)
         else Spec.fclassIdx 11 52 (s.fp i.rs1))) len) := by
  have hr' : RegRel { m with pc := .const start } s := hr.1
  have h : liftPlain slide i { m with pc := .const start }
      = some (some (storeGp { m with pc := .const start } i.rd (some (BitVec.ofNat 64
        (if i.mnem = .fclasss then Spec.fclassIdx 8 23 ((s.fp i.rs1).setWidth 32)
         else Spec.fclassIdx 11 52 (s.fp i.rs1)))))) := by
    rcases i with ⟨mn, rd, rs1, rs2, imm, rs3, misc⟩
    rcases hm with hm | hm <;> simp only at hm <;> subst hm
    · simp only [liftPlain, fclass32 hr', if_true]
      rw [storeGp_count]
      have := fclassIdx_lt 8 23 ((s.fp rs1).setWidth 32); omega
    · simp only [liftPlain, fclass64 hr', reduceCtorEq, if_false]
  have := lift_rel (cfg := cfg) (len := len) h (storeGp64_rel hr' i.rd _)
  rwa [← hs] at this

/-- `fclass.d x3, f0` with `f0 = 1.0`: class 6 (positive normal). -/
example : ∃ m', lift {} 0#64 ⟨.fclassd, 3, 0, 0, 0, 0, 7⟩ 0x400000#64 4 (exSt 0x400000#64)
      = some { st := m' } ∧ Rel 0#64 m' ((exSpec 0x400000#64).wr 3 6#64 4) :=
  C44_rv64_fclass_partial {} 0#64 ⟨.fclassd, 3, 0, 0, 0, 0, 7⟩ 0x400000#64 4 _ _
    (exRel _ _) (by decide) (Or.inr rfl)

/-- **C44 is false for `FCLASS`**: 1.0 is a positive normal number, so `rd` must be `1 << 6 = 64`;
the lifted code gives 6. -/
theorem C44_fclass_counterexample :
    (lift {} 0#64 ⟨.fclassd, 3, 0, 0, 0, 0, 7⟩ 0x400000#64 4 (exSt 0x400000#64)).map (fun o => o.st.gp 3)
      = some (some 6#64) ∧
    (1#64) <<< (Spec.fclassIdx 11 52 0x3ff0000000000000#64) = 64#64 := by
  decide +kernel

/-- Sign injection on the bit patterns: magnitude of `a`, sign from `b`. -/
def Spec.sgnj {w : Nat} (m : Mnem) (a b : BitVec (w + 1)) : BitVec (w + 1) :=
  BitVec.cons (match m with
       | .fsgnjs | .fsgnjd => b.msb
       | .fsgnjns | .fsgnjnd => !b.msb
       | _ => a.msb ^^ b.msb) (a.setWidth w)

theorem sgnj_val {w : Nat} (a b : BitVec (w + 1)) (m : Mnem) (keep zero : Bool)
    (hm : (keep = false ∧ zero = true ∧ (m = .fsgnjs ∨ m = .fsgnjd)) ∨
      (keep = false ∧ zero = false ∧ (m = .fsgnjns ∨ m = .fsgnjnd)) ∨
      (keep = true ∧ (m = .fsgnjxs ∨ m = .fsgnjxd))) :
    (if !keep && zero then a &&& BitVec.ofNat (w + 1) (2 ^ w - 1)
      else if !keep && !zero then a ||| BitVec.ofNat (w + 1) (2 ^ w) else a)
      ^^^ (b &&& BitVec.ofNat (w + 1) (2 ^ w)) = Spec.sgnj m a b := by
  have h1 : ∀ k, (BitVec.ofNat (w + 1) (2 ^ w)).getLsbD k = decide (k = w) := by
    intro k
    rw [BitVec.getLsbD_ofNat, Nat.testBit_two_pow]
    by_cases h : k = w
    · subst h; simp
    · simp [h, Ne.symm h]
  have h2 : ∀ k, (BitVec.ofNat (w + 1) (2 ^ w - 1)).getLsbD k = decide (k < w) := by
    intro k
    rw [BitVec.getLsbD_ofNat, Nat.testBit_two_pow_sub_one]
    by_cases h : k < w
    · simp [show k < w + 1 by omega, h]
    · simp [h]
  have ha : a.msb = a.getLsbD w := by rw [BitVec.msb_eq_getLsbD_last]; simp
  have hb : b.msb = b.getLsbD w := by rw [BitVec.msb_eq_getLsbD_last]; simp
  apply BitVec.eq_of_getLsbD_eq
  intro k hk
  unfold Spec.sgnj
  rw [BitVec.getLsbD_cons, BitVec.getLsbD_setWidth, ha, hb]
  by_cases hl : k = w
  · subst hl
    rcases hm with ⟨rfl, rfl, rfl | rfl⟩ | ⟨rfl, rfl, rfl | rfl⟩ | ⟨rfl, rfl | rfl⟩ <;>
      simp [h1, h2, -BitVec.getLsbD_eq_getElem]
  · have hl' : k < w := by omega
    rcases hm with ⟨rfl, rfl, rfl | rfl⟩ | ⟨rfl, rfl, rfl | rfl⟩ | ⟨rfl, rfl | rfl⟩ <;>
      simp [h1, h2, hl, hl', -BitVec.getLsbD_eq_getElem]

/-- **C44** (double-precision sign injection) `FSGNJ.D`, `FSGNJN.D`, `FSGNJX.D`. -/
theorem C44_rv64_fsgnjd (cfg : Cfg) (slide : BitVec 64) (i : Frv) (start : BitVec 64)
    (len : Nat) (m : St) (s : Spec.State) (hr : Rel slide m s) (hs : s.pc = start + slide)
    (hm : i.mnem = .fsgnjd ∨ i.mnem = .fsgnjnd ∨ i.mnem = .fsgnjxd) :
    ∃ m', lift cfg slide i start len m = some { st := m' } ∧
      Rel slide m' { s with
        fp := fun k => if k = i.rd then Spec.sgnj (w := 63) i.mnem (s.fp i.rs1) (s.fp i.rs2) else s.fp k
        pc := s.pc + BitVec.ofNat 64 len } := by
  have hr' : RegRel { m with pc := .const start } s := hr.1
  have hcore : ∀ keep zero, liftFsgn { m with pc := .const start } i 64 keep zero
      = storeFp { m with pc := .const start } i.rd (some
        ((if !keep && zero then s.fp i.rs1 &&& BitVec.ofNat 64 (2 ^ (64 - 1) - 1)
          else if !keep && !zero then s.fp i.rs1 ||| BitVec.ofNat 64 (2 ^ (64 - 1)) else s.fp i.rs1)
          ^^^ (s.fp i.rs2 &&& BitVec.ofNat 64 (2 ^ (64 - 1))))) := by
    intro keep zero
    unfold liftFsgn
    rw [loadFp_rel hr', loadFp_rel hr', BitVec.setWidth_eq, BitVec.setWidth_eq]
    cases keep <;> cases zero <;> simp only [ir, Bool.not_true, Bool.not_false, Bool.and_true,
      Bool.and_false, Bool.and_self, if_true, if_false, Bool.false_eq_true]
  have h : liftPlain slide i { m with pc := .const start }
      = some (some (storeFp { m with pc := .const start } i.rd
        (some (Spec.sgnj (w := 63) i.mnem (s.fp i.rs1) (s.fp i.rs2))))) := by
    rcases i with ⟨mn, rd, rs1, rs2, imm, rs3, misc⟩
    rcases hm with hm | hm | hm <;> simp only at hm <;> subst hm <;>
      simp only [liftPlain, hcore] <;> exact congrArg (fun v => some (some (storeFp _ rd (some v)))) (sgnj_val (w := 63) _ _ _ _ _ (by simp))
  have hfp := storeFp_rel hr' i.rd (Spec.sgnj (w := 63) i.mnem (s.fp i.rs1) (s.fp i.rs2))
  rw [BitVec.setWidth_eq] at hfp
  have := lift_rel (cfg := cfg) (len := len) h hfp
  rwa [← hs] at this

example : Spec.sgnj (w := 63) .fsgnjnd 0x3ff0000000000000#64 0#64 = 0xbff0000000000000#64 := by decide +kernel

end Verif.RV64
