import Verif.X86.MulDiv

/-! Addresses, conditions, bit operations and flag images against the specification. -/

set_option linter.unusedSimpArgs false
set_option linter.constructorNameAsVariable false

namespace Verif.X86.Spec

open Verif.IR

variable {slide : BitVec 64} {m : St} {s s' : S}

/-! ### LEA, XLAT -/

/-- A LEA operand the lifter handles: a RIP-relative address has no index and no 32-bit address
size. -/
def LeaOk (o : MemOp) : Prop := o.base = .ip → o.a32 = false ∧ o.idx = none

theorem body_lea (h : Rel slide m s) (z : Sz) (d : Op) (o : MemOp) (hd : Op.plain d = true)
    (ho : LeaOk o) (hs : s.write z d ((s.offset o).setWidth z.bits) = some s') :
    ∃ m', liftLea slide m z d o = some m' ∧ Rel slide m' s' := by
  have hv : (if o.base = .ip then m.ipRel slide o.off
      else if o.a32 = true then zext 64 (leaSum m 32 o) else leaSum m 64 o) = some (s.offset o) := by
    obtain ⟨seg, a32, base, idx, off⟩ := o
    have hi := pc_get slide off s.ip m.pc h.pc
    have hm64 : ∀ (x : BitVec 64) (k : Fin 4), x <<< k.val = x * BitVec.ofNat 64 (2 ^ k.val) := by
      intro x k
      rw [BitVec.shiftLeft_eq_mul_twoPow]; congr 1; revert k; decide
    have hm32 : ∀ (x : BitVec 32) (k : Fin 4), x <<< k.val = x * BitVec.ofNat 32 (2 ^ k.val) := by
      intro x k
      rw [BitVec.shiftLeft_eq_mul_twoPow]; congr 1; revert k; decide
    have hk64 : ∀ k : Fin 4, (BitVec.ofNat 64 k.val).toNat = k.val := by decide
    have hk32 : ∀ k : Fin 4, (BitVec.ofNat 32 k.val).toNat = k.val := by decide
    have hl64 : ∀ k : Fin 4, k.val < 64 := by decide
    have hl32 : ∀ k : Fin 4, k.val < 32 := by decide
    simp only [LeaOk] at ho
    cases base with
    | ip =>
      obtain ⟨ha, hx⟩ := ho rfl
      subst ha hx
      simp only [if_true, St.ipRel, hi, S.offset, Bool.false_eq_true, if_false]
      simp
    | _ =>
      cases idx <;> cases a32 <;>
        simp only [reduceCtorEq, if_false, if_true, Bool.false_eq_true, leaSum, S.offset, h.gp, trunc_some,
          shl_some, hk64, hk32, hl64, hl32, add_some, zext_some, Option.some.injEq, extract0,
          setWidth_add32, setWidth_mul32, hm64, hm32, setWidth_pow32, BitVec.setWidth_eq] <;>
        (try simp) <;> ac_rfl
  simp only [liftLea, hv, trunc_some]
  exact h.opStore z d _ hd hs

theorem body_xlat (h : Rel slide m s) :
    ∃ m', liftXlat m false = some m' ∧
      Rel slide m' (s.setReg rax .b (s.mem (s.gp rbx + (s.reg rax .b).setWidth 64))) := by
  have hr := h.read (s.gp rbx + (s.reg rax .b).setWidth 64) 1 1 (Nat.mod_one _)
  refine ⟨m.store rax .b (some (s.mem.read (s.gp rbx + (s.reg rax .b).setWidth 64) 1)), ?_, ?_⟩
  · simp only [liftXlat, Bool.false_eq_true, if_false, h.gp, h.get, zext_some, add_some, hr,
      Option.bind_eq_bind, Option.bind_some, Option.pure_def]
  · have e : s.mem.read (s.gp rbx + (s.reg rax .b).setWidth 64) 1
        = s.mem (s.gp rbx + (s.reg rax .b).setWidth 64) := by
      apply BitVec.eq_of_getLsbD_eq
      intro i hi
      rw [Mem.getLsbD_read]
      have h0 : i / 8 = 0 := by omega
      simp [h0, Nat.mod_eq_of_lt hi, hi]
    rw [e]
    exact h.store rax .b _

/-! ### Conditions -/

theorem Rel.cond (h : Rel slide m s) (c : Cond) (b : Bool) (hc : s.cond c = some b) :
    flagCond m c = some (BitVec.ofBool b) := by
  have hn : ∀ b, ~~~ (BitVec.ofBool b) = BitVec.ofBool (!b) := by decide
  have ho : ∀ a b, BitVec.ofBool a ||| BitVec.ofBool b = BitVec.ofBool (a || b) := by decide
  have hx : ∀ a b, (BitVec.ofBool a != BitVec.ofBool b) = (a != b) := by decide
  cases c <;> simp only [S.cond, Option.map_eq_some_iff, Option.bind_eq_bind, Option.bind_eq_some_iff,
    Option.pure_def, Option.some.injEq] at hc <;>
    first
    | (simp only [flagCond, h.getFl hc]; done)
    | (obtain ⟨x, h1, rfl⟩ := hc
       simp only [flagCond, h.getFl h1, not_some, hn]; done)
    | (obtain ⟨x, h1, y, h2, rfl⟩ := hc
       simp only [flagCond, h.getFl h1, h.getFl h2, not_some, or_some, icmp_some, Pred.eval, hx, hn, ho,
         Bool.not_or, Option.some.injEq]
       done)
    | (obtain ⟨x, h1, y, h2, rfl⟩ := hc
       simp only [flagCond, h.getFl h1, h.getFl h2, not_some, or_some, icmp_some, Pred.eval, hx, hn, ho]
       all_goals (cases x <;> cases y <;> rfl))
    | (obtain ⟨x, h1, y, h2, w, h3, rfl⟩ := hc
       simp only [flagCond, h.getFl h1, h.getFl h2, h.getFl h3, not_some, or_some, icmp_some, Pred.eval,
         hx, hn, ho]
       all_goals (cases x <;> cases y <;> cases w <;> rfl))

theorem body_cmov (h : Rel slide m s) (c : Cond) (z : Sz) (d r : Op) (hd : Op.plain d = true)
    (hr : Op.plain r = true) (hs : exec s (.cmov c z d r) = some s') :
    ∃ m', liftCmov slide m c z d r = some m' ∧ Rel slide m' s' := by
  simp only [exec, Option.bind_eq_bind, Option.bind_eq_some_iff] at hs
  obtain ⟨a, ha, b, hb, x, hx, hs⟩ := hs
  simp only [liftCmov, h.opLoad z d a hd ha, h.opLoad z r b hr hb, Option.bind_eq_bind,
    Option.bind_some, h.cond c x hx, select_bool]
  have : (if x = true then some b else some a) = some (if x = true then b else a) := by split <;> rfl
  rw [this]
  exact h.opStore z d _ hd hs

theorem body_setcc (h : Rel slide m s) (c : Cond) (d : Op) (hd : Op.plain d = true)
    (hs : exec s (.setcc c d) = some s') :
    ∃ m', liftSetcc slide m c d = some m' ∧ Rel slide m' s' := by
  simp only [exec, Option.bind_eq_bind, Option.bind_eq_some_iff] at hs
  obtain ⟨x, hx, hs⟩ := hs
  simp only [liftSetcc, h.cond c x hx, zext_some, ofBool_setWidth]
  exact h.opStore .b d _ hd hs

/-! ### Sign extension of the accumulator -/

theorem body_cext (h : Rel slide m s) (z : Sz) :
    Rel slide (liftCext m z) (s.setReg rax z ((s.reg rax (extSz z)).signExtend z.bits)) := by
  rw [show extSz z = z.half by cases z <;> rfl]
  simp only [liftCext, h.get, sext_some]
  exact h.store rax z _

theorem sshiftRight_all {w : Nat} (hw : 0 < w) (x : BitVec w) :
    x.sshiftRight (w - 1) = if x.msb then BitVec.allOnes w else 0 := by
  apply BitVec.eq_of_getLsbD_eq
  intro i hi
  rw [BitVec.getLsbD_sshiftRight]
  have h1 : ¬ w ≤ i := by omega
  simp only [h1, decide_false, Bool.not_false, Bool.true_and]
  have h2 : (if w - 1 + i < w then x.getLsbD (w - 1 + i) else x.msb) = x.msb := by
    split
    · have : i = 0 := by omega
      subst this; rw [BitVec.msb_eq_getLsbD_last]; rfl
    · rfl
  rw [h2]
  cases x.msb <;> simp [hi]

theorem body_csep (h : Rel slide m s) (z : Sz) :
    Rel slide (liftCsep m z) (s.setReg rdx z (if (s.reg rax z).msb then BitVec.allOnes _ else 0)) := by
  have h0 : 0 < z.bits := by have := bits_gt z; omega
  have hn : (BitVec.ofNat z.bits (z.bits - 1)).toNat = z.bits - 1 := ofNat_toNat_lt (lt_two_pow (by omega))
  simp only [liftCsep, h.get, ashr_some, hn, if_pos (by omega : z.bits - 1 < z.bits), sshiftRight_all h0]
  exact h.store rdx z _

/-! ### Bit scans and counts -/

theorem Rel.zfOnly (h : Rel slide m s) (v : Val 1) (b : Bool) (hv : v = some (BitVec.ofBool b)) :
    Rel slide ((m.setF .zf v).undef [.of, .sf, .af, .pf, .cf])
      (s.setFl none none (some b) none none none) := by
  refine h.flags rfl rfl ?_
  intro f x hx
  have hdf := h.fl .df x
  cases f <;> simp only [S.setFl, reduceCtorEq, Option.some.injEq] at hx
  · subst hx; rw [← hv]; rfl
  · exact hdf hx

theorem bitscan_res (trailing : Bool) {w : Nat} (hw : 0 < w) (a : BitVec w) (ha : a ≠ 0#w) :
    (if trailing = true then cttz true (some a)
      else IR.sub (some (BitVec.ofNat _ (w - 1))) (ctlz true (some a))) =
    some (BitVec.ofNat w (if trailing = true then Bits.ctz a else w - 1 - Bits.clz a)) := by
  cases trailing
  · simp only [Bool.false_eq_true, if_false]
    have : ctlz true (some a) = some (BitVec.ofNat w (Bits.clz a)) := by
      simp [ctlz, ha]
    rw [this, sub_some]
    have hle : Bits.clz a ≤ w - 1 := by
      have h1 := Bits.clz_le a
      rcases Nat.lt_or_ge (Bits.clz a) w with h2 | h2
      · omega
      · exfalso; apply ha
        apply BitVec.eq_of_getLsbD_eq
        intro i hi
        have h3 := (Bits.clz_spec a).1 (w - 1 - i) (by omega)
        rw [BitVec.getMsbD_eq_getLsbD] at h3
        simpa [show w - 1 - i < w by omega, show w - 1 - (w - 1 - i) = i by omega] using h3
    congr 1
    apply BitVec.eq_of_toNat_eq
    have hp := @Nat.lt_two_pow_self w
    rw [BitVec.toNat_sub, BitVec.toNat_ofNat, BitVec.toNat_ofNat, BitVec.toNat_ofNat,
      Nat.mod_eq_of_lt (by omega : w - 1 < 2 ^ w), Nat.mod_eq_of_lt (by omega : Bits.clz a < 2 ^ w),
      Nat.mod_eq_of_lt (by omega : w - 1 - Bits.clz a < 2 ^ w),
      show 2 ^ w - Bits.clz a + (w - 1) = (w - 1 - Bits.clz a) + 2 ^ w by omega, Nat.add_mod_right]
    exact Nat.mod_eq_of_lt (by omega)
  · simp [cttz, ha]

theorem body_bitscan (h : Rel slide m s) (trailing : Bool) (z : Sz) (d r : Op)
    (hd : ∃ x, d = .reg x) (hr : Op.plain r = true)
    (hs : stepBitscan s trailing false z d r = some s') :
    ∃ m', liftBitscan slide m trailing z d r = some m' ∧ Rel slide m' s' := by
  simp only [stepBitscan, Option.bind_eq_bind, Option.bind_eq_some_iff, Bool.false_eq_true, if_false,
    Option.pure_def, Option.some.injEq] at hs
  obtain ⟨a, ha, s1, hw, hs⟩ := hs
  have h0 : 0 < z.bits := by have := bits_gt z; omega
  obtain ⟨x, rfl⟩ := hd
  have heq : icmp .eq (some a) (some 0) = some (BitVec.ofBool (decide (a = 0))) := by
    rw [icmp_some]; simp only [Pred.eval]
    exact congrArg (fun b => some (BitVec.ofBool b)) (zero_eq a)
  suffices hm : ∃ m1, bitscanStore slide m (some (BitVec.ofBool (decide (a = 0)))) z (.reg x)
      (if trailing = true then cttz true (some a)
      else IR.sub (some (BitVec.ofNat _ (z.bits - 1))) (ctlz true (some a))) = some m1 ∧ Rel slide m1 s1 by
    obtain ⟨m1, e1, e2⟩ := hm
    refine ⟨?_, ?_, ?_⟩
    rotate_left
    · simp only [liftBitscan, h.opLoad z r a hr ha, Option.bind_eq_bind, Option.bind_some, heq, e1,
        Option.pure_def]
      rfl
    · rw [← hs]; exact e2.zfOnly _ _ rfl
  by_cases hz : a = 0
  · simp only [S.writeIf, hz, ne_eq, not_true_eq_false, decide_false, Bool.false_eq_true, if_false,
      Option.some.injEq] at hw
    subst hw
    simp only [hz, decide_true]
    cases z with
    | d =>
      refine ⟨_, rfl, ?_⟩
      rw [select_bool, if_pos rfl, h.gp]
      have := h.setGp x (s.gp x)
      have e : s.setGp x (s.gp x) = s := by
        simp only [S.setGp]
        congr 1
        funext y; split
        · rename_i e; rw [e]
        · rfl
      rw [e] at this; exact this
    | _ =>
      simp only [bitscanStore, h.opLoad _ (.reg x) _ rfl rfl, Option.bind_eq_bind, Option.bind_some,
        select_bool, if_true]
      exact h.opStore _ (.reg x) _ rfl (write_read (by simp) (by simp [UpperZero]) rfl)
  · rw [bitscan_res trailing h0 a hz]
    simp only [S.writeIf, hz, ne_eq, not_false_eq_true, decide_true, if_true] at hw
    simp only [hz, decide_false]
    cases z with
    | d =>
      obtain ⟨m1, e1, e2⟩ := h.opStore .d (.reg x) _ rfl hw
      refine ⟨m1, ?_, e2⟩
      rw [← e1]
      simp only [bitscanStore, select_bool, Bool.false_eq_true, if_false, opStore, St.store]
    | _ =>
      simp only [bitscanStore, h.opLoad _ (.reg x) _ rfl rfl, Option.bind_eq_bind, Option.bind_some,
        select_bool, Bool.false_eq_true, if_false]
      exact h.opStore _ (.reg x) _ rfl hw

theorem body_popcnt (h : Rel slide m s) (z : Sz) (d r : Op)
    (hd : Op.plain d = true) (hr : Op.plain r = true) (hs : exec s (.popcnt z d r) = some s') :
    ∃ m', liftPopcnt slide m z d r = some m' ∧ Rel slide m' s' := by
  simp only [exec, Option.bind_eq_bind, Option.bind_eq_some_iff, Option.pure_def,
    Option.some.injEq] at hs
  obtain ⟨a, ha, s1, hw, hs⟩ := hs
  obtain ⟨m1, e1, e2⟩ := h.opStore z d _ hd hw
  refine ⟨?_, ?_, ?_⟩
  rotate_left
  · simp only [liftPopcnt, h.opLoad z r a hr ha, Option.bind_eq_bind, Option.bind_some, ctpop, un_some,
      e1, Option.pure_def]
    rfl
  · rw [← hs]
    refine e2.flags rfl rfl ?_
    intro f x hx
    have hdf := e2.fl .df x
    cases f <;> simp only [S.setFl, Option.some.injEq] at hx <;>
      first
      | (subst hx; rfl)
      | (subst hx
         simp [flagZ, isZero, St.setF, St.setPf, St.getF, icmp_some, Pred.eval, zero_eq]; done)
      | exact hdf hx

/-! ### Bit tests -/

theorem pow_bit {w n i : Nat} (hi : i < w) :
    (BitVec.ofNat w (2 ^ n)).getLsbD i = decide (i = n) := by
  rw [BitVec.getLsbD_ofNat]
  simp only [hi, decide_true, Bool.true_and, Nat.testBit_two_pow]
  rw [Bool.eq_iff_iff]; simp [eq_comm]

theorem one_shl {w n : Nat} : (BitVec.ofNat w 1) <<< n = BitVec.ofNat w (2 ^ n) := by
  apply BitVec.eq_of_getLsbD_eq
  intro i hi
  rw [pow_bit hi, BitVec.getLsbD_shiftLeft, BitVec.getLsbD_ofNat]
  rcases Nat.lt_trichotomy i n with h | h | h
  · simp [h, show i ≠ n by omega]
  · subst h; simp [hi]; omega
  · have h1 : i - n ≠ 0 := by omega
    have : Nat.testBit 1 (i - n) = false := by
      rw [show (1 : Nat) = 2 ^ 0 from rfl, Nat.testBit_two_pow]; simp; omega
    simp [this, show i ≠ n by omega]

theorem and_pow {w n : Nat} (hn : n < w) (a : BitVec w) :
    ((a &&& BitVec.ofNat w (2 ^ n)) != 0#w) = a.getLsbD n := by
  cases hb : a.getLsbD n
  · have : a &&& BitVec.ofNat w (2 ^ n) = 0#w := by
      apply BitVec.eq_of_getLsbD_eq
      intro i hi
      rw [BitVec.getLsbD_and, pow_bit hi]
      by_cases e : i = n
      · subst e; simp [hb]
      · simp [e]
    simp [this]
  · simp only [bne_iff_ne, ne_eq]
    intro e
    have := congrArg (fun x => x.getLsbD n) e
    simp only [BitVec.getLsbD_and, pow_bit hn, hb, decide_true, Bool.and_true, BitVec.getLsbD_zero] at this
    exact absurd this (by decide)

theorem and_mask (z : Sz) (i : BitVec z.bits) :
    i &&& BitVec.ofNat z.bits (z.bits - 1) = BitVec.ofNat z.bits (i.toNat % z.bits) := by
  have key : ∀ (w k : Nat) (i : BitVec w), 2 ^ k ≤ 2 ^ w →
      i &&& BitVec.ofNat w (2 ^ k - 1) = BitVec.ofNat w (i.toNat % 2 ^ k) := by
    intro w k i hk
    have hp : 0 < 2 ^ k := Nat.two_pow_pos k
    apply BitVec.eq_of_toNat_eq
    rw [BitVec.toNat_and, BitVec.toNat_ofNat, BitVec.toNat_ofNat,
      Nat.mod_eq_of_lt (by omega : 2 ^ k - 1 < 2 ^ w), Nat.and_two_pow_sub_one_eq_mod,
      Nat.mod_eq_of_lt (Nat.lt_of_le_of_lt (Nat.mod_le _ _) i.isLt)]
  cases z
  · exact key 8 3 i (by decide)
  · exact key 16 4 i (by decide)
  · exact key 32 5 i (by decide)
  · exact key 64 6 i (by decide)

theorem btOp_some (k : BitOp) (hk : k ≠ .bt) {w : Nat} (n : Nat) (a : BitVec w) :
    btOp k (some (BitVec.ofNat w (2 ^ n))) (some a) = some (bitUpd k a n) := by
  cases k <;> first | exact absurd rfl hk | rfl

/-- The displacement of the addressed word. -/
theorem bt_disp (z : Sz) (i : BitVec z.bits) :
    (i.sshiftRight z.lg).signExtend 64 * BitVec.ofNat 64 z.bytes =
      BitVec.ofInt 64 (i.toInt / z.bits * z.bytes) := by
  have h1 : (i.sshiftRight z.lg).signExtend 64 = BitVec.ofInt 64 (i.toInt / z.bits) := by
    have e := ext_num true (v := 64) (i.sshiftRight z.lg) (bits_le z)
    simp only [extOp, if_true, sext_some, Option.some.injEq, num] at e
    rw [e, BitVec.toInt_sshiftRight, Int.shiftRight_eq_div_pow]
    congr 2
    cases z <;> rfl
  rw [h1, BitVec.ofInt_mul]
  congr 1

/-- The operands of a bit test the lifter handles: a register or memory base (naturally aligned
word), a register or immediate index, no LOCK on a register or with BT. -/
structure BittestOk (s : S) (k : BitOp) (z : Sz) (lock : Bool) (d r : Op) : Prop where
  plain : Op.plain d = true
  idx : (∃ x, r = .reg x) ∨ ∃ v, r = .imm v
  lock : lock = true → k ≠ .bt ∧ ∃ o, d = .mem o
  align : ∀ o i, d = .mem o → s.read z r = some i → (bitAddr s z o r i).toNat % z.bytes = 0

theorem Rel.cfOnly (h : Rel slide m s) (v : Val 1) (b : Bool) (hv : v = some (BitVec.ofBool b)) :
    Rel slide ((m.setF .cf v).undef [.of, .sf, .af, .pf])
      (s.setFl none none (s.fl .zf) none none (some b)) := by
  refine h.flags rfl rfl ?_
  intro f x hx
  have hdf := h.fl .df x
  have hzf := h.fl .zf x
  cases f <;> simp only [S.setFl, reduceCtorEq, Option.some.injEq] at hx
  · exact hzf hx
  · subst hx; rw [← hv]; rfl
  · exact hdf hx

theorem body_bittest (h : Rel slide m s) (k : BitOp) (z : Sz) (lock : Bool) (d r : Op)
    (hok : BittestOk s k z lock d r) (hs : stepBittest s k z d r = some s') :
    ∃ m', liftBittest slide m k z lock d r = some m' ∧ Rel slide m' s' := by
  simp only [stepBittest] at hs
  split at hs
  · simp at hs
  · rename_i hz
    simp only [Option.bind_eq_bind, Option.bind_eq_some_iff] at hs
    obtain ⟨i, hi, hs⟩ := hs
    have h0 : 0 < z.bits := by have := bits_gt z; omega
    have hnlt : i.toNat % z.bits < z.bits := Nat.mod_lt _ h0
    -- the index the lifter uses
    obtain ⟨j, hj, hjm, hji⟩ : ∃ j : BitVec z.bits, btIndex slide m z r = some (some j) ∧
        j.toNat % z.bits = i.toNat % z.bits ∧ ((∃ x, r = .reg x) → j = i) := by
      rcases hok.idx with ⟨x, rfl⟩ | ⟨v, rfl⟩
      · refine ⟨i, ?_, rfl, fun _ => rfl⟩
        exact h.opLoad z (.reg x) i rfl hi
      · refine ⟨(v.setWidth (Sz.bits .b)).setWidth z.bits, rfl, ?_, by rintro ⟨x, hx⟩; simp at hx⟩
        simp only [S.read, Option.some.injEq] at hi
        subst hi
        simp only [BitVec.toNat_setWidth]
        have hd1 : ∃ e, z.bits * e = 2 ^ Sz.bits .b := by
          cases z
          · exact ⟨32, by decide⟩
          · exact ⟨16, by decide⟩
          · exact ⟨8, by decide⟩
          · exact ⟨4, by decide⟩
        have hd2 : ∃ e, z.bits * e = 2 ^ z.bits := by
          cases z
          · exact ⟨32, by decide⟩
          · exact ⟨4096, by decide⟩
          · exact ⟨2 ^ 27, by decide⟩
          · exact ⟨2 ^ 58, by decide⟩
        have hle : 2 ^ Sz.bits .b ≤ 2 ^ z.bits := by cases z <;> decide
        have hpos : 0 < 2 ^ Sz.bits .b := by decide
        have hlt := Nat.mod_lt v.toNat hpos
        rw [Nat.mod_eq_of_lt (by omega : v.toNat % 2 ^ Sz.bits .b < 2 ^ z.bits)]
        obtain ⟨e1, he1⟩ := hd1
        obtain ⟨e2, he2⟩ := hd2
        rw [← he1, ← he2, Nat.mod_mul_right_mod, Nat.mod_mul_right_mod]
    have hmask : IR.shl (some (BitVec.ofNat z.bits 1)) (IR.and (some j) (some (BitVec.ofNat _ (z.bits - 1))))
        = some (BitVec.ofNat z.bits (2 ^ (i.toNat % z.bits))) := by
      have htn : (BitVec.ofNat z.bits (i.toNat % z.bits)).toNat = i.toNat % z.bits :=
        ofNat_toNat_lt (lt_two_pow (Nat.le_of_lt hnlt))
      rw [and_some, and_mask, hjm, shl_some, htn, if_pos hnlt, one_shl]
    suffices hm : ∃ a s1 m1, btAccess slide m k z lock d r (some j)
        (some (BitVec.ofNat z.bits (2 ^ (i.toNat % z.bits)))) = some (some a, m1) ∧ Rel slide m1 s1 ∧
        s1.setFl none none (s1.fl .zf) none none (some (a.getLsbD (i.toNat % z.bits))) = s' by
      obtain ⟨a, s1, m1, e1, e2, e3⟩ := hm
      refine ⟨?_, ?_, ?_⟩
      rotate_left
      · simp only [liftBittest, hz, if_false, hj, Option.bind_eq_bind, Option.bind_some, hmask, e1,
          Option.pure_def]
        rfl
      · rw [← e3]
        apply e2.cfOnly
        rw [and_some, icmp_some]
        simp only [Pred.eval]
        exact congrArg (fun b => some (BitVec.ofBool b)) (and_pow hnlt a)
    have regcase : (∀ o, d ≠ .mem o) → (do
          let a ← s.read z d
          let s ← s.writeIf (k ≠ .bt) z d (bitUpd k a (i.toNat % z.bits))
          return s.setFl none none (s.fl .zf) none none (some (a.getLsbD (i.toNat % z.bits)))) = some s' →
        ∃ a s1 m1, btAccess slide m k z lock d r (some j)
        (some (BitVec.ofNat z.bits (2 ^ (i.toNat % z.bits)))) = some (some a, m1) ∧ Rel slide m1 s1 ∧
        s1.setFl none none (s1.fl .zf) none none (some (a.getLsbD (i.toNat % z.bits))) = s' := by
      intro hnm hs
      simp only [Option.bind_eq_bind, Option.bind_eq_some_iff, Option.pure_def, Option.some.injEq] at hs
      obtain ⟨a, ha, s1, hw, hs⟩ := hs
      have hlk : lock = false := by
        cases lock
        · rfl
        · obtain ⟨_, o, ho⟩ := hok.lock rfl
          exact absurd ho (hnm o)
      subst hlk
      have hl := h.opLoad z d a hok.plain ha
      have hacc : btAccess slide m k z false d r (some j)
          (some (BitVec.ofNat z.bits (2 ^ (i.toNat % z.bits)))) =
          (opStoreIf slide m (k ≠ .bt) z d (btOp k (some (BitVec.ofNat z.bits (2 ^ (i.toNat % z.bits))))
            (some a))).bind (fun m1 => some (some a, m1)) := by
        cases d with
        | mem o => exact absurd rfl (hnm o)
        | _ =>
          simp only [btAccess, Bool.false_eq_true, if_false, hl, Option.bind_eq_bind, Option.bind_some]
      rw [hacc]
      by_cases hk : k = .bt
      · subst hk
        simp only [S.writeIf, ne_eq, not_true_eq_false, decide_false, Bool.false_eq_true, if_false,
          Option.some.injEq] at hw
        subst hw
        exact ⟨a, s, m, by simp [opStoreIf], h, hs⟩
      · simp only [S.writeIf, ne_eq, hk, not_false_eq_true, decide_true, if_true] at hw
        obtain ⟨m1, e1, e2⟩ := h.opStore z d _ hok.plain hw
        refine ⟨a, s1, m1, ?_, e2, hs⟩
        rw [btOp_some k hk]
        simp [opStoreIf, hk, e1]
    cases d with
    | mem o =>
      simp only [Option.pure_def, Option.some.injEq] at hs
      have hal := hok.align o i rfl hi
      have haddr : btAddr slide m z o r (some j) = some (some (bitAddr s z o r i)) := by
        simp only [btAddr, opAddr_plain h o hok.plain, Option.bind_eq_bind, Option.bind_some]
        rcases hok.idx with ⟨x, rfl⟩ | ⟨v, rfl⟩
        · have hlg : (BitVec.ofNat z.bits z.lg).toNat = z.lg := by
            apply ofNat_toNat_lt; cases z <;> decide
          have hll : z.lg < z.bits := by cases z <;> decide
          rw [hji ⟨x, rfl⟩]
          simp only [ashr_some, hlg, if_pos hll, sext_some, mul_some, add_some, bitAddr, bt_disp]
        · rfl
      have hld := h.read (bitAddr s z o r i) z.bytes z.bytes hal
      by_cases hk : k = .bt
      · subst hk
        simp only [if_true] at hs
        have hlk : lock = false := by
          cases lock
          · rfl
          · exact absurd rfl (hok.lock rfl).1
        subst hlk
        refine ⟨_, s, m, ?_, h, hs⟩
        simp only [btAccess, haddr, Option.bind_eq_bind, Option.bind_some, hld, btStore]
        simp
      · simp only [hk, if_false] at hs
        obtain ⟨m1, e1, e2, _⟩ := h.write (bitAddr s z o r i) z.bytes z.bytes
          (bitUpd k (s.mem.read (bitAddr s z o r i) z.bytes : BitVec z.bits) (i.toNat % z.bits)) hal
        refine ⟨_, _, m1, ?_, e2, hs⟩
        have hop := btOp_some k hk (i.toNat % z.bits) (s.mem.read (bitAddr s z o r i) z.bytes : BitVec z.bits)
        simp only [btAccess, haddr, Option.bind_eq_bind, Option.bind_some, hld, btStore, hop]
        simp only [hk, ne_eq, not_false_eq_true, decide_true, Bool.or_true, if_true, e1, Option.bind_some]
    | reg x => exact regcase (by simp) hs
    | regH x => exact regcase (by simp) hs
    | imm v => exact regcase (by simp) hs

end Verif.X86.Spec
