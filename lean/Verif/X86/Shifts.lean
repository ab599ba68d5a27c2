import Verif.X86.Bodies

/-! Shift, rotate and CMPXCHG bodies against the specification. -/

set_option linter.unusedSimpArgs false

namespace Verif.X86.Spec

open Verif.IR

variable {slide : BitVec 64} {m : St} {s s' : S}

/-! ### Flags from a result with given carry and overflow -/

theorem Rel.flagRes (h : Rel slide m s) {w : Nat} (r : BitVec w) (vcf vof : Val 1)
    (cf of : Option Bool) (hcf : ∀ b, cf = some b → vcf = some (BitVec.ofBool b))
    (hof : ∀ b, of = some b → vof = some (BitVec.ofBool b)) :
    Rel slide (((flagSap (flagZ m (some r)) (some r)).setF .cf vcf).setF .of vof)
      (s.resFl r cf of none) := by
  refine h.flags rfl rfl ?_
  intro f x hx
  have hdf := h.fl .df
  cases f <;> simp only [S.resFl, Option.some.injEq, reduceCtorEq] at hx <;>
    first
    | (subst hx
       simp [flagSap, flagZ, St.setF, St.setPf, St.getF, isZero, isNeg, icmp_some, Pred.eval,
        msb_slt, zero_eq]
       done)
    | (subst hx
       rw [getF_pf (r.setWidth 8)]
       · rw [parity_trunc]
       · simp [flagSap, flagZ, St.setF, St.setPf, trunc_some])
    | (simpa [flagSap, flagZ, St.setF, St.setPf, St.getF] using hcf x hx)
    | (simpa [flagSap, flagZ, St.setF, St.setPf, St.getF] using hof x hx)
    | (simpa [flagSap, flagZ, St.setF, St.setPf, St.getF] using hdf x hx)

/-! ### The masked count -/

theorem count_lt (z : Sz) (c : BitVec 8) : count z c < exBits z := by
  have : ∀ n, n % 64 < 64 := fun n => Nat.mod_lt _ (by decide)
  have h2 : ∀ n, n % 32 < 32 := fun n => Nat.mod_lt _ (by decide)
  cases z <;> simp [count, exBits] <;> first | exact h2 _ | exact this _

theorem mask_count {W : Nat} (z : Sz) (c : BitVec 8) (hW : 8 ≤ W) :
    (c.setWidth W &&& BitVec.ofNat W (countMask z)) = BitVec.ofNat W (count z c) := by
  have hm : ∀ k : Nat, (c.setWidth W &&& BitVec.ofNat W (2 ^ k - 1)) = BitVec.ofNat W (c.toNat % 2 ^ k) := by
    intro k
    apply BitVec.eq_of_toNat_eq
    have h8 : 2 ^ 8 ≤ 2 ^ W := Nat.pow_le_pow_right (by decide) hW
    have hc := c.isLt
    have hl : c.toNat % 2 ^ k ≤ c.toNat := Nat.mod_le _ _
    rw [BitVec.toNat_and, BitVec.toNat_setWidth, BitVec.toNat_ofNat, BitVec.toNat_ofNat,
      Nat.mod_eq_of_lt (by omega : c.toNat < 2 ^ W), Nat.mod_eq_of_lt (by omega : c.toNat % 2 ^ k < 2 ^ W)]
    apply Nat.eq_of_testBit_eq
    intro i
    rw [Nat.testBit_and, Nat.testBit_mod_two_pow, Nat.testBit_mod_two_pow, Nat.testBit_two_pow_sub_one]
    by_cases h : i < W
    · simp [h, Bool.and_comm]
    · have : c.toNat.testBit i = false := by
        apply Nat.testBit_lt_two_pow
        have : 2 ^ W ≤ 2 ^ i := Nat.pow_le_pow_right (by decide) (by omega)
        omega
      simp [this]
  cases z
  · exact hm 5
  · exact hm 5
  · exact hm 5
  · exact hm 6

/-! ### Shift values -/

theorem shl_trunc {w W : Nat} (a : BitVec w) (hw : w ≤ W) (c : Nat) :
    ((a.setWidth W) <<< c).setWidth w = a <<< c := by
  apply BitVec.eq_of_getLsbD_eq
  intro i hi
  simp only [BitVec.getLsbD_setWidth, BitVec.getLsbD_shiftLeft, hi, decide_true, Bool.true_and,
    show i < W by omega]
  by_cases h : i < c
  · simp [h]
  · simp [h, show i - c < W by omega]

theorem shr_trunc {w W : Nat} (a : BitVec w) (hw : w ≤ W) (c : Nat) :
    ((a.setWidth W) >>> c).setWidth w = a >>> c := by
  apply BitVec.eq_of_getLsbD_eq
  intro i hi
  simp only [BitVec.getLsbD_setWidth, BitVec.getLsbD_ushiftRight, hi, decide_true, Bool.true_and]
  by_cases h : c + i < W
  · simp [h]
  · rw [BitVec.getLsbD_of_ge a _ (by omega)]; simp

theorem sext_bit {w W : Nat} (a : BitVec w) (i : Nat) (h : i < W) :
    (a.signExtend W).getLsbD i = if i < w then a.getLsbD i else a.msb := by
  rw [BitVec.getLsbD_signExtend]; simp [h]

theorem sar_bit {w W : Nat} (a : BitVec w) (c i : Nat) (hc : c + i < W) (hi : i < w) :
    (a.signExtend W).getLsbD (c + i) = (a.sshiftRight c).getLsbD i := by
  rw [sext_bit a _ hc, BitVec.getLsbD_sshiftRight]
  have : ¬ w ≤ i := by omega
  simp [this]

theorem sar_trunc {w W : Nat} (a : BitVec w) (h0 : 0 < w) (hw : w ≤ W) (c : Nat) :
    ((a.signExtend W).sshiftRight c).setWidth w = a.sshiftRight c := by
  apply BitVec.eq_of_getLsbD_eq
  intro i hi
  have h1 : ¬ W ≤ i := by omega
  have h2 : ¬ w ≤ i := by omega
  simp only [BitVec.getLsbD_setWidth, BitVec.getLsbD_sshiftRight, hi, decide_true, Bool.true_and,
    h1, h2, decide_false, Bool.not_false]
  by_cases h : c + i < W
  · rw [if_pos h, sext_bit _ _ h]
  · rw [if_neg h, if_neg (by omega)]
    rw [BitVec.msb_eq_getLsbD_last, sext_bit _ _ (by omega)]
    split
    · have : W - 1 = w - 1 := by omega
      rw [this, ← BitVec.msb_eq_getLsbD_last]
    · rfl

/-- The lowest bit. -/
theorem setWidth_one {w : Nat} (x : BitVec w) : x.setWidth 1 = BitVec.ofBool (x.getLsbD 0) := by
  apply BitVec.eq_of_getLsbD_eq
  intro i hi
  have : i = 0 := by omega
  subst this
  simp

theorem msb_xor_slt {w : Nat} (a b : BitVec w) : (a ^^^ b).slt 0#w = (a.msb ^^ b.msb) := by
  rw [msb_slt, BitVec.msb_xor]

theorem ofNat_toNat_lt {W n : Nat} (h : n < 2 ^ W) : (BitVec.ofNat W n).toNat = n := by
  simp [Nat.mod_eq_of_lt h]

theorem lt_two_pow {n W : Nat} (h : n ≤ W) : n < 2 ^ W := by
  have := @Nat.lt_two_pow_self W; omega

/-! ### Shifts -/

/-- The status flags. -/
def status : Flag → Bool
  | .df => false
  | _ => true

/-- CF and OF. -/
def cfof : Flag → Bool
  | .cf | .of => true
  | _ => false

theorem Rel.mono_forget (h : Rel slide m s) {P : Flag → Bool} (hs : s' = { s with fl := s'.fl })
    (hf : ∀ f, P f = false → s'.fl f = s.fl f) : Rel slide m (s'.forget P) := by
  refine h.mono (by rw [hs]; rfl) (by rw [hs]; rfl) (by rw [hs]; rfl) (by rw [hs]; rfl)
    (by rw [hs]; rfl) ?_ (by rw [hs]; rfl)
  intro f b hb
  simp only [S.forget] at hb
  split at hb
  · simp at hb
  · rename_i hp
    rw [← hf f (by simpa using hp)]; exact hb

/-- Shifting by 0 writes back the value; a 32-bit register is extended, so writing is the identity
only if its upper half is zero. -/
def UpperZero (s : S) (z : Sz) (d : Op) : Prop :=
  z = .d → ∀ r, d = .reg r → s.gp r = ((s.gp r).setWidth 32).setWidth 64

theorem split_bv (a b : Nat) (x : BitVec (b + a)) : x.extractLsb' a b ++ x.extractLsb' 0 a = x := by
  apply BitVec.eq_of_getLsbD_eq; intro i hi
  simp only [BitVec.getLsbD_append, BitVec.getLsbD_extractLsb']
  by_cases h : i < a
  · simp [h]
  · simp [h, show a + (i - a) = i by omega, show i - a < b by omega]

theorem zero_append_setWidth (x : BitVec 64) :
    0#32 ++ x.extractLsb' 0 32 = (x.setWidth 32).setWidth 64 := by
  apply BitVec.eq_of_getLsbD_eq; intro i hi
  simp only [BitVec.getLsbD_append, BitVec.getLsbD_extractLsb', BitVec.getLsbD_setWidth]
  by_cases h : i < 32
  · simp [h, show i < 64 by omega]
  · simp [h]

theorem setReg_reg (r : Fin 16) (z : Sz)
    (h : z = .d → s.gp r = ((s.gp r).setWidth 32).setWidth 64) : s.setReg r z (s.reg r z) = s := by
  have key : ∀ v, v = s.gp r → s.setGp r v = s := by
    rintro v rfl
    simp only [S.setGp]
    have : (fun x => if x = r then s.gp r else s.gp x) = s.gp := by
      funext x; split
      · rename_i e; rw [e]
      · rfl
    rw [this]
  cases z
  · exact key _ (split_bv 8 56 (s.gp r))
  · exact key _ (split_bv 16 48 (s.gp r))
  · refine key _ ?_
    refine (zero_append_setWidth (s.gp r)).trans (h rfl).symm
  · refine key _ ?_
    exact (extract0 _).trans (BitVec.setWidth_eq _)

theorem setRegH_regH (r : Fin 4) : s.setRegH r (s.regH r) = s := by
  simp only [S.setRegH, S.setGp]
  have : (fun x => if x = hreg r then (s.gp (hreg r)).extractLsb' 16 48 ++ s.regH r ++
      (s.gp (hreg r)).extractLsb' 0 8 else s.gp x) = s.gp := by
    funext x; split
    · rename_i e; rw [e]
      apply BitVec.eq_of_getLsbD_eq; intro i hi
      simp only [S.regH, BitVec.getLsbD_append, BitVec.getLsbD_extractLsb']
      by_cases h8 : i < 8
      · simp [h8]
      · by_cases h16 : i - 8 < 8
        · simp [h8, h16, show 8 + (i - 8) = i by omega]
        · simp [h8, h16, show 16 + (i - 8 - 8) = i by omega, show i - 8 - 8 < 48 by omega]
    · rfl
  rw [this]

theorem mem_write_read (mm : Mem) (a : BitVec 64) (n : Nat) :
    mm.write a n (mm.read a n) = mm := by
  funext x
  simp only [Mem.write]
  split
  · rename_i hx
    apply BitVec.eq_of_getLsbD_eq; intro i hi
    simp only [BitVec.getLsbD_extractLsb', hi, decide_true, Bool.true_and, Mem.getLsbD_read]
    have h1 : (8 * (x - a).toNat + i) / 8 = (x - a).toNat := by omega
    have h2 : (8 * (x - a).toNat + i) % 8 = i := by omega
    rw [h1, h2, BitVec.ofNat_toNat, BitVec.setWidth_eq, BitVec.add_comm a, BitVec.sub_add_cancel,
      decide_eq_true (by omega : 8 * (x - a).toNat + i < 8 * n), Bool.true_and]
  · rfl

/-- Writing back the value just read changes nothing. -/
theorem write_read {z : Sz} {d : Op} {a : BitVec z.bits} (hd : ∀ v, d ≠ .imm v)
    (hu : UpperZero s z d) (hr : s.read z d = some a) : s.write z d a = some s := by
  cases d with
  | imm v => exact absurd rfl (hd v)
  | reg r =>
    simp only [S.read, Option.some.injEq] at hr; subst hr
    simp only [S.write, S.writeAt]
    rw [setReg_reg r z (fun e => hu e r rfl)]
  | regH r =>
    cases z <;> simp only [S.read, Option.some.injEq, reduceCtorEq] at hr
    subst hr; simp only [S.write, S.writeAt]; rw [setRegH_regH]
  | mem o =>
    simp only [S.read, Option.some.injEq] at hr; subst hr
    simp only [S.write, S.writeAt, S.store]
    rw [mem_write_read]

theorem body_shift (h : Rel slide m s) (k : Shift) (z : Sz) (d c : Op)
    (hd : Op.plain d = true) (hc : Op.plain c = true) (cv : BitVec 8) (hcv : s.read .b c = some cv)
    (hs : stepShift s k z d c = some s') :
    ∃ m', liftShift slide m k z d c = some m' ∧
      Rel slide m' (if count z cv = 0 then s'.forget status else s') := by
  simp only [stepShift, Option.bind_eq_bind, Option.bind_eq_some_iff] at hs
  obtain ⟨a, ha, cv', hcv', hs⟩ := hs
  rw [hcv] at hcv'; simp only [Option.some.injEq] at hcv'; subst hcv'
  have hW : z.bits ≤ exBits z := Nat.le_max_left _ _
  have hW32 : 32 ≤ exBits z := Nat.le_max_right _ _
  have h0 : 0 < z.bits := by have := bits_gt z; omega
  have hcl := count_lt z cv
  have hpow : count z cv < 2 ^ exBits z := lt_two_pow (by omega)
  simp only [liftShift, h.opLoad z d a hd ha, h.opLoad .b c cv hc hcv, Option.bind_eq_bind,
    Option.bind_some, zext_some, sext_some, and_some, mask_count z cv (by omega : 8 ≤ exBits z)]
  generalize count z cv = n at *
  by_cases hn : n = 0
  · subst hn
    simp only [if_true] at hs ⊢
    obtain ⟨m1, e1, e2⟩ := h.opStore z d a hd hs
    have hz : (0#(exBits z)).toNat < exBits z := by simp; omega
    have hz0 : (0#(exBits z)).toNat = 0 := by simp
    have fin : ∀ vcf vof, Rel slide (((flagSap (flagZ m1 (some a)) (some a)).setF .cf vcf).setF .of vof)
        (s'.forget status) := fun vcf vof =>
      (e2.flagRes a vcf vof none none (by simp) (by simp)).mono_forget (s' := s') rfl (fun f hf => by
        cases f <;> simp [status] at hf; rfl)
    cases k with
    | shl =>
      have hres : trunc z.bits (IR.shl (some (a.setWidth (exBits z))) (some 0#(exBits z))) = some a := by
        rw [shl_some, if_pos hz, trunc_some, hz0, shl_trunc a hW]; simp
      simp only [reduceCtorEq, if_false, hres, e1]
      exact ⟨_, rfl, fin _ _⟩
    | shr =>
      have hres : trunc z.bits (IR.lshr (some (a.setWidth (exBits z))) (some 0#(exBits z))) = some a := by
        rw [lshr_some, if_pos hz, trunc_some, hz0, shr_trunc a hW]; simp
      simp only [reduceCtorEq, if_false, hres, e1]
      exact ⟨_, rfl, fin _ _⟩
    | sar =>
      have hres : trunc z.bits (IR.ashr (some (a.signExtend (exBits z))) (some 0#(exBits z))) = some a := by
        rw [ashr_some, if_pos hz, trunc_some, hz0, sar_trunc a h0 hW]; simp
      simp only [if_true, hres, e1]
      exact ⟨_, rfl, fin _ _⟩
  · simp only [hn, if_false, Option.pure_def, Option.bind_eq_some_iff, Option.some.injEq] at hs ⊢
    obtain ⟨s1, hw, hs⟩ := hs
    have hnn : (BitVec.ofNat (exBits z) n).toNat = n := ofNat_toNat_lt hpow
    have hbb : (BitVec.ofNat (exBits z) z.bits).toNat = z.bits := ofNat_toNat_lt (lt_two_pow hW)
    have hn1 : (BitVec.ofNat (exBits z) n - 1).toNat = n - 1 := by
      rw [BitVec.toNat_sub, hnn]
      have : ((1 : BitVec (exBits z))).toNat = 1 := by
        rw [show (1 : BitVec (exBits z)) = BitVec.ofNat _ 1 from rfl]
        exact ofNat_toNat_lt (lt_two_pow (by omega))
      rw [this, show 2 ^ exBits z - 1 + n = (n - 1) + 2 ^ exBits z by omega,
        Nat.add_mod_right]
      exact Nat.mod_eq_of_lt (by omega)
    cases k with
    | shl =>
      simp only [] at hw hs
      simp only [reduceCtorEq, if_false, shl_some, hnn, if_pos hcl, trunc_some, shl_trunc a hW]
      obtain ⟨m1, e1, e2⟩ := h.opStore z d _ hd hw
      rw [e1]
      refine ⟨_, ⟨_, rfl, rfl⟩, ?_⟩
      rw [← hs]
      apply e2.flagRes
      · intro b hb
        split at hb
        · rename_i hlt
          simp only [Option.some.injEq] at hb; subst hb
          have : (BitVec.ofNat (exBits z) z.bits - BitVec.ofNat (exBits z) n).toNat = z.bits - n := by
            rw [BitVec.toNat_sub, hbb, hnn,
              show 2 ^ exBits z - n + z.bits = (z.bits - n) + 2 ^ exBits z by omega, Nat.add_mod_right]
            exact Nat.mod_eq_of_lt (by have := lt_two_pow hW; omega)
          simp only [sub_some, lshr_some, this, if_pos (by omega : z.bits - n < exBits z), trunc_some,
            setWidth_one, BitVec.getLsbD_ushiftRight, Nat.add_zero, BitVec.getLsbD_setWidth]
          simp [show z.bits - n < exBits z by omega]
        · simp at hb
      · intro b hb
        split at hb
        · simp only [Option.some.injEq] at hb; subst hb
          simp only [xor_some, icmp_some, Pred.eval]
          rw [show (0 : BitVec z.bits) = 0#_ from rfl, msb_xor_slt, Bool.xor_comm]
        · simp at hb
    | shr =>
      simp only [] at hw hs
      simp only [reduceCtorEq, if_false, lshr_some, hnn, if_pos hcl, trunc_some, shr_trunc a hW]
      obtain ⟨m1, e1, e2⟩ := h.opStore z d _ hd hw
      rw [e1]
      refine ⟨_, ⟨_, rfl, rfl⟩, ?_⟩
      rw [← hs]
      apply e2.flagRes
      · intro b hb
        split at hb
        · rename_i hlt
          simp only [Option.some.injEq] at hb; subst hb
          simp only [sub_some, lshr_some, hn1, if_pos (by omega : n - 1 < exBits z), trunc_some,
            setWidth_one, BitVec.getLsbD_ushiftRight, Nat.add_zero, BitVec.getLsbD_setWidth]
          simp [show n - 1 < exBits z by omega]
        · simp at hb
      · intro b hb
        split at hb
        · rename_i h1
          subst h1
          simp only [Option.some.injEq] at hb; subst hb
          simp only [xor_some, icmp_some, Pred.eval]
          rw [show (0 : BitVec z.bits) = 0#_ from rfl, msb_xor_slt, BitVec.msb_ushiftRight]
          simp
        · simp at hb
    | sar =>
      simp only [] at hw hs
      simp only [if_true, ashr_some, hnn, if_pos hcl, trunc_some, sar_trunc a h0 hW]
      obtain ⟨m1, e1, e2⟩ := h.opStore z d _ hd hw
      rw [e1]
      refine ⟨_, ⟨_, rfl, rfl⟩, ?_⟩
      rw [← hs]
      apply e2.flagRes
      · intro b hb
        simp only [Option.some.injEq] at hb; subst hb
        simp only [sub_some, lshr_some, hn1, if_pos (by omega : n - 1 < exBits z), trunc_some,
          setWidth_one, BitVec.getLsbD_ushiftRight]
        rw [sar_bit a _ _ (by omega) h0]
      · intro b hb
        split at hb
        · rename_i h1
          subst h1
          simp only [Option.some.injEq] at hb; subst hb
          simp only [xor_some, icmp_some, Pred.eval]
          rw [show (0 : BitVec z.bits) = 0#_ from rfl, msb_xor_slt, BitVec.msb_sshiftRight]
          simp
        · simp at hb

/-! ### Double shifts and rotates -/

theorem fshl_shift {w : Nat} (a b : BitVec w) (c : Nat) (hc : c < w) :
    ((a ++ b) <<< c).extractLsb' w w = a <<< c ||| b >>> (w - c) := by
  apply BitVec.eq_of_getLsbD_eq
  intro i hi
  simp only [BitVec.getLsbD_extractLsb', hi, decide_true, Bool.true_and, BitVec.getLsbD_shiftLeft,
    BitVec.getLsbD_append, BitVec.getLsbD_or, BitVec.getLsbD_ushiftRight]
  have h1 : w + i < w + w := by omega
  have h2 : ¬ w + i < c := by omega
  simp only [h1, h2, decide_true, decide_false, Bool.true_and, Bool.not_false]
  by_cases h : i < c
  · have h3 : w + i - c < w := by omega
    simp [h, h3, show w - c + i = w + i - c by omega]
  · have h3 : ¬ w + i - c < w := by omega
    rw [BitVec.getLsbD_of_ge b _ (by omega : w ≤ w - c + i)]
    simp [h, h3, show w + i - c - w = i - c by omega]

theorem fshr_shift {w : Nat} (a b : BitVec w) (c : Nat) (hc : c < w) :
    ((b ++ a) >>> c).extractLsb' 0 w = a >>> c ||| b <<< (w - c) := by
  apply BitVec.eq_of_getLsbD_eq
  intro i hi
  simp only [BitVec.getLsbD_extractLsb', hi, decide_true, Bool.true_and, BitVec.getLsbD_shiftLeft,
    BitVec.getLsbD_append, BitVec.getLsbD_or, BitVec.getLsbD_ushiftRight, Nat.zero_add]
  by_cases h : c + i < w
  · simp [h, show i < w - c by omega]
  · rw [BitVec.getLsbD_of_ge a _ (by omega : w ≤ c + i)]
    simp [h, show ¬ i < w - c by omega, show c + i - w = i - (w - c) by omega]

theorem count_w_toNat (z : Sz) (cv : BitVec 8) :
    (BitVec.ofNat z.bits (count z cv)).toNat = count z cv := by
  apply ofNat_toNat_lt
  have := count_lt z cv
  cases z <;> simp only [exBits, Sz.bits, Sz.bytes] at * <;> omega

/-- The value that the lifted code of SHLD and SHRD writes. -/
def shiftdVal (left : Bool) (z : Sz) (a b : BitVec z.bits) (n : Nat) : BitVec z.bits :=
  if n = 0 then a else if left then a <<< n ||| b >>> (z.bits - n) else a >>> n ||| b <<< (z.bits - n)

/-- What the lifted code of SHLD and SHRD does: the count is taken modulo the operand size, and the destination is always
written. -/
theorem raw_shiftd (h : Rel slide m s) (left : Bool) (z : Sz) (d r c : Op)
    (hd : Op.plain d = true) (hr : Op.plain r = true) (hc : Op.plain c = true) {cv : BitVec 8} {a b : BitVec z.bits}
    (hcv : s.read .b c = some cv) (ha : s.read z d = some a) (hb : s.read z r = some b) {s1 : S}
    (hw : s.write z d (shiftdVal left z a b (count z cv % z.bits)) = some s1) :
    ∃ m', liftShiftd slide m left z d r c = some m' ∧
      Rel slide m' (s1.resFl (shiftdVal left z a b (count z cv % z.bits)) none none none) := by
  have hb8 : 8 ≤ z.bits := by cases z <;> decide
  have hlt : count z cv % z.bits < z.bits := Nat.mod_lt _ (by omega)
  have htn := count_w_toNat z cv
  simp only [liftShiftd, h.opLoad z d a hd ha, h.opLoad z r b hr hb, h.opLoad .b c cv hc hcv,
    Option.bind_eq_bind, Option.bind_some, zext_some, and_some, mask_count z cv hb8]
  have hval : (if left = true then fshl (some a) (some b) (some (BitVec.ofNat z.bits (count z cv)))
      else fshr (some b) (some a) (some (BitVec.ofNat z.bits (count z cv)))) =
      some (shiftdVal left z a b (count z cv % z.bits)) := by
    simp only [fshl_some, fshr_some, htn]
    generalize count z cv % z.bits = n at hlt
    unfold shiftdVal
    by_cases hn : n = 0
    · rw [if_pos hn, hn]
      cases left
      · simp only [Bool.false_eq_true, if_false, Option.some.injEq, BitVec.ushiftRight_zero]
        apply BitVec.eq_of_getLsbD_eq; intro i hi
        simp [BitVec.getLsbD_append, hi]
      · simp only [if_true, Option.some.injEq, BitVec.shiftLeft_zero]
        apply BitVec.eq_of_getLsbD_eq; intro i hi
        rw [BitVec.getLsbD_extractLsb', BitVec.getLsbD_append]
        simp [hi]
    · rw [if_neg hn]
      cases left
      · simp only [Bool.false_eq_true, if_false]; rw [fshr_shift _ _ _ hlt]
      · simp only [if_true]; rw [fshl_shift _ _ _ hlt]
  rw [hval]
  obtain ⟨m1, e1, e2⟩ := h.opStore z d _ hd hw
  rw [e1]
  refine ⟨_, rfl, ?_⟩
  have := e2.flagRes (shiftdVal left z a b (count z cv % z.bits)) none none none none (by simp) (by simp)
  refine this.flags rfl rfl ?_
  intro f x hx
  have := this.fl f x hx
  cases f <;> simp only [S.resFl, reduceCtorEq] at hx <;> exact this

theorem body_shiftd (h : Rel slide m s) (left : Bool) (z : Sz) (d r c : Op)
    (hd : Op.plain d = true) (hr : Op.plain r = true) (hc : Op.plain c = true) (cv : BitVec 8)
    (hcv : s.read .b c = some cv) (hdi : ∀ v, d ≠ .imm v) (hu : count z cv = 0 → UpperZero s z d)
    (hlt : count z cv < z.bits) (hs : stepShiftd s left z d r c = some s') :
    ∃ m', liftShiftd slide m left z d r c = some m' ∧
      Rel slide m' (s'.forget (if count z cv = 0 then status else cfof)) := by
  simp only [stepShiftd, Option.bind_eq_bind, Option.bind_eq_some_iff] at hs
  obtain ⟨a, ha, b, hb, cv', hcv', hs⟩ := hs
  rw [hcv] at hcv'; simp only [Option.some.injEq] at hcv'; subst hcv'
  have raw := fun s1 => raw_shiftd (s1 := s1) h left z d r c hd hr hc hcv ha hb
  rw [Nat.mod_eq_of_lt hlt] at raw
  by_cases hn : count z cv = 0
  · simp only [hn, if_true, Option.some.injEq, shiftdVal] at hs raw ⊢
    subst hs
    obtain ⟨m1, e1, e2⟩ := raw s (write_read hdi (hu hn) ha)
    exact ⟨m1, e1, e2.mono_forget rfl (fun f hf => by cases f <;> simp [status] at hf; rfl)⟩
  · simp only [hn, if_false, if_neg (Nat.not_lt.mpr (Nat.le_of_lt hlt)), Option.pure_def,
      Option.bind_eq_some_iff, Option.some.injEq, shiftdVal] at hs raw ⊢
    obtain ⟨s1, hw, hs⟩ := hs
    obtain ⟨m1, e1, e2⟩ := raw s1 hw
    subst hs
    exact ⟨m1, e1, e2.mono_forget rfl (fun f hf => by cases f <;> simp [cfof] at hf <;> rfl)⟩

theorem body_rotate (h : Rel slide m s) (left : Bool) (z : Sz) (d c : Op)
    (hd : Op.plain d = true) (hc : Op.plain c = true) (cv : BitVec 8) (hcv : s.read .b c = some cv)
    (hs : stepRotate s left z d c = some s') :
    ∃ m', liftRotate slide m left z d c = some m' ∧ Rel slide m' (s'.forget cfof) := by
  simp only [stepRotate, Option.bind_eq_bind, Option.bind_eq_some_iff] at hs
  obtain ⟨a, ha, cv', hcv', hs⟩ := hs
  rw [hcv] at hcv'; simp only [Option.some.injEq] at hcv'; subst hcv'
  have hb8 : 8 ≤ z.bits := by cases z <;> decide
  have htn := count_w_toNat z cv
  simp only [liftRotate, h.opLoad z d a hd ha, h.opLoad .b c cv hc hcv,
    Option.bind_eq_bind, Option.bind_some, zext_some, and_some, mask_count z cv hb8, fshl_some,
    fshr_some, fshl_rotate, fshr_rotate, htn]
  have fin : ∀ (s1 : S) (m1 : St), Rel slide m1 s1 →
      Rel slide (m1.undef [.of, .cf]) (s1.forget cfof) := by
    intro s1 m1 hm
    refine hm.flags rfl rfl ?_
    intro f x hx
    have := hm.fl f x
    cases f <;> simp [S.forget, cfof] at hx <;> simpa [St.undef, St.setF, St.getF] using this hx
  by_cases hn : count z cv = 0
  · simp only [hn, if_true] at hs ⊢
    obtain ⟨m1, e1, e2⟩ := h.opStore z d a hd hs
    have : (if left = true then some (a.rotateLeft 0) else some (a.rotateRight 0)) = some a := by
      have e1 : a.rotateLeft 0 = a := by
        apply BitVec.eq_of_getLsbD_eq; intro i hi
        simp [BitVec.getLsbD_rotateLeft, hi]
      have e2 : a.rotateRight 0 = a := by
        apply BitVec.eq_of_getLsbD_eq; intro i hi
        simp [BitVec.getLsbD_rotateRight, hi]
      cases left <;> simp [e1, e2]
    rw [this, e1]
    exact ⟨_, rfl, fin s' m1 e2⟩
  · simp only [hn, if_false, Option.pure_def, Option.bind_eq_some_iff, Option.some.injEq] at hs ⊢
    obtain ⟨s1, hw, hs⟩ := hs
    obtain ⟨m1, e1, e2⟩ := h.opStore z d _ hd hw
    have : (if left = true then some (a.rotateLeft (count z cv)) else some (a.rotateRight (count z cv)))
        = some (if left = true then a.rotateLeft (count z cv) else a.rotateRight (count z cv)) := by
      cases left <;> rfl
    rw [this, e1]
    refine ⟨_, ⟨_, rfl, rfl⟩, ?_⟩
    subst hs
    refine (fin s1 m1 e2).mono rfl rfl rfl rfl rfl ?_
    intro f x hx
    cases f <;> first | exact hx | simp [S.forget, cfof] at hx

/-! ### CMPXCHG -/

/-- Writing back an unchanged accumulator is the identity. -/
theorem setReg_same (r : Fin 16) (z : Sz) (v : BitVec z.bits) (hv : s.reg r z = v)
    (h : z = .d → s.gp r = ((s.gp r).setWidth 32).setWidth 64) : s.setReg r z v = s := by
  rw [← hv]; exact setReg_reg r z h

/-- The cases of CMPXCHG the lifter gets right: the destination is not the accumulator; with 32-bit
operands the upper half of RAX is zero if the comparison succeeds. -/
structure CmpxchgOk (s : S) (z : Sz) (d : Op) : Prop where
  notAcc : d ≠ .reg rax
  upperAcc : z = .d → s.read z d = some (s.reg rax z) →
    s.gp rax = ((s.gp rax).setWidth 32).setWidth 64

theorem lowByte_bit (a : BitVec 48) (b : BitVec 8) (x : BitVec 64) (i : Nat) (h : i < 8) :
    (a ++ b ++ x.extractLsb' 0 8).getLsbD i = x.getLsbD i := by
  rw [BitVec.getLsbD_append]; simp [h]

theorem reg_write_other {z : Sz} {d : Op} {v : BitVec z.bits} (hd : d ≠ .reg rax)
    (hw : s.write z d v = some s') : s'.reg rax z = s.reg rax z := by
  cases d with
  | imm _ => simp [S.write, S.writeAt] at hw
  | reg r =>
    simp only [S.write, S.writeAt, Option.some.injEq] at hw; subst hw
    have : rax ≠ r := by rintro rfl; exact hd rfl
    cases z <;> simp [S.setReg, S.setGp, S.reg, this]
  | regH r =>
    cases z <;> simp only [S.write, S.writeAt, Option.some.injEq, reduceCtorEq] at hw
    subst hw
    simp only [S.setRegH, S.setGp, S.reg]
    split
    · rename_i e
      rw [e]
      apply BitVec.eq_of_getLsbD_eq; intro i hi
      have hi8 : i < 8 := hi
      rw [BitVec.getLsbD_extractLsb', BitVec.getLsbD_extractLsb']
      have := lowByte_bit ((s.gp (hreg r)).extractLsb' 16 48) v (s.gp (hreg r)) i hi8
      simp only [Nat.zero_add]
      exact congrArg _ this
    · rfl
  | mem o => simp only [S.write, S.writeAt, Option.some.injEq] at hw; subst hw; rfl

theorem gp_write_other {z : Sz} {d : Op} {v : BitVec z.bits} (hz : z = .d) (hd : d ≠ .reg rax)
    (hw : s.write z d v = some s') : s'.gp rax = s.gp rax := by
  subst hz
  cases d with
  | imm _ => simp [S.write, S.writeAt] at hw
  | reg r =>
    simp only [S.write, S.writeAt, Option.some.injEq] at hw; subst hw
    have : rax ≠ r := by rintro rfl; exact hd rfl
    simp [S.setReg, S.setGp, this]
  | regH r => simp [S.write, S.writeAt] at hw
  | mem o => simp only [S.write, S.writeAt, Option.some.injEq] at hw; subst hw; rfl

/-- The accumulator and another destination can be written in either order. -/
theorem write_acc {z : Sz} {d : Op} {v w : BitVec z.bits} (hd : d ≠ .reg rax)
    (hw : (s.setReg rax z v).writeAt s z d w = some s') : ∃ s1, s.write z d w = some s1 ∧ s1.setReg rax z v = s' := by
  obtain ⟨s1, h1, h2⟩ := writeAt_comm (r := .reg rax) (by simp) hd rfl hw
  exact ⟨s1, h1, by simpa [S.writeAt] using h2⟩

theorem read_withFl (g : Flag → Option Bool) (z : Sz) (d : Op) :
    S.read { s with fl := g } z d = s.read z d := by
  cases d <;> rfl

/-- What the lifted code of CMPXCHG does: the destination is written, and then always the accumulator. -/
theorem raw_cmpxchg (h : Rel slide m s) (z : Sz) (lock : Bool) (d r : Op)
    (hd : Op.plain d = true) (hr : Op.plain r = true) (hl : LockOk s z lock d) {a b : BitVec z.bits}
    (ha : s.read z d = some a) (hb : s.read z r = some b) {s1 : S}
    (hw : (s.subFl (s.reg rax z) a false).write z d (if s.reg rax z = a then b else a) = some s1) :
    ∃ m', liftCmpxchg slide m z lock d r = some m' ∧ Rel slide m' (s1.setReg rax z a) := by
  have hf := h.flagSub (bits_gt z) (s.reg rax z) a false false
  -- the state with the new flags
  have hfl : s.subFl (s.reg rax z) a false = s.resFl (s.reg rax z - a)
      (some (subCf (s.reg rax z) a false)) (some (subOf (s.reg rax z) a false))
      (some (subAf (s.reg rax z) a false)) := by
    simp [S.subFl]
  simp only [Bool.false_eq_true, if_false, ← hfl] at hf
  have hzf : (s.subFl (s.reg rax z) a false).fl .zf = some (decide (s.reg rax z = a)) := by
    simp only [S.subFl, S.resFl, Bool.toNat_false, BitVec.ofNat_eq_ofNat, BitVec.sub_zero, Option.some.injEq, decide_eq_decide]
    constructor
    · intro e
      have := congrArg (· + a) e
      simpa [BitVec.sub_add_cancel] using this
    · intro e; rw [e, BitVec.sub_self]
  cases lock with
  | false =>
    obtain ⟨m1, e1, e2⟩ := hf.opStore z d _ hd hw
    refine ⟨m1.store rax z (some a), ?_, e2.store rax z a⟩
    simp only [liftCmpxchg, h.get, h.opLoad z r b hr hb, h.opLoad z d a hd ha, Option.bind_eq_bind,
      Option.bind_some, Bool.false_eq_true, if_false, sub_some, hf.getFl hzf, select_bool,
      decide_eq_true_eq]
    have : (if s.reg rax z = a then some b else some a) = some (if s.reg rax z = a then b else a) := by
      split <;> rfl
    rw [this, e1]; rfl
  | true =>
    obtain ⟨o, rfl, hal⟩ := hl rfl
    simp only [S.read, Option.some.injEq] at ha
    simp only [S.write, S.writeAt, Option.some.injEq] at hw
    obtain ⟨m1, e1, e2⟩ := h.atomicRmw z o hd hal
      (fun old => select (icmp .eq old (some (s.reg rax z))) (some b) old)
      (if s.reg rax z = a then b else a) (by
        rw [ha, icmp_some, select_bool]
        simp only [Pred.eval, beq_iff_eq]
        by_cases he : s.reg rax z = a
        · rw [if_pos he, if_pos he.symm]
        · rw [if_neg he, if_neg (Ne.symm he)])
    rw [ha] at e1
    have hf2 := e2.flagSub (bits_gt z) (s.reg rax z) a false false
    refine ⟨((flagSub m1 (some (s.reg rax z - a)) (some (s.reg rax z)) (some a)).setF .zf
      (some (BitVec.ofBool (a == s.reg rax z)))).store rax z (some a), ?_, ?_⟩
    · simp only [liftCmpxchg, h.get, h.opLoad z r b hr hb, Option.bind_eq_bind,
        Option.bind_some, if_true, e1, sub_some, icmp_some, Pred.eval, Option.pure_def]
    · refine Rel.store ?_ rax z a
      rw [← hw]
      simp only [Bool.false_eq_true, if_false] at hf2
      refine hf2.flags rfl ?_ ?_
      · simp [S.subFl, S.resFl, S.store]; rfl
      · intro f x hx
        have hx' : (s.subFl (s.reg rax z) a false).fl f = some x := hx
        rw [hfl] at hx'
        have := hf2.fl f x hx'
        cases f <;> first
          | exact this
          | (rw [← hfl, hzf, Option.some.injEq] at hx'
             subst hx'
             simp only [St.setF, St.getF, if_true, Option.some.injEq]
             congr 1
             rw [Bool.eq_iff_iff]; simp only [beq_iff_eq, decide_eq_true_eq]
             exact eq_comm)

theorem body_cmpxchg (h : Rel slide m s) (z : Sz) (lock : Bool) (d r : Op)
    (hd : Op.plain d = true) (hr : Op.plain r = true) (hl : LockOk s z lock d)
    (hok : CmpxchgOk s z d) (hs : stepCmpxchg s z d r = some s') :
    ∃ m', liftCmpxchg slide m z lock d r = some m' ∧ Rel slide m' s' := by
  simp only [stepCmpxchg, Option.bind_eq_bind, Option.bind_eq_some_iff] at hs
  obtain ⟨a, ha, b, hb, hs⟩ := hs
  -- the value stored and the final state
  have key : ∃ s1, (s.subFl (s.reg rax z) a false).write z d (if s.reg rax z = a then b else a) = some s1 ∧
      s1.setReg rax z a = s' := by
    by_cases he : s.reg rax z = a
    · rw [if_pos he] at hs ⊢
      refine ⟨s', hs, ?_⟩
      have h1 := reg_write_other hok.notAcc hs
      apply setReg_same
      · rw [h1]; exact he
      · intro hz
        rw [gp_write_other hz hok.notAcc hs]
        exact hok.upperAcc hz (by rw [ha, he])
    · rw [if_neg he] at hs ⊢
      exact write_acc hok.notAcc hs
  obtain ⟨s1, hw, hs1⟩ := key
  exact hs1 ▸ raw_cmpxchg h z lock d r hd hr hl ha hb hw

end Verif.X86.Spec
