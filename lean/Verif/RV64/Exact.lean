import Verif.RV64.Exec

/-!
What the lifted code of an RV64 instruction does in every state, also where it deviates from the ISA; so the
exceptions of C28, C29, C31 and C43 are exactly the states in which the property is false.
-/

namespace Verif.RV64

open Verif.IR

namespace Spec

/-- `SC` with `rd` written before the operands are read; `none` if the address is misaligned then. -/
def scDoes (i : Frv) (n len : Nat) (s : State) : Option State :=
  let t := s.setX i.rd 0#64
  if (t.x i.rs1).toNat % n = 0 then
    some { t with mem := t.mem.write (t.x i.rs1) n ((t.x i.rs2).setWidth (8 * n)), pc := s.pc + BitVec.ofNat 64 len }
  else none

/-- The machine the lifted code really implements, for instructions specified by `exec`; `none` is undefined
behaviour. -/
def does (i : Frv) (len : Nat) (s : State) : Option State :=
  match i.mnem with
  | .div => if s.x i.rs2 = BitVec.allOnes 64 then some (s.wr i.rd (s.x i.rs1) len) else exec i len s
  | .divw => if (s.x i.rs2).setWidth 32 = BitVec.allOnes 32
      then some (s.wr i.rd (((s.x i.rs1).setWidth 32).signExtend 64) len) else exec i len s
  | .clmulr => some (s.wr i.rd ((clprod (s.x i.rs1) (s.x i.rs2)).extractLsb' 63 64 ^^^
      (if (s.x i.rs2).getLsbD 63 then s.x i.rs1 else 0#64)) len)
  | .jalr => some { s.setX i.rd (s.pc + BitVec.ofNat 64 len) with pc := s.x i.rs1 + i.imm.signExtend 64 }
  | .scw => scDoes i 4 len s
  | .scd => scDoes i 8 len s
  | _ => if aligned i s then exec i len s else none

end Spec

/-- A state of the lifted code represents at most one state of the hart. -/
theorem rel_unique {slide : BitVec 64} {m : St} {s t : Spec.State} (h1 : Rel slide m s) (h2 : Rel slide m t) : s = t := by
  obtain ⟨⟨a1, a2, a3⟩, a4⟩ := h1
  obtain ⟨⟨b1, b2, b3⟩, b4⟩ := h2
  rcases s with ⟨gp, fp, mem, pc⟩
  rcases t with ⟨gp', fp', mem', pc'⟩
  rw [a1] at b1; rw [a2] at b2; rw [a3] at b3; rw [a4] at b4
  congr
  · funext r; exact Option.some.inj (congrFun b1 r)
  · funext r; exact Option.some.inj (congrFun b2 r)
  · funext r; exact Option.some.inj (congrFun b3 r)
  · exact Option.some.inj b4

theorem div_minus_one {w : Nat} {m : St} {s : Spec.State} (hr : RegRel m s) (i : Frv)
    (hy : (s.x i.rs2).setWidth w = BitVec.allOnes w) :
    liftDivRem m i w .sdiv = some (storeGp m i.rd (some ((s.x i.rs1).setWidth w))) := by
  unfold liftDivRem
  simp only [loadGp_rel hr, hy]
  have h1 : ∀ b : BitVec 1, b ||| 1#1 = 1#1 := by decide
  simp [ir, Pred.eval, ofInt_neg_one, h1]

theorem clmulr_does {m : St} {s : Spec.State} (hr : RegRel m s) (i : Frv) (hm : i.mnem = .clmulr) :
    liftCLMul m i = storeGp m i.rd (some ((Spec.clprod (s.x i.rs1) (s.x i.rs2)).extractLsb' 63 64 ^^^
      (if (s.x i.rs2).getLsbD 63 then s.x i.rs1 else 0#64))) := by
  rw [clprod_slice _ _ 63 (fun k => s.x i.rs1 >>> (63 - k))
    (fun k hk => extract_shl _ 63 k (by omega) (by omega))]
  rw [liftCLMul_eq hr i (fun k => s.x i.rs1 >>> (63 - k))]
  · simp only [hm, clmulStart, clmulEnd, if_true, if_false, reduceCtorEq, Nat.reduceSub]
    refine congrArg (fun v => storeGp m i.rd (some v)) ?_
    have : List.range 64 = List.range' 0 63 ++ [63] := by rw [List.range_eq_range']; rfl
    rw [this, List.foldl_append, List.foldl_cons, List.foldl_nil]
    generalize List.foldl _ _ _ = z
    by_cases h : (s.x i.rs2).getLsbD 63 = true
    · simp only [h, if_true, Nat.sub_self, BitVec.ushiftRight_zero]
      rw [BitVec.xor_assoc, BitVec.xor_self, BitVec.xor_zero]
    · simp only [h, if_false, BitVec.xor_zero, Bool.false_eq_true]
  · simp [hm, clmulStart, clmulEnd]
  · intro k h1 hk
    have h2 : (63 - k) % 18446744073709551616 = 63 - k := by omega
    simp only [hm, clmulOperand, ir, BitVec.toNat_ofNat, Nat.reducePow, h2, if_true,
      show 63 - k < 64 by omega]

/-- Misaligned accesses are undefined behaviour. -/
theorem misaligned_ub (slide : BitVec 64) (i : Frv) (start : BitVec 64) (len : Nat) (m : St) (s : Spec.State)
    (hr : Rel slide m s) (hsc : i.mnem ≠ .scw ∧ i.mnem ≠ .scd) (ha : Spec.aligned i s = false) :
    lift {} slide i start len m = none := by
  have hr' : RegRel { m with pc := .const start } s := hr.1
  rcases i with ⟨mn, rd, rs1, rs2, imm, rs3, misc⟩
  cases mn <;>
    simp [Spec.aligned, Spec.access, Spec.loadKind, Spec.storeKind, Spec.amoKind] at ha hsc <;>
    simp [lift, liftPlain, liftLoad, liftStore, liftLoadFp, liftStoreFp, liftAmo, loadN, storeN, addr, loadGp64_rel hr', ir,
      Frv.imm64, ha, finishPlain]

theorem sc_does (slide : BitVec 64) (i : Frv) (start : BitVec 64) (len : Nat) (m : St) (s : Spec.State) (n : Nat)
    (hr : Rel slide m s) (hs : s.pc = start + slide)
    (hm : (i.mnem = .scw ∧ n = 4) ∨ (i.mnem = .scd ∧ n = 8)) :
    match Spec.scDoes i n len s with
    | none => lift {} slide i start len m = none
    | some t => ∃ m', lift {} slide i start len m = some { st := m' } ∧ Rel slide m' t := by
  have hr' : RegRel { m with pc := .const start } s := hr.1
  have hr2 : RegRel (storeGp { m with pc := .const start } i.rd (some 0#32)) (s.setX i.rd 0#64) :=
    storeGp_rel hr' i.rd 0#32
  by_cases hal : ((s.setX i.rd 0#64).x i.rs1).toNat % n = 0
  · simp only [Spec.scDoes, hal, if_true]
    obtain ⟨m', h1, h2⟩ := storeN_rel hr2 ((s.setX i.rd 0#64).x i.rs1) n (((s.setX i.rd 0#64).x i.rs2).setWidth (8 * n)) hal
    have h : liftPlain slide i { m with pc := .const start } = some (some m') := by
      rcases i with ⟨mn, rd, rs1, rs2, imm, rs3, misc⟩
      rcases hm with ⟨hm, rfl⟩ | ⟨hm, rfl⟩ <;> simp only at hm <;> subst hm <;>
        simp only [liftPlain, loadGp_rel hr2, BitVec.setWidth_eq] <;>
        simp only [BitVec.setWidth_eq] at h1 <;>
        rw [h1] <;> rfl
    have := lift_rel (cfg := {}) (len := len) h h2
    rwa [← hs] at this
  · simp only [Spec.scDoes, hal, if_false]
    rcases i with ⟨mn, rd, rs1, rs2, imm, rs3, misc⟩
    rcases hm with ⟨hm, rfl⟩ | ⟨hm, rfl⟩ <;> simp only at hm <;> subst hm <;>
      simp [lift, liftPlain, loadGp64_rel hr2, storeN, hal, finishPlain]

theorem jalr_does (slide : BitVec 64) (i : Frv) (start : BitVec 64) (len : Nat) (m : St) (s : Spec.State)
    (hr : Rel slide m s) (hs : s.pc = start + slide) (hm : i.mnem = .jalr) (hi : i.rs1 ≠ regInv) :
    ∃ m', lift {} slide i start len m = some { st := m' } ∧ Rel slide m'
      { s.setX i.rd (s.pc + BitVec.ofNat 64 len) with pc := s.x i.rs1 + i.imm.signExtend 64 } := by
  have hr' : RegRel { m with pc := .const start } s := hr.1
  have hl : lift {} slide i start len m
      = some { st := jalState slide i start len { m with pc := .const start } } := by
    rcases i with ⟨mn, rd, rs1, rs2, imm, rs3, misc⟩
    simp only at hm; subst hm; rfl
  refine ⟨_, hl, ?_⟩
  have h := jump_rel hr.1 hs i.rd len (.value (some (s.x i.rs1 + i.imm.signExtend 64)))
    (s.x i.rs1 + i.imm.signExtend 64) (by simp [ir])
  simp only [jalState, hi, ne_eq, not_false_eq_true, if_true, loadGp64_rel hr', ir, Frv.imm64]
  exact h

/-- C28, C29, C31, C43 (RV64): the lifted code of an instruction does what `Spec.does` says, in every state.
`Spec.does` differs from the ISA (`Spec.exec`) in signed division by -1, `CLMULR` with bit 63, odd targets of
`JALR`, misaligned accesses and `SC` with `rd` among its operands, and in nothing else. -/
theorem RV64_does (slide : BitVec 64) (i : Frv) (start : BitVec 64) (len : Nat) (m : St) (s : Spec.State)
    (hr : Rel slide m s) (hs : s.pc = start + slide) (hd : Decoded i) (he : (Spec.exec i len s).isSome) :
    match Spec.does i len s with
    | none => lift {} slide i start len m = none
    | some t => ∃ m', lift {} slide i start len m = some { st := m' } ∧ Rel slide m' t := by
  obtain ⟨s', he⟩ := Option.isSome_iff_exists.1 he
  have hr' : RegRel { m with pc := .const start } s := hr.1
  by_cases h1 : i.mnem = .div
  · have hal : Spec.aligned i s = true := by
      simp [Spec.aligned, Spec.access, Spec.loadKind, Spec.storeKind, Spec.amoKind, h1]
    by_cases hy : s.x i.rs2 = BitVec.allOnes 64
    · simp only [Spec.does, h1, hy, if_true]
      have h : liftPlain slide i { m with pc := .const start }
          = some (some (storeGp { m with pc := .const start } i.rd (some (s.x i.rs1)))) := by
        simp only [liftPlain, h1]
        rw [div_minus_one hr' i (by simpa using hy)]
        simp
      have := lift_rel (cfg := {}) (len := len) h (storeGp64_rel hr' i.rd _)
      rwa [← hs] at this
    · simp only [Spec.does, h1, hy, if_false, he]
      exact lift_exec slide i start len m s s' hr hs hd ⟨fun _ h => absurd h hy, by simp [h1], by simp [h1],
        by simp [h1], hal, by simp [h1]⟩ he
  by_cases h2 : i.mnem = .divw
  · have hal : Spec.aligned i s = true := by
      simp [Spec.aligned, Spec.access, Spec.loadKind, Spec.storeKind, Spec.amoKind, h2]
    by_cases hy : (s.x i.rs2).setWidth 32 = BitVec.allOnes 32
    · simp only [Spec.does, h2, hy, if_true]
      have h : liftPlain slide i { m with pc := .const start }
          = some (some (storeGp { m with pc := .const start } i.rd (some ((s.x i.rs1).setWidth 32)))) := by
        simp only [liftPlain, h2]
        rw [div_minus_one hr' i hy]
        simp
      have := lift_rel (cfg := {}) (len := len) h (storeGp_rel hr' i.rd _)
      rwa [← hs] at this
    · simp only [Spec.does, h2, hy, if_false, he]
      exact lift_exec slide i start len m s s' hr hs hd ⟨by simp [h2], fun _ h => absurd h hy, by simp [h2],
        by simp [h2], hal, by simp [h2]⟩ he
  by_cases h3 : i.mnem = .clmulr
  · simp only [Spec.does, h3]
    have h : liftPlain slide i { m with pc := .const start } = some (some (storeGp { m with pc := .const start } i.rd
        (some ((Spec.clprod (s.x i.rs1) (s.x i.rs2)).extractLsb' 63 64 ^^^
          (if (s.x i.rs2).getLsbD 63 then s.x i.rs1 else 0#64))))) := by
      simp only [liftPlain, h3]
      rw [clmulr_does hr' i h3]
    have := lift_rel (cfg := {}) (len := len) h (storeGp64_rel hr' i.rd _)
    rwa [← hs] at this
  by_cases h4 : i.mnem = .jalr
  · simp only [Spec.does, h4]
    exact jalr_does slide i start len m s hr hs h4 (hd.2.2.1 h4)
  by_cases h5 : i.mnem = .scw
  · simp only [Spec.does, h5]
    exact sc_does slide i start len m s 4 hr hs (.inl ⟨h5, rfl⟩)
  by_cases h6 : i.mnem = .scd
  · simp only [Spec.does, h6]
    exact sc_does slide i start len m s 8 hr hs (.inr ⟨h6, rfl⟩)
  have hdoes : Spec.does i len s = if Spec.aligned i s then Spec.exec i len s else none := by
    unfold Spec.does
    split <;> first | contradiction | rfl
  rw [hdoes, he]
  by_cases ha : Spec.aligned i s = true
  · rw [if_pos ha]
    exact lift_exec slide i start len m s s' hr hs hd ⟨fun h => absurd h h1, fun h => absurd h h2, fun h => absurd h h3,
      fun h => absurd h h4, ha, fun h => by rcases h with h | h; exacts [absurd h h5, absurd h h6]⟩ he
  · rw [if_neg ha]
    exact misaligned_ub slide i start len m s hr ⟨h5, h6⟩ (by simpa using ha)

/-- The lifted code is right exactly where `Spec.does` agrees with the ISA. -/
theorem RV64_exact (slide : BitVec 64) (i : Frv) (start : BitVec 64) (len : Nat) (m : St) (s s' : Spec.State)
    (hr : Rel slide m s) (hs : s.pc = start + slide) (hd : Decoded i) (he : Spec.exec i len s = some s') :
    (∃ m', lift {} slide i start len m = some { st := m' } ∧ Rel slide m' s') ↔ Spec.does i len s = some s' := by
  have h := RV64_does slide i start len m s hr hs hd (by rw [he]; rfl)
  constructor
  · rintro ⟨m', h1, h2⟩
    cases hdo : Spec.does i len s with
    | none => rw [hdo] at h; rw [h] at h1; cases h1
    | some t =>
      rw [hdo] at h
      obtain ⟨m2, h3, h4⟩ := h
      rw [h1] at h3
      cases h3
      rw [rel_unique h4 h2]
  · intro hdo
    rw [hdo] at h
    exact h

theorem wr_inj {s : Spec.State} {rd len : Nat} {a b : BitVec 64} (h0 : rd ≠ 0)
    (h : s.wr rd a len = s.wr rd b len) : a = b := by
  have := congrFun (congrArg Spec.State.gp h) rd
  simpa [Spec.State.wr, Spec.State.setX, h0] using this

theorem divS_minus_one {w : Nat} (x : BitVec (w + 1)) (h : x = Spec.divS x (BitVec.allOnes (w + 1))) :
    x = BitVec.intMin (w + 1) ∨ x = 0#(w + 1) := by
  by_cases h1 : x = BitVec.intMin (w + 1)
  · exact .inl h1
  · right
    have h2 : BitVec.allOnes (w + 1) ≠ 0#(w + 1) := by
      intro e
      have := congrArg BitVec.toNat e
      simp only [BitVec.toNat_allOnes, BitVec.toNat_ofNat, Nat.zero_mod] at this
      have h9 := Nat.two_pow_pos w
      rw [Nat.pow_succ] at this
      omega
    have h3 : (BitVec.allOnes (w + 1)).toInt = -1 := by simp [BitVec.toInt_allOnes]
    rw [Spec.divS, if_neg h2, if_neg (fun h => h1 h.1), h3, Int.tdiv_neg, Int.tdiv_one, BitVec.ofInt_neg,
      BitVec.ofInt_toInt] at h
    have h4 := congrArg BitVec.toNat h
    have h5 : x.toNat ≠ (BitVec.intMin (w + 1)).toNat := fun e => h1 (BitVec.eq_of_toNat_eq e)
    rw [BitVec.toNat_intMin] at h5
    rw [BitVec.toNat_neg] at h4
    have h6 := x.isLt
    apply BitVec.eq_of_toNat_eq
    simp only [Nat.add_sub_cancel, BitVec.toNat_ofNat, Nat.zero_mod] at h5 ⊢
    have h7 : 2 ^ w < 2 ^ (w + 1) := by rw [Nat.pow_succ]; have := Nat.two_pow_pos w; omega
    rw [Nat.mod_eq_of_lt h7] at h5
    rw [Nat.pow_succ] at h4 h6
    by_cases h8 : x.toNat = 0
    · exact h8
    · rw [Nat.mod_eq_of_lt (by omega)] at h4
      omega

theorem sx_trunc (x : BitVec 32) : (x.signExtend 64).setWidth 32 = x := by
  apply BitVec.eq_of_getLsbD_eq
  intro k hk
  simp only [BitVec.getLsbD_setWidth, BitVec.getLsbD_signExtend, hk, decide_true, Bool.true_and, if_true]
  simp [show k < 64 by omega]

/-- Where an exclusion of `NoDefect` applies, the lifted code is wrong: it does not reach the state the ISA
demands. The premises leave out the cases in which the wrong value cannot be seen: `x0` as destination, `CLMULR` of zero,
and `SC`, which `RV64_exact` covers. -/
theorem RV64_defect (slide : BitVec 64) (i : Frv) (start : BitVec 64) (len : Nat) (m : St) (s s' : Spec.State)
    (hr : Rel slide m s) (hs : s.pc = start + slide) (hd : Decoded i) (he : Spec.exec i len s = some s')
    (h0 : i.rd ≠ 0) (hc : i.mnem = .clmulr → s.x i.rs1 ≠ 0#64) (hsc : i.mnem ≠ .scw ∧ i.mnem ≠ .scd)
    (hn : ¬ NoDefect i s) :
    ¬ ∃ m', lift {} slide i start len m = some { st := m' } ∧ Rel slide m' s' := by
  rw [RV64_exact slide i start len m s s' hr hs hd he]
  intro hdo
  rw [← he] at hdo
  apply hn
  obtain ⟨g1, g2⟩ := hsc
  refine ⟨fun h hy => ?_, fun h hy => ?_, fun h => ?_, fun h => ?_, ?_, fun h => ?_⟩
  · simp only [Spec.does, h, hy, if_true, Spec.exec, Spec.aluVal, Spec.divVal, Option.some.injEq] at hdo
    exact divS_minus_one _ (wr_inj h0 hdo)
  · simp only [Spec.does, h, hy, if_true, Spec.exec, Spec.aluVal, Spec.divVal, Option.some.injEq] at hdo
    refine divS_minus_one _ ?_
    have := congrArg (BitVec.setWidth 32) (wr_inj h0 hdo)
    rwa [sx_trunc, sx_trunc] at this
  · simp only [Spec.does, h, Spec.exec, Spec.aluVal, Spec.divVal, Spec.bitVal, Option.some.injEq] at hdo
    have h1 := wr_inj h0 hdo
    cases hb : (s.x i.rs2).getLsbD 63 with
    | false => rfl
    | true =>
      rw [hb, if_pos rfl] at h1
      have h2 := congrArg (fun v => (Spec.clprod (s.x i.rs1) (s.x i.rs2)).extractLsb' 63 64 ^^^ v) h1
      simp only [← BitVec.xor_assoc, BitVec.xor_self, BitVec.zero_xor] at h2
      exact absurd h2 (hc h)
  · simp only [Spec.does, h, Spec.exec, Spec.aluVal, Spec.divVal, Spec.bitVal, Spec.taken, Spec.loadKind, Spec.storeKind,
      Spec.amoKind, Spec.execOther, Spec.jump, Spec.jalr, if_true, Option.some.injEq] at hdo
    have h1 := congrArg Spec.State.pc hdo
    simp only at h1
    rw [h1]
    simp
  · by_cases ha : Spec.aligned i s = true
    · exact ha
    · exfalso
      have : Spec.does i len s = none := by
        unfold Spec.does
        split
        all_goals try rw [if_neg ha]
        all_goals (exfalso; rename_i h; first | exact g1 h | exact g2 h | (apply ha; simp [Spec.aligned, Spec.access, Spec.loadKind, Spec.storeKind, Spec.amoKind, h]))
      rw [this, he] at hdo
      cases hdo
  · rcases h with h | h
    · exact absurd h g1
    · exact absurd h g2

/-- `RV64_exact` and `RV64_defect` apply to `div x3, x1, x2` with `x2 = -1`, `x1 = 5`: the lifted code does not reach the
state of the ISA. -/
example : ¬ ∃ m', lift {} 0#64 ⟨.div, 3, 1, 2, 0, 0, 7⟩ 0x400000#64 4 (exSt 0x400000#64) = some { st := m' } ∧
    Rel 0#64 m' ((exSpec 0x400000#64).wr 3 (-5) 4) :=
  RV64_defect 0#64 _ _ _ _ (exSpec 0x400000#64) _ (exRel _ _) (by decide) (by decide) rfl (by decide) (by decide)
    (by decide) (by decide +kernel)

/-- `sc.d x1, x2, (x1)`: `rd` is zeroed before it is used as the address, so address 0 is written. -/
example : ∃ m', lift {} 0#64 ⟨.scd, 1, 1, 2, 0, 0, 0⟩ 0x400000#64 4 (exSt 0x400000#64) = some { st := m' } ∧
    Rel 0#64 m' { (exSpec 0x400000#64).setX 1 0#64 with
      mem := (exSpec 0x400000#64).mem.write 0#64 8 (-1), pc := 0x400004#64 } := by
  have h := RV64_does 0#64 ⟨.scd, 1, 1, 2, 0, 0, 0⟩ 0x400000#64 4 (exSt 0x400000#64) (exSpec 0x400000#64) (exRel _ _)
    (by decide) (by decide) rfl
  exact h

end Verif.RV64
