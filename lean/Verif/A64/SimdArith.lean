import Verif.A64.SimdRegs

/-! The code lifted from the SIMD instructions that compute lane by lane, and from the reductions, simulates
the specification. -/

set_option linter.unusedSimpArgs false
set_option linter.constructorNameAsVariable false

namespace Verif.A64.Spec

open Verif.IR Verif.Bits
open Verif.X86 (trunc_some zext_some sext_some add_some sub_some mul_some and_some or_some xor_some
  not_some neg_some icmp_some extract0)

variable {slide : BitVec 64} {m : St} {s s' : S}

/-- The code emitted for a SIMD instruction takes `m` to a representation of `s'`. -/
def SimTo (slide : BitVec 64) (m : St) (i : Simd) (s' : S) : Prop := ∃ m', i.lift m = some m' ∧ Rel slide m' s'

theorem toNat_const {w k : Nat} (h : k < 2 ^ w) : (BitVec.ofNat w k).toNat = k := by
  rw [BitVec.toNat_ofNat, Nat.mod_eq_of_lt h]

theorem sim_three (h : Rel slide m s) {op : Three} {sgn scalar : Bool} {va : VA} {rd rn rm : Fin 32}
    (hok : ∀ r, op = .shl r → ∀ i, i < (if scalar then 1 else va.n) → ShlOk va.w (s.el rm va.w i))
    (hfp : scalar = true → Three.isFp op = true → va.w = 64)
    (hs : s.simd (.three op sgn scalar va rd rn rm) = some s') :
    SimTo slide m (.three op sgn scalar va rd rn rm) s' := by
  refine ⟨_, rfl, ?_⟩
  simp only [S.simd] at hs
  unfold liftThree
  by_cases hsh : op = .shl true
  · rw [if_pos hsh] at hs; cases hs
  rw [if_neg hsh] at hs
  cases scalar
  · simp only [Bool.false_eq_true, if_false, Bool.false_and] at hs ⊢
    split at hs
    · cases hs
      refine h.setVec rd fun i hi => ?_
      rw [h.getVec va rd hi, h.getVec va rn hi, h.getVec va rm hi]
      exact lane3_eq op sgn _ _ _ (VA.w_ge va) fun r e => hok r e i (by simpa using hi)
    · cases hs
  · simp only [if_true, Bool.true_and] at hs ⊢
    split at hs
    next hsc =>
      cases hs
      have h1 : op.hasScalar = true := by cases op <;> first | rfl | cases hsc
      have h2 : op.scalarW va = va.w := by
        cases op <;> first | rfl | exact (hfp rfl rfl).symm | exact (eq_of_beq hsc).symm | cases hsc
      rw [h1]
      simp only [if_true]
      rw [h2, h.scalarEl, h.scalarEl, h.scalarEl,
        lane3_eq op sgn _ _ _ (VA.w_ge va) fun r e => hok r e 0 (by simp)]
      exact h.setV rd _
    · cases hs

theorem sim_two (h : Rel slide m s) {op : Two} {scalar : Bool} {va : VA} {rd rn : Fin 32}
    (hfp : scalar = true → Two.isFp op = true → va.w = 64)
    (hs : s.simd (.two op scalar va rd rn) = some s') : SimTo slide m (.two op scalar va rd rn) s' := by
  refine ⟨_, rfl, ?_⟩
  simp only [S.simd] at hs
  unfold liftTwo
  cases scalar
  · simp only [Bool.false_eq_true, if_false, Bool.false_and] at hs ⊢
    split at hs
    · cases hs
      refine h.setVec rd fun i hi => ?_
      rw [h.getVec va rn hi]
      exact lane2_eq op _ (VA.w_pos va)
    · cases hs
  · simp only [if_true, Bool.true_and] at hs ⊢
    split at hs
    next hsc =>
      cases hs
      have h1 : op.hasScalar = true := by cases op <;> first | rfl | cases hsc
      have h2 : op.scalarW va = va.w := by
        cases op <;> first | rfl | exact (hfp rfl rfl).symm | exact (eq_of_beq hsc).symm | cases hsc
      rw [h1]
      simp only [if_true]
      rw [h2, h.scalarEl, lane2_eq op _ (VA.w_pos va)]
      exact h.setV rd _
    · cases hs

theorem shl_const {w : Nat} (x : BitVec w) {imm : Nat} (hi : imm < w) :
    IR.shl (some x) (some (BitVec.ofNat w imm)) = some (BitVec.ofInt w (ival false x * 2 ^ imm)) := by
  have e := toNat_const (w := w) (Nat.lt_trans hi Nat.lt_two_pow_self)
  rw [shl_some, e, if_pos hi, shl_ival false]

theorem shlNat_const {w : Nat} (x : BitVec w) {imm : Nat} (hi : imm < w) :
    IR.shl (some x) (some (BitVec.ofNat w imm)) = some (BitVec.ofNat w (x.toNat * 2 ^ imm)) := by
  rw [shl_const x hi, ← ofInt_natAbs]
  simp only [ival, Bool.false_eq_true, if_false]
  congr 2

theorem shr_const {w : Nat} (sgn : Bool) (x : BitVec w) {imm : Nat} (hi : imm < w) :
    (if sgn then IR.ashr (some x) (some (BitVec.ofNat w imm)) else
      IR.lshr (some x) (some (BitVec.ofNat w imm))) = some (BitVec.ofInt w (val sgn x / 2 ^ imm)) := by
  have e := toNat_const (w := w) (Nat.lt_trans hi Nat.lt_two_pow_self)
  cases sgn
  · simp only [Bool.false_eq_true, if_false, lshr_some, e, hi, if_true, lshr_ival]; rfl
  · simp only [if_true, ashr_some, e, hi, ashr_ival]; rfl

theorem sim_shlImm (h : Rel slide m s) {scalar : Bool} {va : VA} {rd rn : Fin 32} {imm : Nat}
    (hs : s.simd (.shlImm scalar va rd rn imm) = some s') : SimTo slide m (.shlImm scalar va rd rn imm) s' := by
  refine ⟨_, rfl, ?_⟩
  simp only [S.simd] at hs
  unfold liftShlImm
  split at hs
  next hi =>
    cases scalar
    · simp only [Bool.false_eq_true, if_false] at hs ⊢
      cases hs
      refine h.setVec rd fun i hi' => ?_
      rw [h.getVec va rn hi']
      exact shlNat_const _ hi
    · simp only [if_true] at hs ⊢
      split at hs
      · cases hs
        rw [h.scalarEl, shlNat_const _ hi]
        exact h.setV rd _
      · cases hs
  · cases hs

theorem sim_shr (h : Rel slide m s) {sgn round scalar : Bool} {va : VA} {rd rn : Fin 32} {imm : Nat}
    (hok : imm < va.w) (hs : s.simd (.shr sgn round scalar va rd rn imm) = some s') :
    SimTo slide m (.shr sgn round scalar va rd rn imm) s' := by
  refine ⟨_, rfl, ?_⟩
  simp only [S.simd] at hs
  unfold liftShr
  split at hs
  next hi =>
    cases scalar
    · simp only [Bool.false_eq_true, if_false] at hs ⊢
      cases hs
      refine h.setVec rd fun i hi' => ?_
      rw [h.getVec va rn hi']
      exact shr_const _ _ hok
    · simp only [if_true] at hs ⊢
      split at hs
      · cases hs
        rw [h.scalarEl, shr_const _ _ hok]
        exact h.setV rd _
      · cases hs
  · cases hs

theorem sra_vec (h : Rel slide m s) {sgn round : Bool} {va : VA} {rd rn : Fin 32} {imm : Nat}
    (hi : 1 ≤ imm ∧ imm ≤ va.w) :
    Rel slide (m.setVec rd va.n fun i => laneSra sgn round imm (m.getVec va rd i) (m.getVec va rn i))
      (s.setEls rd va.w va.n fun i => BitVec.ofInt va.w ((s.el rd va.w i).toNat +
        (val sgn (s.el rn va.w i) + (if round then 2 ^ (imm - 1) else 0)) / 2 ^ imm)) := by
  refine h.setVec rd fun i hi' => ?_
  rw [h.getVec va rn hi', h.getVec va rd hi']
  exact laneSra_eq sgn round imm _ _ (VA.w_pos va) hi.1 hi.2

theorem sim_sra (h : Rel slide m s) {sgn round scalar : Bool} {va : VA} {rd rn : Fin 32} {imm : Nat}
    (hs : s.simd (.sra sgn round scalar va rd rn imm) = some s') :
    SimTo slide m (.sra sgn round scalar va rd rn imm) s' := by
  refine ⟨_, rfl, ?_⟩
  simp only [S.simd] at hs
  split at hs
  next hi =>
    cases scalar
    · simp only [Bool.false_eq_true, if_false] at hs ⊢
      cases hs
      exact sra_vec h hi
    · simp only [if_true] at hs ⊢
      split at hs
      next hw =>
        have hi2 : 1 ≤ imm ∧ imm ≤ VA.d1.w := by rw [hw] at hi; exact hi
        have := sra_vec (sgn := sgn) (round := round) (rd := rd) (rn := rn) h hi2
        rw [show s.setEls rd VA.d1.w VA.d1.n _ = _ from setEls_scalar rd VA.d1.w _] at this
        cases hs
        rw [hw]
        exact this
      · cases hs
  · cases hs

theorem dbl_map {va : VA} (hva : va.w < 64) {α : Type} (f : VA → α) (x : α) (hf : ∀ v, f v = x) :
    va.dbl.map f = some x := by
  cases hd : va.dbl with
  | none => have := VA.n_dbl hva; rw [hd] at this; cases this
  | some v => exact congrArg some (hf v)

theorem mul_two_pow {w : Nat} (z : Int) {imm : Nat} (hi : imm < w) :
    IR.shl (some (BitVec.ofInt w z)) (some (BitVec.ofNat w imm)) = some (BitVec.ofInt w (z * 2 ^ imm)) := by
  have e := toNat_const (w := w) (Nat.lt_trans hi Nat.lt_two_pow_self)
  rw [shl_some, e, if_pos hi, shl_ival false, BitVec.ofInt_mul, ofInt_ival, ← BitVec.ofInt_mul]

theorem sim_shll (h : Rel slide m s) {sgn : Bool} {va : VA} {rd rn : Fin 32} {imm : Nat}
    (hs : s.simd (.shll sgn va rd rn imm) = some s') : SimTo slide m (.shll sgn va rd rn imm) s' := by
  simp only [S.simd] at hs
  split at hs
  next hi =>
    cases hs
    refine ⟨_, dbl_map hi.1 _ _ fun _ => rfl, ?_⟩
    rw [VA.dn_eq]
    refine h.setVec rd fun i hi' => ?_
    rw [h.halve va hi.1 rn hi', ext2_some, mul_two_pow _ (by omega)]
  · cases hs

theorem sim_shrn (h : Rel slide m s) {round : Bool} {va : VA} {rd rn : Fin 32} {imm : Nat}
    (hs : s.simd (.shrn round va rd rn imm) = some s') : SimTo slide m (.shrn round va rd rn imm) s' := by
  simp only [S.simd] at hs
  split at hs
  next hi =>
    cases hs
    refine ⟨_, dbl_map hi.2.1 _ _ fun _ => rfl, ?_⟩
    refine h.insHalf va hi.2.1 rd fun i hi' => ?_
    have hp := VA.w_pos va
    have e := toNat_const (w := 2 * va.w) (k := imm) (Nat.lt_trans (show imm < 2 * va.w by omega) Nat.lt_two_pow_self)
    rw [h.getDbl va rn hi', lshr_some, e, if_pos (show imm < 2 * va.w by omega), trunc_some]
    congr 1
    apply BitVec.eq_of_toNat_eq
    rw [BitVec.toNat_setWidth, BitVec.toNat_ushiftRight, Nat.shiftRight_eq_div_pow, BitVec.toNat_ofNat]
  · cases hs

theorem el_low (s : S) (r : Fin 32) (w i : Nat) :
    (s.el r (2 * w) i).setWidth w = s.el r w (2 * i) := by
  apply BitVec.eq_of_getLsbD_eq
  intro j hj
  simp only [S.el, BitVec.getLsbD_setWidth, BitVec.getLsbD_extractLsb', hj, show j < 2 * w by omega, decide_true,
    Bool.true_and]
  congr 1
  rw [Nat.mul_comm 2 w, Nat.mul_assoc]

theorem sim_xtn (h : Rel slide m s) {va : VA} {rd rn : Fin 32}
    (hs : s.simd (.xtn va rd rn) = some s') : SimTo slide m (.xtn va rd rn) s' := by
  simp only [S.simd] at hs
  split at hs
  next hi =>
    cases hs
    refine ⟨_, dbl_map hi _ _ fun _ => rfl, ?_⟩
    refine h.insHalf va hi rd fun i hi' => ?_
    rw [h.getDbl va rn hi', trunc_some, el_low]
  · cases hs

theorem sim_long (h : Rel slide m s) {op : Long} {sgn : Bool} {va : VA} {rd rn rm : Fin 32}
    (hs : s.simd (.long op sgn va rd rn rm) = some s') : SimTo slide m (.long op sgn va rd rn rm) s' := by
  simp only [S.simd] at hs
  split at hs
  next hi =>
    cases hs
    refine ⟨_, dbl_map hi _ _ fun _ => rfl, ?_⟩
    rw [VA.dn_eq]
    refine h.setVec rd fun i hi' => ?_
    rw [h.getDbl va rd hi', h.halve va hi rn hi', h.halve va hi rm hi', laneLong_eq _ _ _ _ _ (VA.w_pos va)]
  · cases hs

theorem sim_longElem (h : Rel slide m s) {op : Long} {sgn : Bool} {va : VA} {rd rn rm : Fin 32} {idx : Nat}
    (hs : s.simd (.longElem op sgn va rd rn rm idx) = some s') :
    SimTo slide m (.longElem op sgn va rd rn rm idx) s' := by
  simp only [S.simd] at hs
  split at hs
  next hi =>
    cases hs
    refine ⟨_, dbl_map hi.1 _ _ fun _ => rfl, ?_⟩
    rw [VA.dn_eq]
    refine h.setVec rd fun i hi' => ?_
    rw [h.getDbl va rd hi', h.halve va hi.1 rn hi', Vec.splat, h.getElem va rm hi.2,
      laneLong_eq _ _ _ _ _ (VA.w_pos va)]
  · cases hs

theorem sim_wide (h : Rel slide m s) {sub sgn : Bool} {va : VA} {rd rn rm : Fin 32}
    (hs : s.simd (.wide sub sgn va rd rn rm) = some s') : SimTo slide m (.wide sub sgn va rd rn rm) s' := by
  simp only [S.simd] at hs
  split at hs
  next hi =>
    cases hs
    refine ⟨_, dbl_map hi _ _ fun _ => rfl, ?_⟩
    rw [VA.dn_eq]
    refine h.setVec rd fun i hi' => ?_
    simp only
    rw [h.getDbl va rn hi', h.halve va hi rm hi', ext2_some]
    cases sub
    · simp only [Bool.false_eq_true, if_false, add_some, toNat_ofInt_add]
    · simp only [if_true, sub_some, toNat_ofInt_sub]
  · cases hs

theorem sim_mulElem (h : Rel slide m s) {op : Three} {va : VA} {rd rn rm : Fin 32} {idx : Nat}
    (hs : s.simd (.mulElem op va rd rn rm idx) = some s') : SimTo slide m (.mulElem op va rd rn rm idx) s' := by
  simp only [S.simd] at hs
  split at hs
  next hi =>
    cases hs
    refine ⟨_, rfl, ?_⟩
    refine h.setVec rd fun i hi' => ?_
    rw [h.getVec va rd hi', h.getVec va rn hi', Vec.splat, h.getElem va rm hi.2]
    refine lane3_eq op false _ _ _ (VA.w_ge va) fun r e => ?_
    subst e
    obtain ⟨h1 | h1 | h1, _⟩ := hi <;> cases h1
  · cases hs

theorem sim_pair (h : Rel slide m s) {op : Pair} {sgn : Bool} {va : VA} {rd rn rm : Fin 32}
    (hs : s.simd (.pair op sgn va rd rn rm) = some s') : SimTo slide m (.pair op sgn va rd rn rm) s' := by
  simp only [S.simd] at hs
  split at hs
  next hi =>
    cases hs
    refine ⟨_, rfl, ?_⟩
    have hn2 : va.n / 2 + va.n / 2 = va.n := by revert hi; cases va <;> decide
    refine h.setVec rd fun i hi' => ?_
    rw [h.shuffle va rn rm (linear_get _ 2 0 i hi') (by omega), Nat.add_zero, h.shuffle va rn rm (linear_get _ 2 1 i hi') (by omega),
      lanePair_eq]
    by_cases hl : i < va.n / 2
    · simp only [hl, if_true, show 2 * i < va.n by omega, show 2 * i + 1 < va.n by omega, Nat.add_zero]
    · simp only [hl, if_false, show ¬ 2 * i < va.n by omega, show ¬ 2 * i + 1 < va.n by omega, Nat.add_zero]
  · cases hs

theorem sim_addp (h : Rel slide m s) {rd rn : Fin 32}
    (hs : s.simd (.addp rd rn) = some s') : SimTo slide m (.addp rd rn) s' := by
  cases hs
  refine ⟨_, rfl, ?_⟩
  unfold liftAddp
  rw [h.vec, Vec.reduce_eq (v := Vec.ofBits 64 (some (s.vec rn))) (g := fun x y => x + y) (f := s.el rn 64) add_some
    (fun i _ => rfl)]
  have e : (List.range 2).foldl (fun acc i => acc + s.el rn 64 i) 0 =
      BitVec.ofNat 64 ((s.el rn 64 0).toNat + (s.el rn 64 1).toNat) := by
    show 0#64 + s.el rn 64 0 + s.el rn 64 1 = _
    rw [BitVec.zero_add]
    exact BitVec.add_def _ _
  rw [← e]
  exact h.setV rd _

theorem sim_addlp (h : Rel slide m s) {acc sgn : Bool} {va : VA} {rd rn : Fin 32}
    (hs : s.simd (.addlp acc sgn va rd rn) = some s') : SimTo slide m (.addlp acc sgn va rd rn) s' := by
  simp only [S.simd] at hs
  split at hs
  next hi =>
    cases hs
    refine ⟨_, dbl_map hi _ _ fun _ => rfl, ?_⟩
    have hn2 : va.n / 2 + va.n / 2 = va.n := by revert hi; cases va <;> decide
    refine h.setVec rd fun i hi' => ?_
    rw [h.shuffle1 va rn (linear_get _ 2 0 i hi') (by omega), h.shuffle1 va rn (linear_get _ 2 1 i hi') (by omega),
      ext2_some, ext2_some, add_some]
    cases acc
    · simp only [Bool.false_eq_true, if_false, Vec.zero, add_some, Int.zero_add, Nat.add_zero, BitVec.ofInt_add]
      exact congrArg some (BitVec.zero_add _)
    · simp only [if_true]
      rw [h.ofBits rd _ _ i hi', add_some, ← BitVec.ofInt_add, toNat_ofInt_add, Int.add_assoc, Nat.add_zero]
  · cases hs

/-! ### Reductions -/

theorem foldl_sum {w : Nat} (sgn : Bool) (f : Nat → BitVec w) (n : Nat) :
    (List.range n).foldl (fun acc i => acc + f i) 0 = BitVec.ofInt w (sumOf (fun i => val sgn (f i)) n) := by
  induction n with
  | zero => simp [sumOf]
  | succ n ih =>
    rw [List.range_succ, List.foldl_append, ih]
    simp only [List.foldl_cons, List.foldl_nil, sumOf, BitVec.ofInt_add]
    rw [val_ival sgn (f n), ofInt_ival]

/-- Reduction with an operation that picks one of its operands. -/
theorem foldl_pick {w : Nat} (sgn : Bool) (f : Nat → BitVec w) (g : BitVec w → BitVec w → BitVec w) (e : BitVec w)
    (pick : Int → Int → Int) (of : (Nat → Int) → Nat → Int)
    (h1 : ∀ F, of F 1 = F 0) (h2 : ∀ F n, of F (n + 2) = pick (of F (n + 1)) (F (n + 1)))
    (he : ∀ x, g e x = x) (hg : ∀ x y, val sgn (g x y) = pick (val sgn x) (val sgn y)) (n : Nat) :
    val sgn ((List.range (n + 1)).foldl (fun acc i => g acc (f i)) e) = of (fun i => val sgn (f i)) (n + 1) := by
  induction n with
  | zero => simp [h1, he]
  | succ n ih =>
    rw [List.range_succ, List.foldl_append]
    simp only [List.foldl_cons, List.foldl_nil]
    rw [hg, ih, h2]

theorem val_max {w : Nat} (sgn : Bool) (x y : BitVec w) :
    val sgn (if (if sgn then x.slt y else x.ult y) = true then y else x) = max (val sgn x) (val sgn y) := by
  rw [lt_ival]
  by_cases h : ival sgn x < ival sgn y
  · simp only [h, decide_true, if_true, val_ival]; omega
  · simp only [h, decide_false, if_false, val_ival, Bool.false_eq_true]; omega

theorem val_min {w : Nat} (sgn : Bool) (x y : BitVec w) :
    val sgn (if (if sgn then x.slt y else x.ult y) = true then x else y) = min (val sgn x) (val sgn y) := by
  rw [lt_ival]
  by_cases h : ival sgn x < ival sgn y
  · simp only [h, decide_true, if_true, val_ival]; omega
  · simp only [h, decide_false, if_false, val_ival, Bool.false_eq_true]; omega

theorem max_id {w : Nat} (hw : 0 < w) (sgn : Bool) (x : BitVec w) :
    (if (if sgn then (if sgn then BitVec.intMin w else 0).slt x else (if sgn then BitVec.intMin w else 0).ult x) = true
      then x else (if sgn then BitVec.intMin w else 0)) = x := by
  have hi := val_max sgn (if sgn then BitVec.intMin w else 0) x
  have : val sgn (if sgn then BitVec.intMin w else (0 : BitVec w)) ≤ val sgn x := by
    cases sgn
    · simp [val]
    · simp only [val, if_true]
      rw [BitVec.toInt_intMin_of_pos hw]
      exact BitVec.le_toInt x
  rw [Int.max_eq_right this] at hi
  have h2 := congrArg (BitVec.ofInt w) hi
  rwa [val_ival, ofInt_ival, val_ival, ofInt_ival] at h2

theorem min_id {w : Nat} (sgn : Bool) (x : BitVec w) :
    (if (if sgn then (if sgn then BitVec.intMax w else BitVec.allOnes w).slt x else
        (if sgn then BitVec.intMax w else BitVec.allOnes w).ult x) = true
      then (if sgn then BitVec.intMax w else BitVec.allOnes w) else x) = x := by
  have : ¬ ival sgn (if sgn then BitVec.intMax w else BitVec.allOnes w) < ival sgn x := by
    cases sgn
    · have := x.isLt
      simp only [ival, Bool.false_eq_true, if_false, BitVec.toNat_allOnes]; omega
    · have := @BitVec.toInt_le w x
      simp only [ival, if_true]
      rw [BitVec.toInt_intMax]; omega
  rw [lt_ival]
  simp only [this, decide_false, Bool.false_eq_true, if_false]

theorem sim_across (h : Rel slide m s) {op : Pair} {sgn : Bool} {va : VA} {rd rn : Fin 32}
    (hs : s.simd (.across op sgn va rd rn) = some s') : SimTo slide m (.across op sgn va rd rn) s' := by
  cases hs
  refine ⟨_, rfl, ?_⟩
  unfold liftAcross
  have hf : ∀ i, i < va.n → m.getVec va rn i = some (s.el rn va.w i) := fun i hi => h.getVec va rn hi
  obtain ⟨k, hk⟩ : ∃ k, va.n = k + 1 := ⟨va.n - 1, by cases va <;> rfl⟩
  cases op with
  | add =>
    simp only
    rw [Vec.reduce_eq (g := fun x y => x + y) add_some hf, foldl_sum sgn]
    exact h.setV rd _
  | max =>
    simp only
    rw [Vec.reduce_eq (g := fun x y => if (if sgn then x.slt y else x.ult y) = true then y else x) ?_ hf]
    · have := foldl_pick sgn (s.el rn va.w)
        (fun x y => if (if sgn then x.slt y else x.ult y) = true then y else x)
        (if sgn then BitVec.intMin va.w else 0) max maxOf (fun _ => rfl) (fun _ _ => rfl)
        (max_id (VA.w_pos va) sgn) (val_max sgn) k
      rw [hk, ← this, val_ival, ofInt_ival]
      exact h.setV rd _
    · intro x y
      cases sgn <;> rfl
  | min =>
    simp only
    rw [Vec.reduce_eq (g := fun x y => if (if sgn then x.slt y else x.ult y) = true then x else y) ?_ hf]
    · have := foldl_pick sgn (s.el rn va.w)
        (fun x y => if (if sgn then x.slt y else x.ult y) = true then x else y)
        (if sgn then BitVec.intMax va.w else BitVec.allOnes va.w) min minOf (fun _ => rfl) (fun _ _ => rfl)
        (min_id sgn) (val_min sgn) k
      rw [hk, ← this, val_ival, ofInt_ival]
      exact h.setV rd _
    · intro x y
      cases sgn <;> rfl

theorem sim_immOp (h : Rel slide m s) {bic : Bool} {va : VA} {rd : Fin 32} {imm : BitVec 64}
    (hs : s.simd (.immOp bic va rd imm) = some s') : SimTo slide m (.immOp bic va rd imm) s' := by
  cases hs
  refine ⟨_, rfl, ?_⟩
  refine h.setVec rd fun i hi => ?_
  rw [h.getVec va rd hi]
  cases bic
  · refine congrArg some (bits_eq fun j hj => ?_)
    simp [hj]
  · refine congrArg some (bits_eq fun j hj => ?_)
    simp [hj]

end Verif.A64.Spec
