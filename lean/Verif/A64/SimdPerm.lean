import Verif.A64.SimdArith

/-! The code lifted from the SIMD instructions that move lanes, and from the loads and stores of structures,
simulates the specification. -/

set_option linter.unusedSimpArgs false
set_option linter.constructorNameAsVariable false

namespace Verif.A64.Spec

open Verif.IR Verif.Bits
open Verif.X86 (trunc_some zext_some sext_some add_some sub_some mul_some and_some or_some xor_some
  not_some neg_some icmp_some extract0)

variable {slide : BitVec 64} {m : St} {s s' : S}

theorem sim_movi (h : Rel slide m s) {scalar : Bool} {va : VA} {rd : Fin 32} {imm : BitVec 64}
    (hs : s.simd (.movi scalar va rd imm) = some s') : SimTo slide m (.movi scalar va rd imm) s' := by
  refine ⟨_, rfl, ?_⟩
  simp only [S.simd] at hs
  unfold liftMovi
  cases scalar
  · simp only [Bool.false_eq_true, if_false] at hs ⊢
    cases hs
    refine h.setVec rd fun i hi => ?_
    rw [extract0]; rfl
  · cases hs
    exact h.setV rd imm

theorem sim_dupElem (h : Rel slide m s) {scalar : Bool} {va : VA} {rd rn : Fin 32} {idx : Nat}
    (hs : s.simd (.dupElem scalar va rd rn idx) = some s') : SimTo slide m (.dupElem scalar va rd rn idx) s' := by
  refine ⟨_, rfl, ?_⟩
  simp only [S.simd] at hs
  unfold liftDupElem
  split at hs
  next hi =>
    cases scalar
    · simp only [Bool.false_eq_true, if_false] at hs ⊢
      cases hs
      exact h.setVec rd fun i _ => h.getElem va rn hi
    · cases hs
      simp only [if_true]
      rw [h.getElem va rn hi]
      exact h.setV rd _
  · cases hs

theorem gpElem_eq (h : Rel slide m s) {w32 : Bool} {va : VA} (rn : Reg) (hw : va.w ≤ W w32) :
    gpElem m w32 va rn = some (some ((s.reg 64 rn).extractLsb' 0 va.w)) := by
  rw [gpElem, if_pos hw, h.get, trunc_some, extract0]
  congr 2
  have h64 : W w32 ≤ 64 := W_le w32
  cases rn with
  | zr => simp [S.reg]
  | sp =>
    simp only [S.reg, extract0, BitVec.setWidth_eq]
    rw [BitVec.setWidth_setWidth_of_le _ hw]
  | x r =>
    simp only [S.reg, extract0, BitVec.setWidth_eq]
    rw [BitVec.setWidth_setWidth_of_le _ hw]

theorem sim_dupGpr (h : Rel slide m s) {w32 : Bool} {va : VA} {rd : Fin 32} {rn : Reg}
    (hs : s.simd (.dupGpr w32 va rd rn) = some s') : SimTo slide m (.dupGpr w32 va rd rn) s' := by
  simp only [S.simd] at hs
  split at hs
  next hi =>
    cases hs
    refine ⟨_, by rw [Simd.lift, gpElem_eq h rn hi, Option.map_some], ?_⟩
    exact h.setVec rd fun i _ => rfl
  · cases hs

theorem sim_ext (h : Rel slide m s) {va : VA} {rd rn rm : Fin 32} {imm : Nat}
    (hs : s.simd (.ext va rd rn rm imm) = some s') : SimTo slide m (.ext va rd rn rm imm) s' := by
  simp only [S.simd] at hs
  split at hs
  next hi =>
    cases hs
    refine ⟨_, rfl, ?_⟩
    refine h.setVec rd fun i hi' => ?_
    exact h.shuffle va rn rm (by simp [List.getElem?_range hi']) (by omega)
  · cases hs

theorem sim_insElem (h : Rel slide m s) {va : VA} {rd rn : Fin 32} {dst src : Nat}
    (hs : s.simd (.insElem va rd dst rn src) = some s') : SimTo slide m (.insElem va rd dst rn src) s' := by
  simp only [S.simd] at hs
  split at hs
  next hi =>
    cases hs
    refine ⟨_, rfl, ?_⟩
    rw [h.getElem va rn hi.2]
    exact h.insElem rd va hi.1 _
  · cases hs

theorem sim_insGpr (h : Rel slide m s) {w32 : Bool} {va : VA} {rd : Fin 32} {idx : Nat} {rn : Reg}
    (hs : s.simd (.insGpr w32 va rd idx rn) = some s') : SimTo slide m (.insGpr w32 va rd idx rn) s' := by
  simp only [S.simd] at hs
  split at hs
  next hi =>
    cases hs
    refine ⟨_, by rw [Simd.lift, gpElem_eq h rn hi.1, Option.map_some], ?_⟩
    exact h.insElem rd va hi.2 _
  · cases hs

theorem sim_mov (h : Rel slide m s) {sgn w32 : Bool} {va : VA} {rd : Reg} {rn : Fin 32} {idx : Nat}
    (hs : s.simd (.mov sgn w32 va rd rn idx) = some s') : SimTo slide m (.mov sgn w32 va rd rn idx) s' := by
  simp only [S.simd] at hs
  split at hs
  next hi =>
    cases hs
    refine ⟨_, by rw [Simd.lift, liftMov, if_pos hi.1, h.getElem va rn hi.2, ext_val], ?_⟩
    exact h.set rd _
  · cases hs

/-! ### Table lookup -/

/-- Inserting every element of a vector in turn. -/
theorem insert_all {w : Nat} (n : Nat) (x : Nat → Val w) (v : Vec w) (k : Nat) (hk : k ≤ n) (i : Nat) :
    ((List.range k).foldl (fun dst i => Vec.insert n dst i (x i)) v) i = if i < k then x i else v i := by
  induction k with
  | zero => simp
  | succ k ih =>
    rw [List.range_succ, List.foldl_append]
    simp only [List.foldl_cons, List.foldl_nil]
    rw [Vec.insert, if_pos (by omega)]
    by_cases e : i = k
    · subst e; simp
    · rw [if_neg e, ih (by omega)]
      by_cases h2 : i < k
      · rw [if_pos h2, if_pos (by omega)]
      · rw [if_neg h2, if_neg (by omega)]

theorem nth_eq (rt : Fin 32) (k : Nat) : vreg rt k = nth rt k := by
  apply Fin.ext
  simp only [vreg, nth, Fin.val_add, Fin.ofNat]
  omega

/-- Entry `t` of the table is byte `t % 16` of register `t / 16`. -/
theorem tblTable_eq (h : Rel slide m s) {nreg : Nat} (rn : Fin 32) (hk : regsOk nreg = true) :
    ∃ t, tblTable m nreg rn = some t ∧ ∀ i, i < 16 * nreg → i < t.2 ∧ t.1 i = some (s.el (nth rn (i / 16)) 8 (i % 16)) := by
  have hv : ∀ k i, i < 16 → m.getVec .b16 (rn + Fin.ofNat 32 k) i = some (s.el (nth rn k) 8 i) := by
    intro k i hi
    rw [← nth_eq]
    exact h.getVec .b16 _ hi
  have h2 : ∀ k i, i < 32 → concat 16 (m.getVec .b16 (rn + Fin.ofNat 32 k)) (m.getVec .b16 (rn + Fin.ofNat 32 (k + 1))) i =
      some (s.el (nth rn (k + i / 16)) 8 (i % 16)) := by
    intro k i hi
    rw [concat_eq hi]
    split
    next hl =>
      rw [hv _ _ hl, show i / 16 = 0 by omega, show i % 16 = i by omega, Nat.add_zero]
    · rw [hv _ _ (by omega), show i / 16 = 1 by omega, show i % 16 = i - 16 by omega]
  simp only [regsOk, decide_eq_true_eq] at hk
  have hc : nreg = 1 ∨ nreg = 2 ∨ nreg = 3 ∨ nreg = 4 := by omega
  rcases hc with rfl | rfl | rfl | rfl
  · refine ⟨_, rfl, fun i hi => ⟨hi, ?_⟩⟩
    show m.getVec .b16 (rn + Fin.ofNat 32 0) i = _
    rw [hv _ _ hi, show i / 16 = 0 by omega, show i % 16 = i by omega]
  · refine ⟨_, rfl, fun i hi => ⟨hi, ?_⟩⟩
    show concat 16 (m.getVec .b16 (rn + Fin.ofNat 32 0)) (m.getVec .b16 (rn + Fin.ofNat 32 (0 + 1))) i = _
    rw [h2 0 i hi, Nat.zero_add]
  · refine ⟨_, rfl, fun i hi => ⟨by simp only; omega, ?_⟩⟩
    show concat 32 (concat 16 (m.getVec .b16 (rn + Fin.ofNat 32 0)) (m.getVec .b16 (rn + Fin.ofNat 32 (0 + 1))))
      (concat 16 (m.getVec .b16 (rn + Fin.ofNat 32 2)) Vec.zero) i = _
    rw [concat_eq (by omega)]
    split
    next hl => rw [h2 0 i hl, Nat.zero_add]
    · rw [concat_eq (by omega), if_pos (by omega), hv _ _ (by omega), show i / 16 = 2 by omega,
        show i % 16 = i - 32 by omega]
  · refine ⟨_, rfl, fun i hi => ⟨by simp only; omega, ?_⟩⟩
    show concat 32 (concat 16 (m.getVec .b16 (rn + Fin.ofNat 32 0)) (m.getVec .b16 (rn + Fin.ofNat 32 (0 + 1))))
      (concat 16 (m.getVec .b16 (rn + Fin.ofNat 32 2)) (m.getVec .b16 (rn + Fin.ofNat 32 (2 + 1)))) i = _
    rw [concat_eq (by omega)]
    split
    next hl => rw [h2 0 i hl, Nat.zero_add]
    · rw [h2 2 _ (by omega), show 2 + (i - 32) / 16 = i / 16 by omega, show (i - 32) % 16 = i % 16 by omega]

theorem sim_tbl (h : Rel slide m s) {tbx : Bool} {va : VA} {nreg : Nat} {rd rn rm : Fin 32}
    (hs : s.simd (.tbl tbx va nreg rd rn rm) = some s') : SimTo slide m (.tbl tbx va nreg rd rn rm) s' := by
  simp only [S.simd] at hs
  split at hs
  next hi =>
    obtain ⟨hw, hk⟩ := hi
    cases hs
    have he : va.e = 1 := by simp only [VA.w] at hw; omega
    obtain ⟨t, ht, htab⟩ := tblTable_eq h rn hk
    refine ⟨_, by rw [Simd.lift, liftTbl, if_pos he, ht, Option.map_some], ?_⟩
    refine h.setVec rd fun i hi => ?_
    rw [insert_all va.n _ _ va.n (Nat.le_refl _), if_pos hi]
    have hidx : ∀ r, Vec.ofBits 8 (m.getV r (va.w * va.n)) i = some (s.el r 8 i) := fun r => by
      rw [hw]; exact h.ofBits r 8 va.n i hi
    have hk4 : 1 ≤ nreg ∧ nreg ≤ 4 := by simpa [regsOk] using hk
    have e := toNat_const (w := 8) (k := nreg * 16) (by omega)
    simp only [Vec.extract, if_pos hi, hidx, Vec.extractV, Option.bind_some, icmp_some, Pred.eval, select_bool,
      BitVec.ule, decide_eq_true_eq, e]
    by_cases hlt : (s.el rm 8 i).toNat < 16 * nreg
    · rw [if_neg (by omega), if_pos hlt, if_pos (htab _ hlt).1, (htab _ hlt).2]
    · rw [if_pos (by omega), if_neg hlt]
      cases tbx <;> rfl
  · cases hs

/-! ### Permutations -/

theorem sim_uzp (h : Rel slide m s) {odd : Bool} {va : VA} {rd rn rm : Fin 32}
    (hs : s.simd (.uzp odd va rd rn rm) = some s') : SimTo slide m (.uzp odd va rd rn rm) s' := by
  simp only [S.simd] at hs
  split at hs
  next hi =>
    cases hs
    refine ⟨_, rfl, ?_⟩
    have hn2 : va.n / 2 + va.n / 2 = va.n := by revert hi; cases va <;> decide
    refine h.setVec rd fun i hi' => ?_
    have hp : (if odd = true then 1 else 0) ≤ 1 := by split <;> omega
    generalize (if odd = true then 1 else 0) = p at *
    rw [h.shuffle va rn rm (linear_get _ 2 p i hi') (by omega)]
    by_cases hl : 2 * i < va.n
    · rw [if_pos hl, if_pos (by omega)]
    · rw [if_neg hl, if_neg (by omega), show 2 * i + p - va.n = 2 * i - va.n + p by omega]
  · cases hs

theorem sim_zip (h : Rel slide m s) {upper : Bool} {va : VA} {rd rn rm : Fin 32}
    (hs : s.simd (.zip upper va rd rn rm) = some s') : SimTo slide m (.zip upper va rd rn rm) s' := by
  simp only [S.simd] at hs
  split at hs
  next hi =>
    cases hs
    refine ⟨_, rfl, ?_⟩
    have hn2 : va.n / 2 + va.n / 2 = va.n := by revert hi; cases va <;> decide
    refine h.setVec rd fun i hi' => ?_
    have hm : (if upper then zipUpper va.n else zipLower va.n)[i]? =
        some (if i % 2 = 0 then (if upper then va.n / 2 else 0) + i / 2 else
          (if upper then va.n / 2 else 0) + i / 2 + va.n) := by
      cases upper
      · simp only [Bool.false_eq_true, if_false, zipLower]
        rw [pairs_get _ _ _ i (by omega)]; simp
      · simp only [if_true, zipUpper]
        rw [pairs_get _ _ _ i (by omega)]
    have hp : (if upper = true then va.n / 2 else 0) ≤ va.n / 2 := by split <;> omega
    rw [h.shuffle va rn rm hm (by split <;> omega)]
    generalize (if upper = true then va.n / 2 else 0) = p at *
    split
    · rw [if_pos (by omega)]
    · rw [if_neg (by omega), show p + i / 2 + va.n - va.n = p + i / 2 by omega]
  · cases hs

theorem flat_get (n k : Nat) (L : Nat → List Nat) (hL : ∀ i, (L i).length = k) (i : Nat) (hi : i < k * n) :
    ((List.range n).flatMap L)[i]? = (L (i / k))[i % k]? := by
  induction n with
  | zero => omega
  | succ n ih =>
    have hk : 0 < k := by rcases Nat.eq_zero_or_pos k with e | e; · subst e; omega
                          · exact e
    rw [List.range_succ, List.flatMap_append]
    have hl : ((List.range n).flatMap L).length = k * n := by
      simp only [List.length_flatMap, hL, List.map_const', List.length_range, List.sum_replicate_nat]
      rw [Nat.mul_comm]
    by_cases h : i < k * n
    · rw [List.getElem?_append_left (by omega), ih h]
    · rw [List.getElem?_append_right (by omega), hl]
      rw [Nat.mul_succ] at hi
      have e1 : i / k = n := by
        apply Nat.div_eq_of_lt_le
        · rw [Nat.mul_comm]; omega
        · rw [Nat.succ_mul, Nat.mul_comm]; omega
      have e2 : i % k = i - k * n := by rw [Nat.mod_eq_sub_mul_div, e1]
      rw [e1, e2]
      simp

theorem reverse_get (n m i : Nat) (hi : i < n * m) : (reverse n m)[i]? = some (i / n * n + (n - 1 - i % n)) := by
  have hn : 0 < n := by rcases Nat.eq_zero_or_pos n with e | e; · subst e; omega
                        · exact e
  rw [A64.reverse, flat_get m n _ (by simp) i hi]
  have := Nat.mod_lt i hn
  simp [List.getElem?_range this]
  omega

theorem sim_rev (h : Rel slide m s) {c : Nat} {va : VA} {rd rn : Fin 32}
    (hs : s.simd (.rev c va rd rn) = some s') : SimTo slide m (.rev c va rd rn) s' := by
  simp only [S.simd] at hs
  split at hs
  next hi =>
    cases hs
    have hr : revRun c va = some (c / va.w) ∧ c / va.w * (va.n / (c / va.w)) = va.n := by
      obtain ⟨rfl | rfl | rfl, h2⟩ := hi <;> revert h2 <;> cases va <;> decide
    refine ⟨_, by rw [Simd.lift, liftRev, hr.1, Option.map_some], ?_⟩
    refine h.setVec rd fun i hi' => ?_
    have hk : 0 < c / va.w := Nat.div_pos (by omega) (VA.w_pos va)
    refine h.shuffle1 va rn (reverse_get _ _ i (by rw [hr.2]; exact hi')) ?_
    generalize c / va.w = k at *
    have h1 : i / k < va.n / k := by
      rw [Nat.div_lt_iff_lt_mul hk, Nat.mul_comm, hr.2]; exact hi'
    have h3 : (i / k + 1) * k ≤ va.n / k * k := Nat.mul_le_mul_right _ h1
    rw [Nat.mul_comm (va.n / k), hr.2, Nat.succ_mul] at h3
    omega
  · cases hs

end Verif.A64.Spec
