import Verif.A64.SimdLanes

/-! Vector registers: lanes read and written by the lifted code. -/

set_option linter.unusedSimpArgs false
set_option linter.constructorNameAsVariable false

namespace Verif.A64.Spec

open Verif.IR Verif.Bits
open Verif.X86 (trunc_some zext_some sext_some add_some sub_some mul_some and_some or_some xor_some
  not_some neg_some icmp_some extract0)

variable {slide : BitVec 64} {m : St} {s : S}

theorem VA.w_pos (va : VA) : 0 < va.w := by cases va <;> decide
theorem VA.w_ge (va : VA) : 8 ≤ va.w := by cases va <;> decide
theorem VA.size (va : VA) : va.w * va.n ≤ 128 := by cases va <;> decide
theorem VA.n_dbl {va : VA} (h : va.w < 64) : va.dbl.isSome := by revert h; cases va <;> decide
theorem VA.full_n (va : VA) : 16 / va.e = 128 / va.w := by cases va <;> rfl
theorem VA.dn_eq (va : VA) : va.dn = 64 / va.w := by cases va <;> rfl

theorem lane_el (r : Fin 32) (w i : Nat) : lane w (s.vec r) i = s.el r w i := rfl

/-- A lane of the vector read from a register. -/
theorem Rel.ofBits (h : Rel slide m s) (r : Fin 32) (w n i : Nat) (hi : i < n) :
    Vec.ofBits w (m.getV r (w * n)) i = some (s.el r w i) := by
  rw [h.getV]
  simp only [Vec.ofBits_some, S.scalar, extract0, lane_setWidth _ _ _ _ hi, lane_el]

theorem Rel.getVec (h : Rel slide m s) (va : VA) (r : Fin 32) {i : Nat} (hi : i < va.n) :
    m.getVec va r i = some (s.el r va.w i) := h.ofBits r va.w va.n i hi

theorem Rel.getDbl (h : Rel slide m s) (va : VA) (r : Fin 32) {i : Nat} (hi : i < 64 / va.w) :
    m.getDbl va r i = some (s.el r (2 * va.w) i) :=
  h.ofBits r (2 * va.w) va.dn i (by rw [VA.dn_eq]; exact hi)

theorem Rel.getElem (h : Rel slide m s) (va : VA) (r : Fin 32) {i : Nat} (hi : i < 128 / va.w) :
    m.getElem va r i = some (s.el r va.w i) := by
  rw [St.getElem, Vec.extract, VA.full_n, if_pos hi, h.vec]
  rfl

theorem Rel.scalarEl (h : Rel slide m s) (r : Fin 32) (w : Nat) : m.getV r w = some (s.el r w 0) := by
  rw [h.getV]; rfl

/-- Writing all lanes of a register. -/
theorem Rel.setVec (h : Rel slide m s) (r : Fin 32) {w n : Nat} {v : Vec w} {f : Nat → BitVec w}
    (hv : ∀ i, i < n → v i = some (f i)) : Rel slide (m.setVec r n v) (s.setEls r w n f) := by
  rw [St.setVec, Vec.toBits_eq hv]
  exact h.setV r _

theorem setEls_congr {s : S} {r : Fin 32} {w n : Nat} {f g : Nat → BitVec w} (h : ∀ i, i < n → f i = g i) :
    s.setEls r w n f = s.setEls r w n g := by
  rw [S.setEls, S.setEls, ofLanes_congr h]

theorem setEls_scalar (r : Fin 32) (w : Nat) (f : Nat → BitVec w) :
    s.setEls r w 1 f = s.setVec r (f 0) := by
  have h : (ofLanes w 1 f).toNat = (f 0).toNat := by
    simp only [ofLanes, BitVec.toNat_cast, BitVec.toNat_append]
    simp
  rw [S.setEls, S.setVec, S.setVec, h]

theorem Rel.insElem (h : Rel slide m s) (r : Fin 32) (va : VA) {j : Nat} (hj : j < 128 / va.w) (x : BitVec va.w) :
    Rel slide (m.insElem r va.e j (some x)) (s.setEl r va.w j x) := by
  unfold St.insElem S.setEl
  rw [VA.full_n]
  refine h.setVec r ?_
  intro i hi
  rw [Vec.insert, if_pos hj, h.vec]
  split <;> rfl

/-! ### Halves -/

theorem mask_getD {l : List Nat} {i j : Nat} (h : i < l.length) (e : l.getD i 0 = j) : l[i]? = some j := by
  rw [List.getD_eq_getElem?_getD] at e
  rw [List.getElem?_eq_getElem h] at e ⊢
  simpa using e

/-- Masks are tables: an entry of a mask is checked for every arrangement. -/
theorem halve_mask (va : VA) (hva : va.w < 64) {i : Nat} (hi : i < 64 / va.w) :
    (if va.upper then (List.range va.n).drop (va.n / 2) else List.range va.n)[i]? = some (VA.base va + i)
      ∧ VA.base va + i < va.n := by
  have : ∀ va : VA, va.w < 64 → ∀ i, i < 64 / va.w →
      (if va.upper then (List.range va.n).drop (va.n / 2) else List.range va.n)[i]? = some (VA.base va + i)
      ∧ VA.base va + i < va.n := by
    intro va; cases va <;> decide
  exact this va hva i hi

theorem Rel.halve (h : Rel slide m s) (va : VA) (hva : va.w < 64) (r : Fin 32) {i : Nat} (hi : i < 64 / va.w) :
    halve va (m.getVec va r) i = some (s.el r va.w (VA.base va + i)) := by
  obtain ⟨h1, h2⟩ := halve_mask va hva hi
  rw [A64.halve, Vec.shuffle_eq h1, if_pos h2]
  exact h.getVec va r h2

theorem Rel.insHalf (h : Rel slide m s) (va : VA) (hva : va.w < 64) (r : Fin 32) {v : Vec va.w} {f : Nat → BitVec va.w}
    (hv : ∀ i, i < 64 / va.w → v i = some (f i)) :
    Rel slide (m.insHalf va r v) (s.narrow va r f) := by
  unfold St.insHalf S.narrow
  have hw : VA.wide va = va.upper := by revert hva; cases va <;> decide
  rw [hw]
  cases hu : va.upper
  · have hn : va.dn = va.n := by revert hva hu; cases va <;> decide
    simp only [Bool.false_eq_true, if_false]
    rw [hn]
    exact h.setVec r fun i hi => hv i (by rw [← VA.dn_eq, hn]; exact hi)
  · have hn : va.dn = va.n / 2 := by revert hva hu; cases va <;> decide
    have hn2 : va.n / 2 + va.n / 2 = va.n := by revert hva hu; cases va <;> decide
    simp only [if_true]
    refine h.setVec r fun i hi => ?_
    have hm : ((List.range va.n).map fun i => if i < va.n / 2 then i else i + va.n / 2)[i]?
        = some (if i < va.n / 2 then i else i + va.n / 2) := by simp [List.getElem?_range hi]
    rw [Vec.shuffle_eq hm]
    by_cases hl : i < va.n / 2
    · simp only [hl, if_true, hi]
      exact h.getVec va r hi
    · have hm2 : (List.range va.n)[i - va.n / 2]? = some (i - va.n / 2) := List.getElem?_range (by omega)
      simp only [hl, if_false]
      rw [if_neg (by omega), if_pos (by omega), show i + va.n / 2 - va.n = i - va.n / 2 by omega,
        Vec.shuffle_eq hm2, if_pos (by rw [hn]; omega)]
      exact hv _ (by rw [← VA.dn_eq, hn]; omega)

/-! ### Shuffles of registers -/

/-- A shuffle of two registers. -/
theorem Rel.shuffle (h : Rel slide m s) (va : VA) (a b : Fin 32) {mask : List Nat} {i j : Nat}
    (hm : mask[i]? = some j) (hj : j < 2 * va.n) :
    Vec.shuffle va.n (m.getVec va a) (m.getVec va b) mask i =
      some (if j < va.n then s.el a va.w j else s.el b va.w (j - va.n)) := by
  rw [Vec.shuffle_eq hm]
  split
  · next hlt => exact h.getVec va a hlt
  · exact h.getVec va b (by omega)

/-- A shuffle of one register. -/
theorem Rel.shuffle1 (h : Rel slide m s) (va : VA) (a : Fin 32) {mask : List Nat} {i j : Nat} {b : Vec va.w}
    (hm : mask[i]? = some j) (hj : j < va.n) :
    Vec.shuffle va.n (m.getVec va a) b mask i = some (s.el a va.w j) := by
  rw [Vec.shuffle_eq hm, if_pos hj]
  exact h.getVec va a hj

theorem linear_get (n a t i : Nat) (hi : i < n) : (linear n a t)[i]? = some (a * i + t) := by
  simp [linear, List.getElem?_range hi]

theorem pairs_get (n : Nat) (f g : Nat → Nat) (i : Nat) (hi : i < 2 * n) :
    ((List.range n).flatMap fun i => [f i, g i])[i]? = some (if i % 2 = 0 then f (i / 2) else g (i / 2)) := by
  induction n with
  | zero => omega
  | succ n ih =>
    rw [List.range_succ, List.flatMap_append]
    have hl : ((List.range n).flatMap fun i => [f i, g i]).length = 2 * n := by
      simp only [List.length_flatMap, List.length_cons, List.length_nil, List.map_const', List.length_range, List.sum_replicate_nat]
      omega
    by_cases h : i < 2 * n
    · rw [List.getElem?_append_left (by omega), ih h]
    · rw [List.getElem?_append_right (by omega), hl]
      rcases (show i = 2 * n ∨ i = 2 * n + 1 by omega) with e | e
      · subst e; simp
      · subst e
        have h1 : (2 * n + 1) % 2 = 1 := by omega
        have h2 : (2 * n + 1) / 2 = n := by omega
        simp [h1, h2]

theorem concat_eq {w n : Nat} {a b : Vec w} {i : Nat} (hi : i < 2 * n) :
    concat n a b i = if i < n then a i else b (i - n) := by
  rw [concat, Vec.shuffle_eq (List.getElem?_range hi)]
  split
  · rfl
  · rfl

end Verif.A64.Spec
