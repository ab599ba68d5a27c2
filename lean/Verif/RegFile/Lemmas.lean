import Verif.RegFile.Spec

/-!
Invariant of the register file and the lemmas that every access preserves it.
-/

namespace Verif.RegFile

/-! ### Type discipline of the instruction lifters -/

/-- Sizes of values in general-purpose and vector registers. -/
def IsSz (n : Nat) : Prop := n = 8 ∨ n = 16 ∨ n = 32 ∨ n = 64 ∨ n = 128

/-- Types the lifters store in and read from a register of each class. -/
def Cls.okTy : Cls → Ty → Prop
  | .gp, .int n => IsSz n ∧ n ≤ 64
  | .gp, .ptr => True
  | .vec, .int n => IsSz n
  | .vec, .fp n => IsSz n
  | .vec, .vec _ e n => IsSz e ∧ IsSz (e * n)
  | .fpr, .int n => IsSz n ∧ n ≤ 64
  | .fpr, .fp n => IsSz n ∧ n ≤ 64
  | .flag, .int n => n = 1
  | .pf, .int n => n = 8
  | _, _ => False

theorem isSz_pos {n : Nat} (h : IsSz n) : 8 ≤ n ∧ n ≤ 128 := by
  unfold IsSz at h; omega

theorem isSz_mul_div {a b : Nat} (ha : IsSz a) (hb : IsSz b) (h : a ≤ b) : a * (b / a) = b := by
  unfold IsSz at ha hb
  rcases ha with rfl | rfl | rfl | rfl | rfl <;> rcases hb with rfl | rfl | rfl | rfl | rfl <;>
    simp at h ⊢

theorem okTy_size {c : Cls} {t : Ty} (h : c.okTy t) : 0 < t.size ∧ t.size ≤ c.native.size := by
  cases c <;> cases t <;> simp_all [Cls.okTy, Ty.size, Cls.native] <;>
    first | (have := isSz_pos h; omega) | (have := isSz_pos h.1; omega) | (have := isSz_pos h.2; omega)

theorem okTy_native (c : Cls) : c.okTy c.native := by
  cases c <;> simp [Cls.okTy, Cls.native, IsSz]

theorem native_pos (c : Cls) : 0 < c.native.size := by
  cases c <;> simp [Cls.native, Ty.size]

/-! ### Invariant -/

/-- A well formed cached value. -/
structure RVal.Wf (c : Cls) (v : RVal) : Prop where
  ok : c.okTy v.a.ty
  size : v.size = v.a.ty.size
  zero : ∀ i, v.size ≤ i → v.a.bits i = false

/-- Size of the first dirty value: bits below it are outdated in the values before. -/
def lowBound : List RVal → Nat
  | [] => 0
  | v :: vs => if v.dirty then v.size else lowBound vs

/-- Every cached value agrees with the flat register on the bits not overwritten by later values. -/
def Agree (flat : Bits) : List RVal → Prop
  | [] => True
  | v :: vs => (∀ i, lowBound vs ≤ i → i < v.size → v.a.bits i = flat i) ∧ Agree flat vs

/-- Sizes do not increase. -/
def Sorted : List RVal → Prop
  | [] => True
  | v :: vs => (∀ w ∈ vs, w.size ≤ v.size) ∧ Sorted vs

/-- Bits covered by the cached values. -/
def top : List RVal → Nat
  | [] => 0
  | v :: _ => v.size

/-- Invariant of a (canonicalised) register whose flat content is `flat` and whose content at the
start of the block was `outer`. -/
structure VInv (c : Cls) (uz : Bool) (vals : List RVal) (flat : Bits) (outer : Option Bits) : Prop where
  wf : ∀ v ∈ vals, v.Wf c
  sorted : Sorted vals
  agree : Agree flat vals
  strict : ∀ v vs, vals = v :: vs → ∀ w ∈ vs, w.size < v.size
  first : ∀ v vs, vals = v :: vs → v.dirty = true ∨ v.size = c.native.size
  zero : ∀ i, c.native.size ≤ i → flat i = false
  upper : uz = true → (∃ v vs, vals = v :: vs ∧ v.dirty = true) ∧ ∀ i, top vals ≤ i → flat i = false
  inherited : uz = false → ∃ g, outer = some g ∧ ∀ i, top vals ≤ i → flat i = g i

/-- Content of the register at the start of the block: the parent's, or the PHI's. -/
def outer (base : Base) : List Bits → Option Bits
  | [] => match base with | .entry => none | .phi b => some b
  | f :: _ => some f

/-- Invariant of a chain of register states. -/
def Inv (c : Cls) (base : Base) : List RState → List Bits → Prop
  | [], [] => ∀ b, base = .phi b → ∀ i, c.native.size ≤ i → b i = false
  | r :: rs, f :: fs => VInv c r.canon.uz r.canon.vals f (outer base fs) ∧ Inv c base rs fs
  | _, _ => False

theorem canon_canon (r : RState) : r.canon.canon = r.canon := by
  unfold RState.canon; cases h : r.lazy <;> simp [h]

theorem canon_lazy (r : RState) : r.canon.lazy = none := by
  unfold RState.canon; cases h : r.lazy <;> simp [h]

theorem canon_of_lazy_none {r : RState} (h : r.lazy = none) : r.canon = r := by
  unfold RState.canon; rw [h]

/-! ### Scan -/

theorem lowBound_le {vs : List RVal} {n : Nat} (h : ∀ w ∈ vs, w.size ≤ n) : lowBound vs ≤ n := by
  induction vs with
  | nil => simp [lowBound]
  | cons v vs ih =>
    unfold lowBound
    split
    · exact h v (by simp)
    · exact ih (fun w hw => h w (by simp [hw]))

theorem scan_some {full : Nat} : ∀ {vs : List RVal} {pre : List RVal} {start j : Nat},
    Sorted (pre ++ vs) →
    (∀ w v, pre[start]? = some w → v ∈ pre.drop (start + 1) → v.size < full ∧ v.dirty = false) →
    (∃ w, pre[start]? = some w ∧ full ≤ w.size) →
    scan full vs pre.length start = some j →
    ∃ w, (pre ++ vs)[j]? = some w ∧ full ≤ w.size ∧
      ∀ v ∈ (pre ++ vs).drop (j + 1), v.size < full ∧ v.dirty = false
  | [], pre, start, j, _, hdrop, ⟨w, hw, hs⟩, h => by
    simp only [scan, Option.some.injEq] at h
    subst h
    exact ⟨w, by simpa using hw, hs, fun v hv => hdrop w v hw (by simpa using hv)⟩
  | v :: vs, pre, start, j, hsort, hdrop, ⟨w, hw, hs⟩, h => by
    have happ : pre ++ v :: vs = (pre ++ [v]) ++ vs := by simp
    have hlen : (pre ++ [v]).length = pre.length + 1 := by simp
    rw [scan] at h
    split at h
    · rename_i hfull
      rw [happ] at hsort ⊢
      refine scan_some (start := pre.length) hsort ?_ ⟨v, by simp, hfull⟩ (by rw [hlen]; exact h)
      intro w' v' _ hv'
      rw [List.drop_of_length_le (by simp)] at hv'
      simp at hv'
    · rename_i hfull
      split at h
      · simp at h
      · rename_i hd
        have hstart : start < pre.length := by
          have := List.getElem?_eq_some_iff.mp hw
          exact this.1
        rw [happ] at hsort ⊢
        refine scan_some (start := start) hsort ?_ ⟨w, ?_, hs⟩ (by rw [hlen]; exact h)
        · intro w' v' hw' hv'
          rw [List.drop_append_of_le_length (by omega)] at hv'
          simp only [List.mem_append, List.mem_singleton] at hv'
          rcases hv' with hv' | rfl
          · exact hdrop w v' hw hv'
          · exact ⟨by omega, by simpa using hd⟩
        · rw [List.getElem?_append_left hstart]; exact hw

/-! ### Folding -/

theorem agree_getElem {flat : Bits} : ∀ {vs : List RVal} {j : Nat} {w : RVal}, Agree flat vs →
    vs[j]? = some w → (∀ v ∈ vs.drop (j + 1), v.dirty = false) →
    ∀ i, i < w.size → w.a.bits i = flat i
  | [], _, _, _, h, _ => by simp at h
  | v :: vs, 0, w, ha, h, hd => by
    simp at h; subst h
    have hl : lowBound vs = 0 := by
      have hd : ∀ x ∈ vs, x.dirty = false := by simpa using hd
      clear ha
      rename_i hd0
      clear hd0
      induction vs with
      | nil => rfl
      | cons x xs ih =>
        rw [lowBound, hd x (by simp)]
        simpa using ih (fun y hy => hd y (by simp [hy]))
    intro i hi
    exact ha.1 i (by omega) hi
  | v :: vs, j + 1, w, ha, h, hd => by
    exact agree_getElem (vs := vs) (j := j) ha.2 (by simpa using h) (by simpa using hd)

theorem bitCast_int {c : Cls} {v : SV} (h : c.okTy v.ty) (hp : v.ty ≠ .ptr) :
    bitCast v (.int v.ty.size) = some ⟨.int v.ty.size, v.bits⟩ := by
  rcases v with ⟨t, b⟩
  cases t <;> simp_all [bitCast, Ty.size]

theorem foldInt_spec {c : Cls} {flat : Bits} {fs : Nat} : ∀ {vs : List RVal} {b : Bits},
    (∀ v ∈ vs, v.Wf c ∧ v.a.ty ≠ .ptr ∧ v.size ≤ fs) → Agree flat vs →
    (∀ i, lowBound vs ≤ i → b i = low fs flat i) →
    foldInt fs b vs = some (low fs flat)
  | [], b, _, _, hb => by
    simp only [foldInt, Option.some.injEq]
    funext i
    exact hb i (by simp [lowBound])
  | v :: vs, b, hw, ha, hb => by
    have hwv := hw v (by simp)
    have hws : ∀ w ∈ vs, w.Wf c ∧ w.a.ty ≠ .ptr ∧ w.size ≤ fs := fun w h => hw w (by simp [h])
    rw [foldInt]
    by_cases hd : v.dirty
    · simp only [hd, if_true]
      rw [hwv.1.size, bitCast_int hwv.1.ok hwv.2.1, ← hwv.1.size]
      refine foldInt_spec hws ha.2 ?_
      intro i hi
      have h1 : lowBound (v :: vs) = v.size := by simp [lowBound, hd]
      rw [h1] at hb
      by_cases hlt : i < v.size
      · have := ha.1 i hi hlt
        have h2 : i < fs := by have := hwv.2.2; omega
        have h3 : ¬ v.size ≤ i := by omega
        simp [low, this, h2, h3]
      · have h3 : v.size ≤ i := by omega
        have h4 := hwv.1.zero i h3
        have h5 := hb i h3
        simp only [low] at h5 ⊢
        simp only [h4, h5, h3, decide_true, Bool.true_and, Bool.and_false, Bool.or_false]
        cases decide (i < fs) <;> simp
    · simp only [hd]
      have h1 : lowBound (v :: vs) = lowBound vs := by simp [lowBound, hd]
      rw [h1] at hb
      exact foldInt_spec hws ha.2 hb

theorem shuffle_map {f : Bool} {e n : Nat} {a b : SV} (ha : a.ty = .vec f e n) (hb : b.ty = .vec f e n)
    {k : Nat} {g : Nat → Nat} (hg : ∀ j, j < k → g j < 2 * n) :
    shuffle a b ((List.range k).map g) = some ⟨.vec f e k, fun i =>
      if i / e < k then
        if g (i / e) < n then a.bits (g (i / e) * e + i % e) else b.bits ((g (i / e) - n) * e + i % e)
      else false⟩ := by
  unfold shuffle
  rw [ha]
  rw [hb]
  simp only
  rw [if_pos ⟨trivial, by simpa using hg⟩]
  simp only [List.length_map, List.length_range, Option.some.injEq, SV.mk.injEq, true_and]
  funext i
  by_cases h : i / e < k
  · simp [h]
  · simp [h]

theorem div_lt_iff {i e n : Nat} (he : 0 < e) : i / e < n ↔ i < e * n := by
  rw [Nat.div_lt_iff_lt_mul he, Nat.mul_comm]

theorem div_mul_mod (i e : Nat) : i / e * e + i % e = i := by
  rw [Nat.mul_comm]; exact Nat.div_add_mod i e

theorem okTy_vec {t : Ty} (h : Cls.okTy .vec t) : IsSz t.size := by
  cases t <;> simp_all [Cls.okTy, Ty.size]

theorem okTy_isVec {c : Cls} {f : Bool} {e n : Nat} (h : c.okTy (.vec f e n)) : c = .vec := by
  cases c <;> simp_all [Cls.okTy]

theorem bitCast_vec {v : SV} {f : Bool} {e n : Nat} (h : v.ty ≠ .ptr) (hs : v.ty.size = e * n) :
    bitCast v (.vec f e n) = some ⟨.vec f e n, v.bits⟩ := by
  rcases v with ⟨t, b⟩
  simp only at h hs
  by_cases ht : t = .vec f e n
  · subst ht; simp [bitCast]
  · have h2 : (Ty.vec f e n).size = e * n := rfl
    simp [bitCast, ht, h, hs, h2]

theorem foldVecStep_spec {R : Nat} {result : SV} {v : RVal} {f : Bool} {e n : Nat}
    (hr : result.ty = .vec f e n) (hok : Cls.okTy .vec result.ty) (hR : result.ty.size = R)
    (hz : ∀ i, R ≤ i → result.bits i = false)
    (hv : v.Wf .vec) (hle : v.size ≤ R) :
    ∃ r f' e' n', foldVecStep R result v = some r ∧ r.ty = .vec f' e' n' ∧ Cls.okTy .vec r.ty ∧
      r.ty.size = R ∧
      ∀ i, r.bits i = if i < v.size then v.a.bits i else result.bits i := by
  have hRs : IsSz R := hR ▸ okTy_vec hok
  rcases v with ⟨⟨t, b⟩, tb, sz, d⟩
  have hsz := hv.size
  have hok' := hv.ok
  have hvz := hv.zero
  simp only at hsz hok' hle hvz
  have hnp : result.ty ≠ .ptr := by rw [hr]; simp
  cases t with
  | ptr => simp [Cls.okTy] at hok'
  | int m =>
    simp only [Ty.size, Cls.okTy] at hsz hok'
    subst hsz
    have hdiv := isSz_mul_div hok' hRs hle
    simp only [foldVecStep, vecOf]
    rw [bitCast_vec hnp (by rw [hR, hdiv])]
    simp only [insertElem0, if_true]
    exact ⟨_, false, sz, R / sz, rfl, rfl, by simp [Cls.okTy, hok', hdiv, hRs], by simp [Ty.size, hdiv],
      fun i => rfl⟩
  | fp m =>
    simp only [Ty.size, Cls.okTy] at hsz hok'
    subst hsz
    have hdiv := isSz_mul_div hok' hRs hle
    simp only [foldVecStep, vecOf]
    rw [bitCast_vec hnp (by rw [hR, hdiv])]
    simp only [insertElem0, if_true]
    exact ⟨_, true, sz, R / sz, rfl, rfl, by simp [Cls.okTy, hok', hdiv, hRs], by simp [Ty.size, hdiv],
      fun i => rfl⟩
  | vec g m k =>
    simp only [Ty.size, Cls.okTy] at hsz hok'
    subst hsz
    have hm := isSz_pos hok'.1
    have hk0 : 0 < k := by
      rcases Nat.eq_zero_or_pos k with rfl | h
      · have := isSz_pos hok'.2; simp at this
      · exact h
    have hmR : m ≤ R := Nat.le_trans (Nat.le_mul_of_pos_right m hk0) hle
    have hdiv := isSz_mul_div hok'.1 hRs hmR
    have hkR : k ≤ R / m := by
      rw [Nat.le_div_iff_mul_le (by omega), Nat.mul_comm]; exact hle
    have hs1 := shuffle_map (a := ⟨.vec g m k, b⟩) (b := ⟨.vec g m k, fun _ => false⟩) rfl rfl
      (k := R / m) (g := fun j => if j < k then j else k) (by intro j _; split <;> omega)
    have hs2 := fun (ext res : SV) (h1 : ext.ty = .vec g m (R / m)) (h2 : res.ty = .vec g m (R / m)) =>
      shuffle_map h1 h2 (k := R / m) (g := fun j => j + (if j < k then 0 else R / m))
        (by intro j hj; split <;> omega)
    simp only [foldVecStep]
    rw [hs1]
    simp only
    rw [bitCast_vec hnp (by rw [hR, hdiv])]
    simp only
    rw [hs2 _ _ rfl rfl]
    refine ⟨_, g, m, R / m, rfl, rfl, by simp [Cls.okTy, hok'.1, hdiv, hRs], by simp [Ty.size, hdiv], ?_⟩
    · intro i
      have hdm := div_mul_mod i m
      by_cases h1 : i < m * k
      · have h2 : i / m < k := (div_lt_iff (by omega)).mpr h1
        have h3 : i / m < R / m := by omega
        simp only [h1, h2, h3, if_true, Nat.add_zero, hdm]
      · have h2 : ¬ i / m < k := fun h => h1 ((div_lt_iff (by omega)).mp h)
        by_cases h4 : i < R
        · have h3 : i / m < R / m := (div_lt_iff (by omega)).mpr (by rw [hdiv]; exact h4)
          have h5 : ¬ (i / m + R / m < R / m) := by omega
          simp only [h1, h2, h3, h5, if_true, if_false, Nat.add_sub_cancel, hdm]
        · have h3 : ¬ i / m < R / m := fun h => h4 (by rw [← hdiv]; exact (div_lt_iff (by omega)).mp h)
          simp only [h1, h3, if_false]
          exact (hz i (by omega)).symm

theorem foldVec_spec {flat : Bits} {R : Nat} : ∀ {vs : List RVal} {result : SV} {f : Bool} {e n : Nat},
    result.ty = .vec f e n → Cls.okTy .vec result.ty → result.ty.size = R →
    (∀ v ∈ vs, v.Wf .vec ∧ v.size ≤ R) → Agree flat vs →
    (∀ i, R ≤ i → result.bits i = false) →
    (∀ i, lowBound vs ≤ i → i < R → result.bits i = flat i) →
    ∃ r f' e' n', foldVec R result vs = some r ∧ r.ty = .vec f' e' n' ∧ Cls.okTy .vec r.ty ∧
      r.ty.size = R ∧ r.bits = low R flat
  | [], result, f, e, n, ht, hok, hR, _, _, hz, hb => by
    refine ⟨result, f, e, n, rfl, ht, hok, hR, ?_⟩
    funext i
    by_cases h : i < R
    · simp [low, h, hb i (by simp [lowBound]) h]
    · simp [low, h, hz i (by omega)]
  | v :: vs, result, f, e, n, ht, hok, hR, hw, ha, hz, hb => by
    have hwv := hw v (by simp)
    have hws : ∀ w ∈ vs, w.Wf .vec ∧ w.size ≤ R := fun w h => hw w (by simp [h])
    rw [foldVec]
    by_cases hd : v.dirty
    · simp only [hd, if_true]
      obtain ⟨r, f', e', n', h1, h2, h3, h4, h5⟩ := foldVecStep_spec ht hok hR hz hwv.1 hwv.2
      rw [h1]
      refine foldVec_spec h2 h3 h4 hws ha.2 ?_ ?_
      · intro i hi
        rw [h5, if_neg (by have := hwv.2; omega)]
        exact hz i hi
      · intro i hi hiR
        rw [h5]
        split
        · rename_i hlt; exact ha.1 i hi hlt
        · rename_i hlt
          exact hb i (by simp [lowBound, hd]; omega) hiR
    · simp only [hd]
      have h1 : lowBound (v :: vs) = lowBound vs := by simp [lowBound, hd]
      rw [h1] at hb
      exact foldVec_spec ht hok hR hws ha.2 hz hb

theorem foldVecExt_spec {flat : Bits} {fs : Nat} {result : SV} {f : Bool} {e n : Nat}
    (ht : result.ty = .vec f e n) (hok : Cls.okTy .vec result.ty) (hfs : IsSz fs)
    (hle : result.ty.size ≤ fs) (hb : result.bits = low result.ty.size flat) :
    ∃ r, foldVecExt fs result = some r ∧ Cls.okTy .vec r.ty ∧ r.ty.size = fs ∧
      r.bits = low result.ty.size flat := by
  rcases result with ⟨t, b⟩
  simp only at ht hok hle hb
  subst ht
  simp only [Ty.size] at hle hb
  simp only [Cls.okTy] at hok
  unfold foldVecExt
  simp only
  have he := isSz_pos hok.1
  have hn : 0 < n := by
    rcases Nat.eq_zero_or_pos n with rfl | h
    · have := isSz_pos hok.2; simp at this
    · exact h
  split
  · rename_i hlt
    have hefs : e ≤ fs := by have := Nat.le_mul_of_pos_right e hn; omega
    have hdiv := isSz_mul_div hok.1 hfs hefs
    rw [shuffle_map (f := f) (e := e) (n := n) rfl rfl (by intro j _; split <;> omega)]
    refine ⟨_, rfl, by simp [Cls.okTy, hok.1, hdiv, hfs], by simp [Ty.size, hdiv], ?_⟩
    funext i
    have hdm := div_mul_mod i e
    simp only [Ty.size]
    by_cases h1 : i < e * n
    · have h2 : i / e < n := (div_lt_iff (by omega)).mpr h1
      have h3 : i / e < fs / e := (div_lt_iff (by omega)).mpr (by omega)
      simp only [h2, h3, if_true, hdm, hb]
    · have h2 : ¬ i / e < n := fun h => h1 ((div_lt_iff (by omega)).mp h)
      simp [h2, low, h1]
  · rename_i hlt
    have : e * n = fs := by omega
    exact ⟨_, rfl, by simp [Cls.okTy, hok], by simp [Ty.size, this], by simp [hb, Ty.size]⟩

/-- A size a register of the class may be read with. -/
def Cls.okSize : Cls → Nat → Prop
  | .gp, n => IsSz n ∧ n ≤ 64
  | .vec, n => IsSz n
  | .fpr, n => IsSz n ∧ n ≤ 64
  | .flag, n => n = 1
  | .pf, n => n = 8

theorem okTy_okSize {c : Cls} {t : Ty} (h : c.okTy t) : c.okSize t.size := by
  cases c <;> cases t <;> simp_all [Cls.okTy, Cls.okSize, Ty.size, IsSz]

theorem okSize_native (c : Cls) : c.okSize c.native.size := okTy_okSize (okTy_native c)

theorem okSize_int {c : Cls} {n : Nat} (h : c.okSize n) : c.okTy (.int n) := by
  cases c <;> simpa [Cls.okTy, Cls.okSize] using h

theorem okSize_le {c : Cls} {n : Nat} (h : c.okSize n) : 0 < n ∧ n ≤ c.native.size := by
  have := okTy_size (okSize_int h); simpa [Ty.size] using this

/-- Folding produces the flat register's low bits. -/
theorem fold_spec {c : Cls} {uz : Bool} {vals : List RVal} {flat : Bits} {o : Option Bits} {full : Nat}
    (h : VInv c uz vals flat o) (hne : vals ≠ []) (hfull : c.okSize full)
    (hcov : uz = true ∨ full ≤ top vals) :
    ∃ v, fold full vals = some v ∧ v.Wf c ∧ v.dirty = true ∧
      v.size = max full (top vals) ∧ ∀ i, i < v.size → v.a.bits i = flat i := by
  match vals, hne with
  | v0 :: rest, _ =>
  have hw0 := h.wf v0 (by simp)
  have hstrict := h.strict v0 rest rfl
  have hag := h.agree
  obtain ⟨hfs, hfsle⟩ : ∃ fs, (if full < v0.size then v0.size else full) = fs := ⟨_, rfl⟩
  have hfsmax : hfs = max full v0.size := by rw [← hfsle]; split <;> omega
  have hv0s : c.okSize v0.size := by rw [hw0.size]; exact okTy_okSize hw0.ok
  have hfsok : c.okSize hfs := by rw [← hfsle]; split <;> assumption
  have hstart : ∀ i, lowBound rest ≤ i → low hfs v0.a.bits i = low hfs flat i := by
    intro i hi
    by_cases hlt : i < v0.size
    · simp [low, hag.1 i hi hlt]
    · have h1 := hw0.zero i (by omega)
      by_cases h2 : i < hfs
      · rcases hcov with huz | hcov
        · have := (h.upper huz).2 i (by simp [top]; omega)
          simp [low, h1, this]
        · simp [top] at hcov; omega
      · simp [low, h2]
  have hrest : ∀ v ∈ rest, v.Wf c ∧ v.a.ty ≠ .ptr ∧ v.size ≤ hfs := by
    intro v hv
    have hwv := h.wf v (by simp [hv])
    have hlt := hstrict v hv
    refine ⟨hwv, ?_, by omega⟩
    intro hp
    have h1 := hwv.size
    rw [hp] at h1
    simp only [Ty.size] at h1
    have h2 := okTy_size hw0.ok
    have h3 : c = .gp := by have := hwv.ok; rw [hp] at this; cases c <;> simp_all [Cls.okTy]
    subst h3
    have h4 := hw0.size
    simp only [Cls.native, Ty.size] at h2
    have h5 : v0.a.ty.size ≤ 64 := h2.2
    omega
  have hint : ∀ result : SV, result.ty = .int v0.size → result.bits = v0.a.bits →
      ∃ r, zextOrTrunc result hfs = some r ∧ foldInt hfs r.bits rest = some (low hfs flat) := by
    intro result ht hb
    refine ⟨⟨.int hfs, low hfs result.bits⟩, by simp [zextOrTrunc, ht], ?_⟩
    refine foldInt_spec hrest hag.2 ?_
    intro i hi
    rw [hb]; exact hstart i hi
  have hfin : RVal.Wf c (RVal.mk' ⟨.int hfs, low hfs flat⟩ hfs) :=
    ⟨okSize_int hfsok, by simp [RVal.mk', Ty.size], by intro i hi; simp [RVal.mk'] at hi ⊢; simp [low]; omega⟩
  unfold fold
  simp only [hfsle]
  cases ht : v0.a.ty with
  | int n =>
    have hsz : v0.size = n := by rw [hw0.size, ht]; rfl
    obtain ⟨r, h1, h2⟩ := hint v0.a (by rw [ht, hsz]) rfl
    simp only [ht, h1, h2]
    refine ⟨_, rfl, hfin, rfl, by simp [RVal.mk', top, hfsmax], ?_⟩
    intro i hi; simp only [RVal.mk'] at hi ⊢; simp [low, hi]
  | ptr =>
    have hsz : v0.size = 64 := by rw [hw0.size, ht]; rfl
    have hc : bitOrPtrCast v0.a (.int v0.size) = some ⟨.int v0.size, v0.a.bits⟩ := by
      unfold bitOrPtrCast; rw [ht]; simp [hsz]
    obtain ⟨r, h1, h2⟩ := hint ⟨.int v0.size, v0.a.bits⟩ rfl rfl
    simp only [hc, h1, h2]
    refine ⟨_, rfl, hfin, rfl, by simp [RVal.mk', top, hfsmax], ?_⟩
    intro i hi; simp only [RVal.mk'] at hi ⊢; simp [low, hi]
  | fp n =>
    have hsz : v0.size = n := by rw [hw0.size, ht]; rfl
    have hc : bitOrPtrCast v0.a (.int v0.size) = some ⟨.int v0.size, v0.a.bits⟩ := by
      unfold bitOrPtrCast; rw [ht]; simp [bitCast, ht, hsz, Ty.size]
    obtain ⟨r, h1, h2⟩ := hint ⟨.int v0.size, v0.a.bits⟩ rfl rfl
    simp only [hc, h1, h2]
    refine ⟨_, rfl, hfin, rfl, by simp [RVal.mk', top, hfsmax], ?_⟩
    intro i hi; simp only [RVal.mk'] at hi ⊢; simp [low, hi]
  | vec f e n =>
    have hc : c = .vec := okTy_isVec (ht ▸ hw0.ok)
    subst hc
    have hsz : v0.size = e * n := by rw [hw0.size, ht]; rfl
    simp only [ht]
    obtain ⟨r, f', e', n', h1, h2, h3, h4, h5⟩ := foldVec_spec (flat := flat) (R := e * n) ht hw0.ok
      (by rw [ht]; rfl)
      (vs := rest) (fun v hv => ⟨(hrest v hv).1, by have := hstrict v hv; omega⟩) hag.2
      (fun i hi => hw0.zero i (by omega)) (fun i hi hlt => hag.1 i hi (by omega))
    obtain ⟨r', h6, h7, h8, h9⟩ := foldVecExt_spec h2 h3 hfsok (by rw [h4]; omega) (by rw [h4]; exact h5)
    simp only [h1, h6]
    rw [h4] at h9
    refine ⟨_, rfl, ⟨h7, by simp [RVal.mk', h8], ?_⟩, rfl, by simp [RVal.mk', top, hfsmax], ?_⟩
    · intro i hi; simp only [RVal.mk'] at hi ⊢; rw [h9]; simp [low]; omega
    · intro i hi; simp only [RVal.mk'] at hi ⊢; rw [h9]
      by_cases hl : i < e * n
      · simp [low, hl]
      · rcases hcov with huz | hcov
        · have := (h.upper huz).2 i (by simp [top]; omega)
          simp [low, hl, this]
        · simp [top] at hcov; omega

/-! ### GetRegFold -/

/-- What `GetRegFold` guarantees about the value it returns. -/
def Found (full : Nat) (vals : List RVal) (idx : Nat) : Prop :=
  ∃ w, vals[idx]? = some w ∧ full ≤ w.size ∧
    ∀ v ∈ vals.drop (idx + 1), v.size < full ∧ v.dirty = false

theorem agree_single {flat : Bits} {v : RVal} (h : ∀ i, i < v.size → v.a.bits i = flat i) :
    Agree flat [v] := ⟨fun i _ hi => h i hi, trivial⟩

theorem finishFold_spec {c : Cls} {r : RState} {flat : Bits} {o : Option Bits} {full : Nat}
    (h : VInv c r.uz r.vals flat o) (hl : r.lazy = none) (hfull : c.okSize full)
    (hcov : r.uz = true ∨ full ≤ top r.vals) :
    ∃ r' idx, finishFold full r = some (r', idx) ∧ VInv c r'.uz r'.vals flat o ∧ r'.lazy = none ∧
      Found full r'.vals idx := by
  have hpos := (okSize_le hfull).1
  rcases r with ⟨uz, lz, vals⟩
  simp only at h hl hcov
  match vals with
  | [] =>
    rcases hcov with huz | hcov
    · obtain ⟨⟨v, vs, h1, _⟩, _⟩ := h.upper huz
      simp at h1
    · simp [top] at hcov; omega
  | v0 :: rest =>
    unfold finishFold
    simp only
    have h1 : (uz && !v0.dirty) = false := by
      cases huz : uz with
      | false => rfl
      | true =>
        obtain ⟨⟨v, vs, h1, h2⟩, _⟩ := h.upper huz
        simp only [List.cons.injEq] at h1
        rw [h1.1, h2]; rfl
    simp only [h1]
    have hfoldcase : ∃ r' idx,
        (match fold full (v0 :: rest) with
          | none => none
          | some v => some (({ uz := uz, lazy := lz, vals := [v] } : RState), 0)) = some (r', idx) ∧
        VInv c r'.uz r'.vals flat o ∧ r'.lazy = none ∧ Found full r'.vals idx := by
      obtain ⟨v, hf, hw, hd, hs, hb⟩ := fold_spec h (by simp) hfull hcov
      rw [hf]
      refine ⟨_, _, rfl, ⟨?_, ?_, agree_single hb, ?_, ?_, h.zero, ?_, ?_⟩, hl, ?_⟩
      · intro w hw'; simp at hw'; subst hw'; exact hw
      · exact ⟨by simp, trivial⟩
      · intro v' vs' hv' w hw'
        simp only [List.cons.injEq] at hv'
        rw [← hv'.2] at hw'; simp at hw'
      · intro v' vs' hv'
        simp only [List.cons.injEq] at hv'
        rw [← hv'.1]; exact Or.inl hd
      · intro huz
        refine ⟨⟨v, [], rfl, hd⟩, fun i hi => (h.upper huz).2 i ?_⟩
        simp only [top] at hi ⊢
        simp only [top] at hs
        omega
      · intro huz
        obtain ⟨g, hg, hi⟩ := h.inherited huz
        refine ⟨g, hg, fun i h' => hi i ?_⟩
        simp only [top] at h' ⊢
        simp only [top] at hs
        omega
      · exact ⟨v, rfl, by omega, by simp⟩
    simp only [Bool.false_eq_true, if_false]
    rw [scan]
    split
    · -- not folded
      rename_i j hj
      refine ⟨_, _, rfl, h, hl, ?_⟩
      by_cases hle : full ≤ v0.size
      · rw [if_pos hle] at hj
        exact scan_some (pre := [v0]) (start := 0) h.sorted (by simp) ⟨v0, rfl, hle⟩ hj
      · rw [if_neg hle] at hj
        -- only possible when the register is zero-extended; then v0 is dirty
        rcases hcov with huz | hcov
        · obtain ⟨⟨v, vs, h2, h3⟩, _⟩ := h.upper huz
          simp only [List.cons.injEq] at h2
          rw [h2.1, h3] at hj
          simp at hj
        · simp [top] at hcov; omega
    · exact hfoldcase

theorem sorted_append {xs ys : List RVal} (hx : Sorted xs) (hy : Sorted ys)
    (h : ∀ x ∈ xs, ∀ y ∈ ys, y.size ≤ x.size) : Sorted (xs ++ ys) := by
  induction xs with
  | nil => exact hy
  | cons x xs ih =>
    refine ⟨?_, ih hx.2 (fun a ha b hb => h a (by simp [ha]) b hb)⟩
    intro w hw
    rcases List.mem_append.mp hw with hw | hw
    · exact hx.1 w hw
    · exact h x (by simp) w hw

theorem sorted_takeWhile {p : RVal → Bool} {xs : List RVal} (hx : Sorted xs) :
    Sorted (xs.takeWhile p) := by
  induction xs with
  | nil => simp [Sorted]
  | cons x xs ih =>
    rw [List.takeWhile_cons]
    split
    · exact ⟨fun w hw => hx.1 w (List.takeWhile_prefix p |>.subset hw), ih hx.2⟩
    · simp [Sorted]

theorem lowBound_append {xs ys : List RVal} :
    lowBound (xs ++ ys) = if xs.any (·.dirty) then lowBound xs else lowBound ys := by
  induction xs with
  | nil => simp
  | cons x xs ih =>
    cases hd : x.dirty <;> simp [lowBound, hd, ih]

theorem lowBound_pos_dirty {xs : List RVal} (h : xs.any (·.dirty) = true) :
    ∃ v ∈ xs, v.dirty = true ∧ lowBound xs = v.size := by
  induction xs with
  | nil => simp at h
  | cons x xs ih =>
    cases hd : x.dirty with
    | true => exact ⟨x, by simp, hd, by simp [lowBound, hd]⟩
    | false =>
      obtain ⟨v, h1, h2, h3⟩ := ih (by simpa [hd] using h)
      exact ⟨v, by simp [h1], h2, by simp [lowBound, hd, h3]⟩

/-- Prepending outer values to own ones: the outer values agree with the outer content, own values
cover everything below the own top. -/
theorem agree_prepend {flat g : Bits} {own own' p q : List RVal} {vd : RVal}
    (hown : own = vd :: own') (hd : vd.dirty = true) (hag : Agree flat own)
    (hsz : ∀ v ∈ p, vd.size ≤ v.size)
    (hup : ∀ i, vd.size ≤ i → flat i = g i)
    (hq : ∀ v ∈ q, v.size < vd.size) (hpq : Agree g (p ++ q)) : Agree flat (p ++ own) := by
  induction p with
  | nil => simpa using hag
  | cons v p ih =>
    rw [List.cons_append] at hpq ⊢
    refine ⟨?_, ih (fun w hw => hsz w (by simp [hw])) hpq.2⟩
    intro i hi hiv
    have hlow : lowBound (p ++ own) = if p.any (·.dirty) then lowBound p else vd.size := by
      rw [lowBound_append, hown]; simp [lowBound, hd]
    have hge : vd.size ≤ lowBound (p ++ own) := by
      rw [hlow]
      split
      · rename_i h
        obtain ⟨w, h1, _, h3⟩ := lowBound_pos_dirty h
        rw [h3]; exact hsz w (by simp [h1])
      · exact Nat.le_refl _
    rw [hup i (by omega)]
    refine hpq.1 i ?_ hiv
    rw [lowBound_append]
    rw [hlow] at hi
    split
    · rename_i h; rw [if_pos h] at hi; exact hi
    · rename_i h; rw [if_neg h] at hi
      have := lowBound_le (vs := q) (n := vd.size) (fun w hw => Nat.le_of_lt (hq w hw))
      omega

theorem takeWhile_drop_lt {n : Nat} : ∀ {xs : List RVal}, Sorted xs →
    ∃ q, xs = xs.takeWhile (fun v => !decide (v.size < n)) ++ q ∧ ∀ v ∈ q, v.size < n
  | [], _ => ⟨[], rfl, by simp⟩
  | x :: xs, h => by
    by_cases hx : x.size < n
    · refine ⟨x :: xs, by simp [hx], ?_⟩
      intro v hv
      rcases List.mem_cons.mp hv with rfl | hv
      · exact hx
      · have := h.1 v hv; omega
    · obtain ⟨q, h1, h2⟩ := takeWhile_drop_lt (n := n) h.2
      refine ⟨q, ?_, h2⟩
      simp only [List.takeWhile_cons, hx, decide_false, Bool.not_false, if_true, List.cons_append]
      rw [← h1]

theorem mem_takeWhile {p : RVal → Bool} : ∀ {xs : List RVal} {v : RVal}, v ∈ xs.takeWhile p → p v = true
  | x :: xs, v, h => by
    rw [List.takeWhile_cons] at h
    split at h
    · rename_i hp
      rcases List.mem_cons.mp h with rfl | h
      · exact hp
      · exact mem_takeWhile h
    · simp at h

theorem outer_zero {c : Cls} {base : Base} : ∀ {rs : List RState} {fs : List Bits} {g : Bits},
    Inv c base rs fs → outer base fs = some g → ∀ i, c.native.size ≤ i → g i = false
  | [], [], g, h, ho => by
    cases base with
    | entry => simp [outer] at ho
    | phi b => simp only [outer, Option.some.injEq] at ho; subst ho; exact h b rfl
  | _ :: _, f :: _, g, h, ho => by
    simp only [outer, Option.some.injEq] at ho; subst ho; exact h.1.zero
  | [], _ :: _, _, h, _ => h.elim
  | _ :: _, [], _, h, _ => h.elim

/-- Inheriting the parent's values preserves the invariant. -/
theorem inherit_spec {c : Cls} {r p : RState} {flat g : Bits} {o : Option Bits}
    (h : VInv c r.uz r.vals flat (some g)) (huz : r.uz = false) (htop : top r.vals < c.native.size)
    (hp : VInv c p.uz p.vals g o) (hptop : top p.vals = c.native.size) :
    VInv c (inherit r p).uz (inherit r p).vals flat (some g) ∧ top (inherit r p).vals = c.native.size := by
  have hpos := native_pos c
  obtain ⟨g', hg', hinh⟩ := h.inherited huz
  simp only [Option.some.injEq] at hg'
  subst hg'
  have huzflat : p.uz = true → ∀ i, c.native.size ≤ i → flat i = false := fun _ => h.zero
  cases hv : r.vals with
  | nil =>
    have hflat : flat = g := by
      funext i; exact hinh i (by simp [hv, top])
    subst hflat
    simp only [inherit, hv]
    exact ⟨⟨hp.wf, hp.sorted, hp.agree, hp.strict, hp.first, hp.zero, hp.upper,
      fun _ => ⟨flat, rfl, fun _ _ => rfl⟩⟩, hptop⟩
  | cons vd own =>
    simp only [hv, top] at htop hinh
    have hd : vd.dirty = true := by
      rcases h.first vd own hv with h1 | h1
      · exact h1
      · omega
    obtain ⟨q, hq1, hq2⟩ := takeWhile_drop_lt (n := vd.size) hp.sorted
    obtain ⟨w, ws, hpv⟩ : ∃ w ws, p.vals = w :: ws := by
      cases h' : p.vals with
      | nil => simp [h', top] at hptop; omega
      | cons w ws => exact ⟨w, ws, rfl⟩
    have hws : w.size = c.native.size := by simpa [hpv, top] using hptop
    have hmem : ∀ v ∈ p.vals.takeWhile (fun v => !decide (v.size < vd.size)), v ∈ p.vals :=
      fun v hv => List.takeWhile_prefix _ |>.subset hv
    have hge : ∀ v ∈ p.vals.takeWhile (fun v => !decide (v.size < vd.size)), vd.size ≤ v.size := by
      intro v hv
      have := mem_takeWhile hv
      simpa using this
    have hhead : p.vals.takeWhile (fun v => !decide (v.size < vd.size)) =
        w :: ws.takeWhile (fun v => !decide (v.size < vd.size)) := by
      rw [hpv, List.takeWhile_cons]
      have : ¬ w.size < vd.size := by omega
      simp [this]
    have hsorted := h.sorted
    rw [hv] at hsorted
    have hvals : (inherit r p).vals =
        p.vals.takeWhile (fun v => !decide (v.size < vd.size)) ++ (vd :: own) := by
      simp [inherit, hv]
    have htop' : top (inherit r p).vals = c.native.size := by
      rw [hvals, hhead]; simp [top, hws]
    refine ⟨⟨?_, ?_, ?_, ?_, ?_, h.zero, ?_, ?_⟩, htop'⟩
    · intro v hv'
      rw [hvals] at hv'
      rcases List.mem_append.mp hv' with h1 | h1
      · exact hp.wf v (hmem v h1)
      · exact h.wf v (by rw [hv]; exact h1)
    · rw [hvals]
      refine sorted_append (sorted_takeWhile hp.sorted) hsorted ?_
      intro x hx y hy
      have h1 := hge x hx
      rcases List.mem_cons.mp hy with rfl | hy
      · exact h1
      · have := hsorted.1 y hy; omega
    · rw [hvals]
      refine agree_prepend rfl hd (hv ▸ h.agree) hge hinh hq2 ?_
      rw [← hq1]; exact hp.agree
    · intro v vs hvs x hx
      rw [hvals, hhead] at hvs
      simp only [List.cons_append, List.cons.injEq] at hvs
      rw [← hvs.1]
      rw [← hvs.2] at hx
      rcases List.mem_append.mp hx with h1 | h1
      · exact hp.strict w ws hpv x (List.takeWhile_prefix _ |>.subset h1)
      · rcases List.mem_cons.mp h1 with rfl | h1
        · omega
        · have := hsorted.1 x h1; omega
    · intro v vs hvs
      rw [hvals, hhead] at hvs
      simp only [List.cons_append, List.cons.injEq] at hvs
      rw [← hvs.1]; exact Or.inr hws
    · intro hu
      have hu : p.uz = true := hu
      obtain ⟨⟨v, vs, h1, h2⟩, _⟩ := hp.upper hu
      rw [hpv] at h1
      simp only [List.cons.injEq] at h1
      refine ⟨⟨w, _, by rw [hvals, hhead]; rfl, by rw [h1.1]; exact h2⟩, ?_⟩
      rw [htop']; exact h.zero
    · intro _
      refine ⟨g, rfl, fun i hi => hinh i ?_⟩
      rw [htop'] at hi; omega

theorem needsOuter_false {full : Nat} {r : RState} (h : needsOuter full r = false) :
    r.uz = true ∨ full ≤ top r.vals := by
  unfold needsOuter at h
  cases huz : r.uz with
  | true => exact Or.inl rfl
  | false =>
    right
    cases hv : r.vals with
    | nil => simp [huz, hv] at h
    | cons v vs => simp [huz, hv] at h; simpa [top] using h

theorem needsOuter_true {full : Nat} {r : RState} (h : needsOuter full r = true) (hpos : 0 < full) :
    r.uz = false ∧ top r.vals < full := by
  unfold needsOuter at h
  cases huz : r.uz with
  | true => simp [huz] at h
  | false =>
    refine ⟨rfl, ?_⟩
    cases hv : r.vals with
    | nil => simpa [top] using hpos
    | cons v vs => simp [huz, hv] at h; simpa [top] using h

theorem found_top {c : Cls} {uz : Bool} {vals : List RVal} {flat : Bits} {o : Option Bits} {idx : Nat}
    (h : VInv c uz vals flat o) (hf : Found c.native.size vals idx) : top vals = c.native.size := by
  obtain ⟨w, h1, h2, _⟩ := hf
  have hmem : w ∈ vals := List.mem_of_getElem? h1
  have hw := h.wf w hmem
  match vals, h1, hmem with
  | v :: vs, h1, hmem =>
    have hv := h.wf v (by simp)
    have h3 := (okTy_size hv.ok).2
    have h4 := hv.size
    have h5 : w.size ≤ v.size := by
      rcases List.mem_cons.mp hmem with rfl | hm
      · exact Nat.le_refl _
      · exact h.sorted.1 w hm
    simp only [top]
    omega

/-- `GetRegFold` never fails an assertion, keeps the invariant of the whole chain and finds a value
of the requested size that includes all pending writes. -/
theorem getFold_spec {c : Cls} {base : Base} : ∀ {rs : List RState} {fs : List Bits} {full : Nat},
    Inv c base rs fs → rs ≠ [] → c.okSize full →
    ∃ r' rs' idx, getFold c base rs full = some (r' :: rs', idx) ∧ Inv c base (r' :: rs') fs ∧
      r'.lazy = none ∧ Found full r'.vals idx
  | [], _, _, _, hne, _ => absurd rfl hne
  | r :: rest, [], _, h, _, _ => h.elim
  | r :: rest, f :: fs, full, h, _, hfull => by
    have hpos := (okSize_le hfull).1
    have hle := (okSize_le hfull).2
    have hcl := canon_lazy r
    unfold getFold
    simp only
    cases hn : needsOuter full r.canon with
    | false =>
      simp only [Bool.false_eq_true, if_false]
      obtain ⟨r', idx, h1, h2, h3, h4⟩ := finishFold_spec h.1 hcl hfull (needsOuter_false hn)
      rw [h1]
      refine ⟨r', rest, idx, rfl, ⟨?_, h.2⟩, h3, h4⟩
      rw [canon_of_lazy_none h3]; exact h2
    | true =>
      simp only [if_true]
      obtain ⟨huz, htop⟩ := needsOuter_true hn hpos
      obtain ⟨g, hg, hinh⟩ := h.1.inherited huz
      have hgz := outer_zero h.2 hg
      match rest, fs, h, hg with
      | [], [], h, hg =>
        match base, h, hg with
        | .entry, h, hg => simp [outer] at hg
        | .phi b, h, hg =>
          simp only [outer, Option.some.injEq] at hg
          subst hg
          simp only
          -- the PHI is like a parent holding just the native value
          have hphi : VInv c false [⟨⟨c.native, b⟩, none, c.native.size, false⟩] b (some b) := by
            refine ⟨?_, ⟨by simp, trivial⟩, agree_single (fun i _ => rfl), ?_, ?_, hgz, by simp, ?_⟩
            · intro v hv
              simp only [List.mem_singleton] at hv
              subst hv
              exact ⟨okTy_native c, rfl, hgz⟩
            · intro v vs hv w hw
              simp only [List.cons.injEq] at hv
              rw [← hv.2] at hw; simp at hw
            · intro v vs hv
              simp only [List.cons.injEq] at hv
              right; rw [← hv.1]
            · intro _; exact ⟨b, rfl, fun i _ => rfl⟩
          have hinv := inherit_spec (p := ⟨false, none, [⟨⟨c.native, b⟩, none, c.native.size, false⟩]⟩)
            h.1 huz (by omega) hphi rfl
          have heq : inherit r.canon ⟨false, none, [⟨⟨c.native, b⟩, none, c.native.size, false⟩]⟩ =
              { r.canon with vals := ⟨⟨c.native, b⟩, none, c.native.size, false⟩ :: r.canon.vals } := by
            unfold inherit
            cases hv : r.canon.vals with
            | nil => simp [huz]
            | cons v vs =>
              rw [hv] at htop
              simp only [top] at htop
              have : ¬ c.native.size < v.size := by omega
              simp [huz, this]
          rw [heq] at hinv
          obtain ⟨r', idx, h1, h2, h3, h4⟩ := finishFold_spec (full := full) hinv.1 hcl hfull
            (Or.inr (by rw [hinv.2]; exact hle))
          rw [h1]
          refine ⟨r', [], idx, rfl, ⟨?_, h.2⟩, h3, h4⟩
          rw [canon_of_lazy_none h3]; exact h2
      | [], _ :: _, h, _ => exact h.2.elim
      | _ :: _, [], h, _ => exact h.2.elim
      | p :: ps, f' :: fs', h, hg =>
        simp only
        obtain ⟨p', ps', idx', h1, h2, h3, h4⟩ :=
          getFold_spec (rs := p :: ps) (fs := f' :: fs') h.2 (by simp) (okSize_native c)
        rw [h1]
        simp only
        have hp' := h2.1
        rw [canon_of_lazy_none h3] at hp'
        simp only [outer, Option.some.injEq] at hg
        subst hg
        have hinv := inherit_spec (p := p') h.1 huz (by omega) hp' (found_top hp' h4)
        obtain ⟨r', idx, h5, h6, h7, h8⟩ := finishFold_spec (full := full) hinv.1 hcl hfull
          (Or.inr (by rw [hinv.2]; exact hle))
        rw [h5]
        refine ⟨r', p' :: ps', idx, rfl, ⟨?_, h2⟩, h7, h8⟩
        rw [canon_of_lazy_none h7]; exact h6

end Verif.RegFile
