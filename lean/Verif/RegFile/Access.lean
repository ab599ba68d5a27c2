import Verif.RegFile.Lemmas

/-!
Every register access preserves the invariant; reads return the flat register's bits.
-/

set_option linter.unusedSimpArgs false

namespace Verif.RegFile

/-! ### Conversions -/

theorem bitOrPtrCast_ok {c : Cls} {v : SV} {t : Ty} (hv : c.okTy v.ty) (ht : c.okTy t)
    (hs : v.ty.size = t.size) : bitOrPtrCast v t = some ⟨t, v.bits⟩ := by
  rcases v with ⟨vt, b⟩
  simp only at hv hs
  cases c <;> cases vt <;> cases t <;> simp only [Cls.okTy] at hv ht <;>
    simp only [Ty.size] at hs <;>
    simp only [bitOrPtrCast, bitCast, Ty.size, hs, reduceCtorEq, or_self, if_true, if_false,
      Ty.int.injEq, Ty.fp.injEq] <;>
    first
      | rfl
      | (split <;> simp_all)

theorem convScalar_spec {c : Cls} {v : RVal} {t : Ty} (hv : v.Wf c) (ht : c.okTy t)
    (htt : (∃ n, t = .int n) ∨ ∃ n, t = .fp n) (hlt : t.size < v.size) :
    convert.convScalar v t = some ⟨t, low t.size v.a.bits⟩ := by
  have hok := hv.ok
  have hsz := hv.size
  unfold convert.convScalar
  cases hvt : v.a.ty with
  | vec f e n =>
    have hc : c = .vec := okTy_isVec (hvt ▸ hok)
    subst hc
    rw [hvt] at hsz
    simp only [Ty.size] at hsz
    rw [hvt] at hok
    simp only [Cls.okTy] at hok
    have htz := okTy_vec ht
    have hp := isSz_pos htz
    have hdiv := isSz_mul_div htz hok.2 (by omega)
    have hne : ¬ (Ty.vec f e n).size / t.size = 1 := by
      rw [show (Ty.vec f e n).size = e * n from rfl]
      intro h
      rw [h] at hdiv
      omega
    have hdiv' : (Ty.vec f e n).size = t.size * ((Ty.vec f e n).size / t.size) := hdiv.symm
    simp only [Ty.isVec, if_true, hne, if_false]
    rcases htt with ⟨m, rfl⟩ | ⟨m, rfl⟩
    · simp only [vecOf]
      rw [bitCast_vec (by rw [hvt]; simp) (by rw [hvt]; exact hdiv')]
      simp [extractElem0, Ty.size]
    · simp only [vecOf]
      rw [bitCast_vec (by rw [hvt]; simp) (by rw [hvt]; exact hdiv')]
      simp [extractElem0, Ty.size]
  | int n =>
    have h1 : c.okTy (.int t.size) := okSize_int (okTy_okSize ht)
    simp only [Ty.isVec, Bool.false_eq_true, if_false, hlt, if_true, zextOrTrunc, hvt]
    exact bitOrPtrCast_ok (c := c) (v := ⟨.int t.size, low t.size v.a.bits⟩) h1 ht rfl
  | ptr =>
    have h1 : c.okTy (.int t.size) := okSize_int (okTy_okSize ht)
    have h2 : c.okTy (.int v.size) := by rw [hsz]; exact okSize_int (okTy_okSize hok)
    simp only [Ty.isVec, Bool.false_eq_true, if_false]
    rw [bitOrPtrCast_ok hok h2 (by rw [← hsz]; rfl)]
    simp only [hlt, if_true, zextOrTrunc]
    exact bitOrPtrCast_ok (c := c) (v := ⟨.int t.size, low t.size v.a.bits⟩) h1 ht rfl
  | fp n =>
    have h1 : c.okTy (.int t.size) := okSize_int (okTy_okSize ht)
    have h2 : c.okTy (.int v.size) := by rw [hsz]; exact okSize_int (okTy_okSize hok)
    simp only [Ty.isVec, Bool.false_eq_true, if_false]
    rw [bitOrPtrCast_ok hok h2 (by rw [← hsz]; rfl)]
    simp only [hlt, if_true, zextOrTrunc]
    exact bitOrPtrCast_ok (c := c) (v := ⟨.int t.size, low t.size v.a.bits⟩) h1 ht rfl

theorem convert_spec {c : Cls} {v : RVal} {t : Ty} (hv : v.Wf c) (ht : c.okTy t)
    (hlt : t.size < v.size) : convert v t = some ⟨t, low t.size v.a.bits⟩ := by
  have hok := hv.ok
  have hsz := hv.size
  have h1 := okTy_okSize hok
  have h2 := okTy_okSize ht
  rw [← hsz] at h1
  cases t with
  | ptr =>
    exfalso
    have : v.size ≤ 64 := by
      cases c <;> simp_all [Cls.okTy, Cls.okSize]
    simp [Ty.size] at hlt; omega
  | int n =>
    have hn : n ≠ 1 := by
      rintro rfl
      simp only [Ty.size] at h2 hlt
      cases c <;> simp [Cls.okSize, IsSz] at h1 h2
      omega
    simp only [convert, hn, if_false]
    exact convScalar_spec hv ht (Or.inl ⟨n, rfl⟩) hlt
  | fp n =>
    simp only [convert]
    exact convScalar_spec hv ht (Or.inr ⟨n, rfl⟩) hlt
  | vec f e n =>
    have hc : c = .vec := okTy_isVec ht
    subst hc
    have hnp : v.a.ty ≠ .ptr := by intro h; rw [h] at hok; simp [Cls.okTy] at hok
    simp only [Ty.size] at hlt ⊢
    simp only [Cls.okTy] at ht
    have he := isSz_pos ht.1
    have hn : 0 < n := by
      rcases Nat.eq_zero_or_pos n with rfl | h
      · have := isSz_pos ht.2; simp at this
      · exact h
    have hle : e ≤ v.a.ty.size := by have := Nat.le_mul_of_pos_right e hn; omega
    have hdiv := isSz_mul_div ht.1 (okTy_vec hok) hle
    have hcnt : n < v.a.ty.size / e := by
      have : e * n < e * (v.a.ty.size / e) := by omega
      exact Nat.lt_of_mul_lt_mul_left this
    simp only [convert, hnp, if_false]
    rw [bitCast_vec hnp hdiv.symm]
    simp only [hcnt, if_true]
    have hid : List.range n = (List.range n).map (fun j => j) := by simp
    rw [hid, shuffle_map (f := f) (e := e) (n := v.a.ty.size / e) rfl rfl (by intro j hj; omega)]
    simp only [Option.some.injEq, SV.mk.injEq, true_and]
    funext i
    have hdm := div_mul_mod i e
    by_cases h3 : i < e * n
    · have h4 : i / e < n := (div_lt_iff (by omega)).mpr h3
      have h5 : i / e < v.a.ty.size / e := by omega
      simp [h4, h5, hdm, low, h3]
    · have h4 : ¬ i / e < n := fun h => h3 ((div_lt_iff (by omega)).mp h)
      simp [h4, low, h3]

/-! ### Changing the cached values -/

theorem lowBound_insertIdx {n : RVal} (hn : n.dirty = false) : ∀ {vs : List RVal} {k : Nat},
    lowBound (vs.insertIdx k n) = lowBound vs
  | [], 0 => by simp [lowBound, hn]
  | [], _ + 1 => by simp
  | v :: vs, 0 => by simp [lowBound, hn]
  | v :: vs, k + 1 => by
    simp only [List.insertIdx_succ_cons, lowBound]
    rw [lowBound_insertIdx hn]

theorem agree_insertIdx {flat : Bits} {n : RVal} (hn : n.dirty = false)
    (hb : ∀ i, i < n.size → n.a.bits i = flat i) : ∀ {vs : List RVal} {k : Nat}, Agree flat vs →
    Agree flat (vs.insertIdx k n)
  | vs, 0, h => by simp only [List.insertIdx_zero]; exact ⟨fun i _ hi => hb i hi, h⟩
  | [], _ + 1, h => by simp [Agree]
  | v :: vs, k + 1, h => by
    simp only [List.insertIdx_succ_cons]
    refine ⟨?_, agree_insertIdx hn hb h.2⟩
    rw [lowBound_insertIdx hn]; exact h.1

theorem sorted_insertIdx {n : RVal} : ∀ {vs : List RVal} {k : Nat} {w : RVal}, Sorted vs →
    vs[k]? = some w → n.size ≤ w.size → (∀ v ∈ vs.drop (k + 1), v.size ≤ n.size) →
    Sorted (vs.insertIdx (k + 1) n)
  | [], _, _, _, h, _, _ => by simp at h
  | v :: vs, 0, w, hs, h, hle, hd => by
    simp only [List.getElem?_cons_zero, Option.some.injEq] at h
    subst h
    simp only [List.insertIdx_succ_cons, List.insertIdx_zero]
    refine ⟨?_, ?_, hs.2⟩
    · intro x hx
      rcases List.mem_cons.mp hx with rfl | hx
      · exact hle
      · exact hs.1 x hx
    · intro x hx; exact hd x (by simpa using hx)
  | v :: vs, k + 1, w, hs, h, hle, hd => by
    rw [List.insertIdx_succ_cons]
    have h' : vs[k]? = some w := by simpa using h
    refine ⟨?_, sorted_insertIdx hs.2 h' hle (by simpa using hd)⟩
    intro x hx
    have hk : k + 1 ≤ vs.length := by
      have := (List.getElem?_eq_some_iff.mp h').1; omega
    rw [List.mem_insertIdx hk] at hx
    rcases hx with rfl | hx
    · have := hs.1 w (List.mem_of_getElem? h'); omega
    · exact hs.1 x hx

theorem lowBound_set {n w : RVal} (hd : n.dirty = w.dirty) (hs : n.size = w.size) :
    ∀ {vs : List RVal} {k : Nat}, vs[k]? = some w → lowBound (vs.set k n) = lowBound vs
  | [], _, h => by simp at h
  | v :: vs, 0, h => by
    simp only [List.getElem?_cons_zero, Option.some.injEq] at h
    subst h
    simp [lowBound, hd, hs]
  | v :: vs, k + 1, h => by
    simp only [List.set_cons_succ, lowBound]
    rw [lowBound_set hd hs (by simpa using h)]

theorem agree_set {flat : Bits} {n w : RVal} (hd : n.dirty = w.dirty) (hs : n.size = w.size)
    (hb : n.a.bits = w.a.bits) : ∀ {vs : List RVal} {k : Nat}, vs[k]? = some w → Agree flat vs →
    Agree flat (vs.set k n)
  | [], _, h, _ => by simp at h
  | v :: vs, 0, h, ha => by
    simp only [List.getElem?_cons_zero, Option.some.injEq] at h
    subst h
    simp only [List.set_cons_zero]
    refine ⟨?_, ha.2⟩
    rw [hs, hb]; exact ha.1
  | v :: vs, k + 1, h, ha => by
    simp only [List.set_cons_succ]
    have h' : vs[k]? = some w := by simpa using h
    refine ⟨?_, agree_set hd hs hb h' ha.2⟩
    rw [lowBound_set hd hs h']; exact ha.1

theorem sorted_set {n w : RVal} (hs : n.size = w.size) : ∀ {vs : List RVal} {k : Nat},
    vs[k]? = some w → Sorted vs → Sorted (vs.set k n)
  | [], _, h, _ => by simp at h
  | v :: vs, 0, h, ha => by
    simp only [List.getElem?_cons_zero, Option.some.injEq] at h
    subst h
    simp only [List.set_cons_zero]
    refine ⟨?_, ha.2⟩
    rw [hs]; exact ha.1
  | v :: vs, k + 1, h, ha => by
    simp only [List.set_cons_succ]
    have h' : vs[k]? = some w := by simpa using h
    refine ⟨?_, sorted_set hs h' ha.2⟩
    intro x hx
    rcases List.mem_or_eq_of_mem_set hx with hx | rfl
    · exact ha.1 x hx
    · rw [hs]; exact ha.1 w (List.mem_of_getElem? h')

theorem vinv_set {c : Cls} {uz : Bool} {vals : List RVal} {flat : Bits} {o : Option Bits}
    {k : Nat} {n w : RVal} (h : VInv c uz vals flat o) (hk : vals[k]? = some w)
    (hd : n.dirty = w.dirty) (hs : n.size = w.size) (hb : n.a.bits = w.a.bits) (hn : n.Wf c) :
    VInv c uz (vals.set k n) flat o := by
  have htop : top (vals.set k n) = top vals := by
    match vals, k, hk with
    | v :: vs, 0, hk => simp at hk; subst hk; simp [top, hs]
    | v :: vs, k + 1, hk => simp [top]
  refine ⟨?_, sorted_set hs hk h.sorted, agree_set hd hs hb hk h.agree, ?_, ?_, h.zero, ?_, ?_⟩
  · intro v hv
    rcases List.mem_or_eq_of_mem_set hv with hv | rfl
    · exact h.wf v hv
    · exact hn
  · intro v vs hv x hx
    match vals, k, hk with
    | v' :: vs', 0, hk =>
      simp only [List.getElem?_cons_zero, Option.some.injEq] at hk
      subst hk
      simp only [List.set_cons_zero, List.cons.injEq] at hv
      rw [← hv.1, hs]
      exact h.strict v' vs' rfl x (hv.2 ▸ hx)
    | v' :: vs', k + 1, hk =>
      simp only [List.set_cons_succ, List.cons.injEq] at hv
      rw [← hv.1]
      rw [← hv.2] at hx
      have hk' : vs'[k]? = some w := by simpa using hk
      rcases List.mem_or_eq_of_mem_set hx with hx | rfl
      · exact h.strict v' vs' rfl x hx
      · rw [hs]; exact h.strict v' vs' rfl w (List.mem_of_getElem? hk')
  · intro v vs hv
    match vals, k, hk with
    | v' :: vs', 0, hk =>
      simp only [List.getElem?_cons_zero, Option.some.injEq] at hk
      subst hk
      simp only [List.set_cons_zero, List.cons.injEq] at hv
      rw [← hv.1, hs, hd]
      exact h.first v' vs' rfl
    | v' :: vs', k + 1, hk =>
      simp only [List.set_cons_succ, List.cons.injEq] at hv
      rw [← hv.1]; exact h.first v' vs' rfl
  · intro huz
    obtain ⟨⟨v, vs, h1, h2⟩, h3⟩ := h.upper huz
    refine ⟨?_, by rw [htop]; exact h3⟩
    subst h1
    match k, hk with
    | 0, hk =>
      simp only [List.getElem?_cons_zero, Option.some.injEq] at hk
      subst hk
      exact ⟨n, vs, rfl, by rw [hd]; exact h2⟩
    | k + 1, hk => exact ⟨v, vs.set k n, rfl, h2⟩
  · intro huz
    rw [htop]; exact h.inherited huz

theorem vinv_insert {c : Cls} {uz : Bool} {vals : List RVal} {flat : Bits} {o : Option Bits}
    {k : Nat} {n w : RVal} (h : VInv c uz vals flat o) (hk : vals[k]? = some w)
    (hd : n.dirty = false) (hlt : n.size < w.size) (hb : ∀ i, i < n.size → n.a.bits i = flat i)
    (hafter : ∀ v ∈ vals.drop (k + 1), v.size ≤ n.size) (hn : n.Wf c) :
    VInv c uz (vals.insertIdx (k + 1) n) flat o := by
  have hlen := (List.getElem?_eq_some_iff.mp hk).1
  match vals, hlen with
  | v0 :: vs, hlen =>
  simp only [List.length_cons] at hlen
  have hmem : w ∈ v0 :: vs := List.mem_of_getElem? hk
  have hw0 : w.size ≤ v0.size := by
    rcases List.mem_cons.mp hmem with rfl | hm
    · exact Nat.le_refl _
    · exact h.sorted.1 w hm
  have hins : (v0 :: vs).insertIdx (k + 1) n = v0 :: vs.insertIdx k n := by simp
  refine ⟨?_, sorted_insertIdx h.sorted hk (by omega) hafter, agree_insertIdx hd hb h.agree, ?_, ?_, h.zero, ?_, ?_⟩
  · intro v hv
    rw [List.mem_insertIdx (by simp; omega)] at hv
    rcases hv with rfl | hv
    · exact hn
    · exact h.wf v hv
  · intro v vs' hv x hx
    rw [hins] at hv
    simp only [List.cons.injEq] at hv
    rw [← hv.1]
    rw [← hv.2, List.mem_insertIdx (by omega)] at hx
    rcases hx with rfl | hx
    · omega
    · exact h.strict v0 vs rfl x hx
  · intro v vs' hv
    rw [hins] at hv
    simp only [List.cons.injEq] at hv
    rw [← hv.1]; exact h.first v0 vs rfl
  · intro huz
    obtain ⟨⟨v, vs', h1, h2⟩, h3⟩ := h.upper huz
    simp only [List.cons.injEq] at h1
    refine ⟨⟨v0, vs.insertIdx k n, hins, by rw [h1.1]; exact h2⟩, ?_⟩
    rw [hins]; exact h3
  · intro huz
    rw [hins]; exact h.inherited huz

/-! ### Pointer types -/

/-- No value is cached as a pointer. -/
def NoPtr (rs : List RState) : Prop := ∀ r ∈ rs, ∀ v ∈ r.canon.vals, v.a.ty ≠ .ptr

theorem shuffle_noPtr {a b r : SV} {m : List Nat} (h : shuffle a b m = some r) : r.ty ≠ .ptr := by
  unfold shuffle at h
  split at h
  · split at h
    · simp only [Option.some.injEq] at h
      subst h; simp
    · simp at h
  · simp at h

theorem foldVecExt_noPtr {fs : Nat} {a r : SV} (h : foldVecExt fs a = some r) : r.ty ≠ .ptr := by
  unfold foldVecExt at h
  split at h
  · rename_i heq
    simp only at h
    split at h
    · exact shuffle_noPtr h
    · simp only [Option.some.injEq] at h
      subst h
      rw [heq]; simp
  · simp at h

theorem fold_noPtr {full : Nat} {vals : List RVal} {v : RVal} (h : fold full vals = some v) :
    v.a.ty ≠ .ptr := by
  unfold fold at h
  split at h
  · simp at h
  · simp only at h
    split at h
    · simp at h
    · split at h
      · split at h
        · simp at h
        · split at h
          · simp at h
          · simp only [Option.some.injEq] at h
            subst h; simp [RVal.mk']
      · split at h
        · simp at h
        · split at h
          · simp at h
          · rename_i r hr
            simp only [Option.some.injEq] at h
            subst h
            simp only [RVal.mk']
            exact foldVecExt_noPtr hr
      · simp at h

theorem finishFold_noPtr {full : Nat} {r r' : RState} {i : Nat} (h : finishFold full r = some (r', i))
    (hn : ∀ v ∈ r.vals, v.a.ty ≠ .ptr) : ∀ v ∈ r'.vals, v.a.ty ≠ .ptr := by
  unfold finishFold at h
  split at h
  · split at h
    · simp only [Option.some.injEq, Prod.mk.injEq] at h
      rw [← h.1]; intro v hv; simp at hv; subst hv; simp [RVal.mk']
    · simp at h
  · split at h
    · simp at h
    · split at h
      · simp only [Option.some.injEq, Prod.mk.injEq] at h
        rw [← h.1]; exact hn
      · split at h
        · simp at h
        · rename_i w hw
          simp only [Option.some.injEq, Prod.mk.injEq] at h
          rw [← h.1]; intro v hv; simp at hv; subst hv; exact fold_noPtr hw

theorem finishFold_lazy {full : Nat} {r r' : RState} {i : Nat} (h : finishFold full r = some (r', i)) :
    r'.lazy = r.lazy := by
  unfold finishFold at h
  split at h
  · split at h
    · simp only [Option.some.injEq, Prod.mk.injEq] at h
      rw [← h.1]
    · simp at h
  · split at h
    · simp at h
    · split at h
      · simp only [Option.some.injEq, Prod.mk.injEq] at h
        rw [← h.1]
      · split at h
        · simp at h
        · simp only [Option.some.injEq, Prod.mk.injEq] at h
          rw [← h.1]

theorem native_noPtr (c : Cls) : c.native ≠ .ptr := by cases c <;> simp [Cls.native]

theorem getFold_noPtr {c : Cls} {base : Base} : ∀ {rs rs' : List RState} {full i : Nat},
    getFold c base rs full = some (rs', i) → NoPtr rs → NoPtr rs'
  | [], _, _, _, h, _ => by simp [getFold] at h
  | r :: rest, rs', full, i, h, hn => by
    have hr := hn r (by simp)
    have hrest : NoPtr rest := fun r' h' => hn r' (by simp [h'])
    have hcl := canon_lazy r
    unfold getFold at h
    simp only at h
    split at h
    · split at h
      · split at h
        · simp at h
        · split at h
          · simp at h
          · rename_i r2 i2 hf
            simp only [Option.some.injEq, Prod.mk.injEq] at h
            rw [← h.1]
            have h1 := finishFold_noPtr hf (by
              intro v hv
              rcases List.mem_cons.mp hv with rfl | hv
              · exact native_noPtr c
              · exact hr v hv)
            have h2 := finishFold_lazy hf
            intro r' hr' v hv
            simp only [List.mem_singleton] at hr'
            subst hr'
            rw [canon_of_lazy_none (by rw [h2]; exact hcl)] at hv
            exact h1 v hv
      · split at h
        · simp at h
        · rename_i rest2 _ hg
          have hp := getFold_noPtr hg hrest
          split at h
          · simp at h
          · rename_i p ps
            split at h
            · simp at h
            · rename_i r2 i2 hf
              simp only [Option.some.injEq, Prod.mk.injEq] at h
              rw [← h.1]
              -- the parent's values are canonical or unused
              have hpv : ∀ v ∈ p.vals, v.a.ty ≠ .ptr := by
                intro v hv
                have h3 := hp p (by simp)
                cases hl : p.lazy with
                | none => rw [canon_of_lazy_none hl] at h3; exact h3 v hv
                | some l =>
                  exfalso
                  exact absurd hl (by
                    have := getFold_lazy hg
                    rw [this]; simp)
              have h1 := finishFold_noPtr hf (by
                intro v hv
                unfold inherit at hv
                simp only at hv
                split at hv
                · exact hpv v hv
                · rcases List.mem_append.mp hv with hv | hv
                  · exact hpv v (List.takeWhile_prefix _ |>.subset hv)
                  · exact hr v hv)
              have h2 := finishFold_lazy hf
              intro r' hr' v hv
              rcases List.mem_cons.mp hr' with rfl | hr'
              · rw [canon_of_lazy_none (by rw [h2]; exact hcl)] at hv
                exact h1 v hv
              · exact hp r' hr' v hv
    · split at h
      · simp at h
      · rename_i r2 i2 hf
        simp only [Option.some.injEq, Prod.mk.injEq] at h
        rw [← h.1]
        have h1 := finishFold_noPtr hf hr
        have h2 := finishFold_lazy hf
        intro r' hr' v hv
        rcases List.mem_cons.mp hr' with rfl | hr'
        · rw [canon_of_lazy_none (by rw [h2]; exact hcl)] at hv
          exact h1 v hv
        · exact hrest r' hr' v hv
where
  getFold_lazy {c : Cls} {base : Base} {rs : List RState} {p : RState} {ps : List RState} {full i : Nat}
      (h : getFold c base rs full = some (p :: ps, i)) : p.lazy = none := by
    match rs, h with
    | [], h => simp [getFold] at h
    | r :: rest, h =>
      have hcl := canon_lazy r
      unfold getFold at h
      simp only at h
      split at h
      · split at h
        · split at h
          · simp at h
          · split at h
            · simp at h
            · rename_i r2 i2 hf
              simp only [Option.some.injEq, Prod.mk.injEq, List.cons.injEq] at h
              rw [← h.1.1, finishFold_lazy hf]; exact hcl
        · split at h
          · simp at h
          · split at h
            · simp at h
            · split at h
              · simp at h
              · rename_i r2 i2 hf
                simp only [Option.some.injEq, Prod.mk.injEq, List.cons.injEq] at h
                rw [← h.1.1, finishFold_lazy hf]; exact hcl
      · split at h
        · simp at h
        · rename_i r2 i2 hf
          simp only [Option.some.injEq, Prod.mk.injEq, List.cons.injEq] at h
          rw [← h.1.1, finishFold_lazy hf]; exact hcl

/-! ### Reads -/

/-- Facets a register of the class may be read as. -/
def Cls.okFacet : Cls → Facet → Prop
  | c, .ty t => c.okTy t
  | c, .i8h => c = .gp

theorem okFacet_size {c : Cls} {f : Facet} (h : c.okFacet f) : c.okSize f.readSize := by
  cases f with
  | ty t => exact okTy_okSize h
  | i8h => simp only [Cls.okFacet] at h; subst h; simp [Facet.readSize, Cls.okSize, IsSz]

/-- Type of the value a read returns. -/
def Facet.type : Facet → Ty
  | .ty t => t
  | .i8h => .int 8

theorem getReg_spec {c : Cls} {base : Base} {rs : List RState} {flat : Bits} {fs : List Bits}
    {f : Facet} {cache : Bool} (h : Inv c base rs (flat :: fs)) (hf : c.okFacet f)
    (h8 : f = .i8h → NoPtr rs) :
    ∃ rs' v, getReg c base rs f cache = some (rs', v) ∧ Inv c base rs' (flat :: fs) ∧
      v.bits = Spec.read flat f ∧ v.ty = f.type ∧
      (NoPtr rs → f ≠ .ty .ptr → NoPtr rs') := by
  have hne : rs ≠ [] := by rintro rfl; exact h.elim
  obtain ⟨r', rs', idx, h1, h2, h3, w, h4, h5, h6⟩ := getFold_spec h hne (okFacet_size hf)
  have hnp : NoPtr rs → NoPtr (r' :: rs') := getFold_noPtr h1
  have hv := h2.1
  rw [canon_of_lazy_none h3] at hv
  have hww := hv.wf w (List.mem_of_getElem? h4)
  have hbits := agree_getElem hv.agree h4 (fun v hv => (h6 v hv).2)
  have hlow : ∀ n, n ≤ w.size → low n w.a.bits = fun i => decide (i < n) && flat i := by
    intro n hn
    funext i
    by_cases hi : i < n
    · simp [low, hi, hbits i (by omega)]
    · simp [low, hi]
  unfold getReg
  rw [h1]
  simp only [h4]
  cases f with
  | i8h =>
    simp only [Cls.okFacet] at hf
    subst hf
    have hwp : w.a.ty ≠ .ptr := by
      have := hnp (h8 rfl) r' (by simp)
      rw [canon_of_lazy_none h3] at this
      exact this w (List.mem_of_getElem? h4)
    have hok := hww.ok
    have hsz := hww.size
    cases hty : w.a.ty with
    | int n =>
      rw [hty] at hsz
      simp only [Ty.size] at hsz
      simp only [Facet.readSize] at h5
      refine ⟨_, _, rfl, h2, ?_, rfl, fun hn _ => hnp hn⟩
      funext i
      simp only [low, Spec.read]
      by_cases hi : i < 8
      · have : i + 8 < n := by omega
        simp [hi, this, hbits (i + 8) (by omega)]
      · simp [hi]
    | ptr => exact absurd hty hwp
    | fp n => rw [hty] at hok; simp [Cls.okTy] at hok
    | vec _ _ _ => rw [hty] at hok; simp [Cls.okTy] at hok
  | ty t =>
    simp only [Cls.okFacet] at hf
    simp only [Facet.readSize] at h5
    have hwz := hww.zero
    by_cases hs : w.size = t.size
    · have hb : w.a.bits = Spec.read flat (.ty t) := by
        simp only [Spec.read]
        rw [← hlow t.size (by omega)]
        funext i
        by_cases hi : i < t.size
        · simp [low, hi]
        · simp [low, hi, hwz i (by omega)]
      simp only [hs, if_true]
      by_cases ht : w.a.ty = t
      · simp only [ht, if_true]
        exact ⟨_, _, rfl, h2, hb, ht, fun hn _ => hnp hn⟩
      · simp only [ht, if_false]
        by_cases htb : w.tyB = some t
        · simp only [htb, if_true]
          exact ⟨_, _, rfl, h2, hb, rfl, fun hn _ => hnp hn⟩
        · simp only [htb, if_false]
          rw [bitOrPtrCast_ok hww.ok hf (by rw [← hww.size, hs])]
          refine ⟨_, _, rfl, ⟨?_, h2.2⟩, hb, rfl, ?_⟩
          · rw [canon_of_lazy_none (by exact h3)]
            exact vinv_set hv h4 rfl hs.symm rfl ⟨hf, rfl, fun i hi => hwz i (by rw [hs]; exact hi)⟩
          · intro hn hpt r hr v hv'
            rcases List.mem_cons.mp hr with rfl | hr
            · rw [canon_of_lazy_none (by exact h3)] at hv'
              rcases List.mem_or_eq_of_mem_set hv' with hv' | rfl
              · have := hnp hn r' (by simp)
                rw [canon_of_lazy_none h3] at this
                exact this v hv'
              · simp only; intro h'; exact hpt (by rw [h'])
            · exact hnp hn r (by simp [hr]) v hv'
    · simp only [hs, if_false]
      rw [convert_spec hww hf (by omega)]
      have hb : low t.size w.a.bits = Spec.read flat (.ty t) := hlow t.size (by omega)
      simp only
      cases cache with
      | false =>
        simp only [Bool.false_eq_true, if_false]
        exact ⟨_, _, rfl, h2, hb, rfl, fun hn _ => hnp hn⟩
      | true =>
        have hassert : nextSmaller r'.vals[idx + 1]? t.size = true := by
          cases hx : r'.vals[idx + 1]? with
          | none => rfl
          | some x =>
            have : x ∈ r'.vals.drop (idx + 1) := by
              refine List.mem_of_getElem? (i := 0) ?_
              rw [List.getElem?_drop]; simpa using hx
            exact decide_eq_true (h6 x this).1
        rw [if_pos rfl, if_pos hassert]
        refine ⟨_, _, rfl, ⟨?_, h2.2⟩, hb, rfl, ?_⟩
        · rw [canon_of_lazy_none (by exact h3)]
          refine vinv_insert hv h4 rfl ?_ ?_ (fun v hv => Nat.le_of_lt (h6 v hv).1) ⟨hf, rfl, ?_⟩
          · show t.size < w.size; omega
          · intro i hi
            have hi : i < t.size := hi
            show low t.size w.a.bits i = flat i
            simp [low, hi, hbits i (by omega)]
          · intro i hi
            have hi : t.size ≤ i := hi
            show low t.size w.a.bits i = false
            simp [low]; omega
        · intro hn hpt r hr v hv'
          rcases List.mem_cons.mp hr with rfl | hr
          · rw [canon_of_lazy_none (by exact h3)] at hv'
            have hlen := (List.getElem?_eq_some_iff.mp h4).1
            rw [List.mem_insertIdx (by omega)] at hv'
            rcases hv' with rfl | hv'
            · simp only; intro h'; exact hpt (by rw [h'])
            · have := hnp hn r' (by simp)
              rw [canon_of_lazy_none h3] at this
              exact this v hv'
          · exact hnp hn r (by simp [hr]) v hv'

end Verif.RegFile
