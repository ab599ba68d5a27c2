import Verif.A64.SimdPerm

/-! Loads and stores of structures. -/

set_option linter.unusedSimpArgs false
set_option linter.constructorNameAsVariable false

namespace Verif.A64.Spec

open Verif.IR Verif.Bits
open Verif.X86 (trunc_some zext_some sext_some add_some sub_some mul_some and_some or_some xor_some
  not_some neg_some icmp_some extract0)

variable {slide : BitVec 64} {m : St} {s s' : S}

/-! ### Addresses -/

theorem Rel.simdAddr (h : Rel slide m s) (rn : Reg) (post : Post) :
    (simdAddr m rn post).1 = some (s.reg 64 rn) ∧ Rel slide (simdAddr m rn post).2 (s.postIndex rn post) := by
  cases post with
  | none => exact ⟨h.get 64 rn, h⟩
  | some p =>
    obtain ⟨rm, imm⟩ := p
    refine ⟨h.get 64 rn, ?_⟩
    simp only [A64.simdAddr, S.postIndex]
    rw [h.get 64 rn]
    by_cases e : rm = .zr
    · rw [if_pos e, if_pos e, add_some]; exact h.set rn _
    · rw [if_neg e, if_neg e, h.get 64 rm, add_some]; exact h.set rn _

theorem postIndex_vec (s : S) (rn : Reg) (post : Post) : (s.postIndex rn post).vec = s.vec := by
  cases post with
  | none => rfl
  | some p => exact setReg_vec ..

theorem postIndex_mem (s : S) (rn : Reg) (post : Post) : (s.postIndex rn post).mem = s.mem := by
  cases post with
  | none => rfl
  | some p => exact setReg_mem ..

/-! ### Lanes of memory -/

theorem read_split (μ : Mem) (a : BitVec 64) (e n i : Nat) (hi : i < n) :
    lane (8 * e) (μ.read a (e * n)) i = μ.read (a + BitVec.ofNat 64 (e * i)) e := by
  apply BitVec.eq_of_getLsbD_eq
  intro j hj
  have h1 : 8 * e * i + j < 8 * (e * n) := by
    have : e * (i + 1) ≤ e * n := Nat.mul_le_mul_left _ hi
    rw [Nat.mul_succ] at this
    rw [Nat.mul_assoc]; omega
  have h2 : (8 * e * i + j) / 8 = e * i + j / 8 := by rw [Nat.mul_assoc]; omega
  have h3 : (8 * e * i + j) % 8 = j % 8 := by rw [Nat.mul_assoc]; omega
  rw [lane, BitVec.getLsbD_extractLsb', Mem.getLsbD_read, Mem.getLsbD_read, h2, h3, BitVec.add_assoc,
    ← BitVec.ofNat_add]
  simp only [hj, h1, decide_true, Bool.true_and]

/-- A load of `n` elements of `e` bytes. -/
theorem read_ofLanes (μ : Mem) (a : BitVec 64) (e n v : Nat) (he : 0 < e) :
    (μ.read a (e * n)).setWidth v =
      (ofLanes (8 * e) n fun i => μ.read (a + BitVec.ofNat 64 (e * i)) e).setWidth v := by
  apply BitVec.eq_of_getLsbD_eq
  intro j hj
  rw [BitVec.getLsbD_setWidth, BitVec.getLsbD_setWidth]
  by_cases h : j < 8 * e * n
  · have hq : j / (8 * e) < n := by
      rw [Nat.div_lt_iff_lt_mul (by omega), Nat.mul_comm]; exact h
    have := congrArg (fun x => x.getLsbD (j % (8 * e))) (read_split μ a e n _ hq)
    simp only [lane, BitVec.getLsbD_extractLsb', Nat.mod_lt _ (show 0 < 8 * e by omega), decide_true, Bool.true_and,
      Nat.div_add_mod] at this
    rw [getLsbD_ofLanes _ _ _ _ (by omega), this]
    simp [h]
  · rw [BitVec.getLsbD_of_ge _ _ (by rw [← Nat.mul_assoc]; omega), BitVec.getLsbD_of_ge _ _ (by omega)]

theorem loadAt_eq (h : Rel slide m s) (a : BitVec 64) (n k : Nat) :
    loadAt m (some a) n k = some (some (s.mem.read (a + BitVec.ofNat 64 (n * k)) n)) := by
  simp only [loadAt, add_some, load, h.mem, Nat.mod_one, if_true, VMem.read_toV]

theorem mapM_some {α : Type} (f : Nat → Option α) (g : Nat → α) (l : List Nat) (h : ∀ k ∈ l, f k = some (g k)) :
    l.mapM f = some (l.map g) := by
  induction l with
  | nil => rfl
  | cons x l ih =>
    rw [List.mapM_cons, h x List.mem_cons_self, ih fun k hk => h k (List.mem_cons_of_mem _ hk)]
    rfl

theorem loadList_eq (h : Rel slide m s) (a : BitVec 64) (n k : Nat) :
    loadList m (some a) n k =
      some ((List.range k).map fun j => some (s.mem.read (a + BitVec.ofNat 64 (n * j)) n)) :=
  mapM_some _ _ _ fun j _ => loadAt_eq h a n j

/-! ### Writing a list of registers -/

theorem nth_sub (rt : Fin 32) (r : Fin 32) (k : Nat) (hk : k < 32) : r = nth rt k ↔ (r - rt).val = k := by
  have h1 := r.isLt
  have h2 := rt.isLt
  rw [Fin.ext_iff, Fin.sub_def]
  simp only [nth]
  omega

theorem setRegs_succ (rt : Fin 32) (k : Nat) (hk : k < 32) (f : Nat → BitVec 128) {w : Nat} (v : BitVec w)
    (hv : v.setWidth 128 = f k) : (s.setRegs rt k f).setVec (nth rt k) v = s.setRegs rt (k + 1) f := by
  unfold S.setRegs S.setVec
  congr 1
  funext r
  by_cases e : r = nth rt k
  · have := (nth_sub rt r k hk).1 e
    rw [if_pos e, ofNat_toNat, hv, if_pos (by omega), this]
  · have : (r - rt).val ≠ k := fun h => e ((nth_sub rt r k hk).2 h)
    rw [if_neg e]
    show (if (r - rt).val < k then f (r - rt).val else s.vec r) = _
    by_cases h2 : (r - rt).val < k
    · rw [if_pos h2, if_pos (by omega)]
    · rw [if_neg h2, if_neg (by omega)]

theorem setRegs_zero (rt : Fin 32) (f : Nat → BitVec 128) : s.setRegs rt 0 f = s := by
  simp [S.setRegs]

theorem setRegs_later (rt : Fin 32) (k j : Nat) (hkj : k ≤ j) (hj : j < 32) (f : Nat → BitVec 128) :
    (s.setRegs rt k f).vec (nth rt j) = s.vec (nth rt j) := by
  have : (nth rt j - rt).val = j := (nth_sub rt _ j hj).1 rfl
  simp only [S.setRegs, this]
  rw [if_neg (by omega)]

/-- Writing registers one after the other. -/
theorem foldl_regs (rt : Fin 32) (k : Nat) (f : Nat → BitVec 128) (step : St → Nat → St)
    (hm : Rel slide m s)
    (hstep : ∀ j m, j < k → Rel slide m (s.setRegs rt j f) → Rel slide (step m j) (s.setRegs rt (j + 1) f)) :
    Rel slide ((List.range k).foldl step m) (s.setRegs rt k f) := by
  have : ∀ j, j ≤ k → Rel slide ((List.range j).foldl step m) (s.setRegs rt j f) := by
    intro j hj
    induction j with
    | zero => rw [setRegs_zero]; exact hm
    | succ j ih =>
      rw [List.range_succ, List.foldl_append]
      exact hstep j _ (by omega) (ih (by omega))
  exact this k (Nat.le_refl _)

theorem setRegs_lanes (h : Rel slide m (s.setRegs rt j f)) (hj : j < 32) {w n : Nat} {v : Vec w} {g : Nat → BitVec w}
    (hv : ∀ i, i < n → v i = some (g i)) (hf : f j = (ofLanes w n g).setWidth 128) :
    Rel slide (m.setVec (vreg rt j) n v) (s.setRegs rt (j + 1) f) := by
  rw [nth_eq, ← setRegs_succ rt j hj f (ofLanes w n g) hf.symm]
  exact h.setVec (nth rt j) hv

theorem foldlM_some {σ : Type} (P : Nat → σ → Prop) (step : σ → Nat → Option σ) (k : Nat) (x : σ) (h0 : P 0 x)
    (hs : ∀ j x, j < k → P j x → ∃ y, step x j = some y ∧ P (j + 1) y) :
    ∃ y, (List.range k).foldlM step x = some y ∧ P k y := by
  have : ∀ j, j ≤ k → ∃ y, (List.range j).foldlM step x = some y ∧ P j y := by
    intro j hj
    induction j with
    | zero => exact ⟨x, rfl, h0⟩
    | succ j ih =>
      obtain ⟨y, h1, h2⟩ := ih (by omega)
      obtain ⟨z, h3, h4⟩ := hs j y (by omega) h2
      refine ⟨z, ?_, h4⟩
      rw [List.range_succ, List.foldlM_append, h1]
      show ((List.foldlM step y [j] : Option σ)) = some z
      rw [List.foldlM_cons, h3]
      rfl
  exact this k (Nat.le_refl _)

theorem regsOk_le {k : Nat} (h : ¬ (rn = Reg.zr ∨ regsOk k = false)) : 1 ≤ k ∧ k ≤ 4 := by
  have : regsOk k = true := by
    cases e : regsOk k
    · exact absurd (Or.inr e) h
    · rfl
  simpa [regsOk] using this

theorem VA.e_pos (va : VA) : 0 < va.e := by cases va <;> decide
theorem VA.n_pos (va : VA) : 0 < va.n := by cases va <;> decide
theorem VA.bytes_le (va : VA) : va.bytes ≤ 16 := by cases va <;> decide

theorem arr_add (s : S) (a : BitVec 64) (e n j i : Nat) :
    s.mem.read (a + BitVec.ofNat 64 (e * n * j) + BitVec.ofNat 64 (e * i)) e = s.arr a e (n * j + i) := by
  rw [S.arr, BitVec.add_assoc, ← BitVec.ofNat_add, Nat.mul_assoc, ← Nat.mul_add]

/-! ### Loads -/

theorem sim_ld1 (h : Rel slide m s) {nreg : Nat} {va : VA} {rt : Fin 32} {rn : Reg} {post : Post}
    (hs : s.simd (.ld1 nreg va rt rn post) = some s') : SimTo slide m (.ld1 nreg va rt rn post) s' := by
  simp only [S.simd] at hs
  split at hs
  · cases hs
  next hi =>
    cases hs
    have hk := regsOk_le hi
    obtain ⟨ha, hr⟩ := h.simdAddr rn post
    unfold SimTo
    simp only [Simd.lift, liftLd1]
    rw [ha]
    refine foldlM_some (fun k m => Rel slide m ((s.postIndex rn post).setRegs rt k _)) _ nreg _ ?_ ?_
    · rw [setRegs_zero]; exact hr
    · intro j m1 hj h1
      refine ⟨_, by rw [loadAt_eq h1, Option.map_some], ?_⟩
      have := h1.setV (vreg rt j) ((S.setRegs (s.postIndex rn post) rt j
        (fun j => (ofLanes va.w va.n fun i => s.arr (s.reg 64 rn) va.e (va.n * j + i)).setWidth 128)).mem.read
        (s.reg 64 rn + BitVec.ofNat 64 (va.bytes * j)) va.bytes)
      rw [nth_eq, setRegs_succ] at this
      · rw [nth_eq]; exact this
      · omega
      · show ((s.postIndex rn post).mem.read _ _).setWidth 128 = _
        rw [postIndex_mem, read_ofLanes _ _ _ _ _ (VA.e_pos va)]
        congr 1
        exact ofLanes_congr fun i _ => arr_add s _ _ _ _ _

theorem concat_arr {w n : Nat} {a b : Vec w} {g : Nat → BitVec w}
    (ha : ∀ i, i < n → a i = some (g i)) (hb : ∀ i, i < n → b i = some (g (n + i))) :
    ∀ p, p < 2 * n → concat n a b p = some (g p) := by
  intro p hp
  rw [concat_eq hp]
  split
  next hl => exact ha p hl
  · rw [hb _ (by omega), show n + (p - n) = p by omega]

/-- Deinterleaving: `v 0`, `v 1`, … hold consecutive elements. -/
theorem deint_eq (va : VA) (k : Nat) (hk : k = 2 ∨ k = 3 ∨ k = 4) (v : Nat → Vec va.w) (g : Nat → BitVec va.w)
    (hv : ∀ q i, q < k → i < va.n → v q i = some (g (va.n * q + i))) (j i : Nat) (hj : j < k) (hi : i < va.n) :
    deint va k v j i = some (g (k * i + j)) := by
  have h0 : ∀ i, i < va.n → v 0 i = some (g i) := fun i hi => by
    rw [hv 0 i (by omega) hi, Nat.mul_zero, Nat.zero_add]
  have h1 : ∀ i, i < va.n → v 1 i = some (g (va.n + i)) := fun i hi => by
    rw [hv 1 i (by omega) hi, Nat.mul_one]
  have h01 := concat_arr h0 h1
  rcases hk with rfl | rfl | rfl
  · show Vec.shuffle va.n (v 0) (v 1) (linear va.n 2 j) i = _
    rw [Vec.shuffle_eq (linear_get _ 2 j i hi)]
    split
    next hl => exact h0 _ hl
    · rw [h1 _ (by omega), show va.n + (2 * i + j - va.n) = 2 * i + j by omega]
      rw [if_pos (by omega)]
  · show Vec.shuffle (4 * va.n) (concat (2 * va.n) (concat va.n (v 0) (v 1)) (concat va.n (v 2) Vec.zero))
      Vec.zero (linear va.n 3 j) i = _
    rw [Vec.shuffle_eq (linear_get _ 3 j i hi), if_pos (by omega), concat_eq (by omega)]
    split
    next hl => exact h01 _ hl
    · rw [concat_eq (by omega), if_pos (by omega), hv 2 _ (by omega) (by omega)]
      congr 2; omega
  · show Vec.shuffle (4 * va.n) (concat (2 * va.n) (concat va.n (v 0) (v 1)) (concat va.n (v 2) (v 3)))
      Vec.zero (linear va.n 4 j) i = _
    rw [Vec.shuffle_eq (linear_get _ 4 j i hi), if_pos (by omega), concat_eq (by omega)]
    split
    next hl => exact h01 _ hl
    · rw [concat_eq (by omega)]
      split
      · rw [hv 2 _ (by omega) (by omega)]
        congr 2; omega
      · rw [hv 3 _ (by omega) (by omega)]
        congr 2; omega

theorem getD_range {α : Type} (f : Nat → α) (k j : Nat) (d : α) (hj : j < k) : ((List.range k).map f).getD j d = f j := by
  rw [List.getD_eq_getElem?_getD]
  simp [List.getElem?_range hj]

theorem sim_ldN (h : Rel slide m s) {k : Nat} {va : VA} {rt : Fin 32} {rn : Reg} {post : Post}
    (hs : s.simd (.ldN k va rt rn post) = some s') : SimTo slide m (.ldN k va rt rn post) s' := by
  simp only [S.simd] at hs
  split at hs
  · cases hs
  next hi =>
    cases hs
    have hk := regsOk_le (rn := rn) (k := k) fun e => hi (by rcases e with e | e; exact Or.inl e; exact Or.inr (Or.inl e))
    have hk1 : k ≠ 1 := fun e => hi (Or.inr (Or.inr (Or.inl e)))
    have hk2 : k = 2 ∨ k = 3 ∨ k = 4 := by omega
    obtain ⟨ha, hr⟩ := h.simdAddr rn post
    refine ⟨_, by rw [Simd.lift, liftLdN, if_pos hk2]; simp only; rw [ha, loadList_eq hr, Option.map_some], ?_⟩
    refine foldl_regs rt k _ _ hr fun j m1 hj h1 => ?_
    refine setRegs_lanes h1 (by omega) (fun i hi => ?_) rfl
    refine deint_eq va k hk2 _ (fun p => s.arr (s.reg 64 rn) va.e p) ?_ j i hj hi
    intro q i hq hi
    rw [getD_range _ _ _ _ hq, Vec.ofBits_some, postIndex_mem]
    rw [read_split _ _ _ _ _ hi, arr_add]

theorem sim_ldSingle (h : Rel slide m s) {k : Nat} {va : VA} {rt : Fin 32} {idx : Nat} {rn : Reg} {post : Post}
    (hs : s.simd (.ldSingle k va rt idx rn post) = some s') : SimTo slide m (.ldSingle k va rt idx rn post) s' := by
  simp only [S.simd] at hs
  split at hs
  · cases hs
  next hi =>
    cases hs
    have hk := regsOk_le (rn := rn) (k := k) fun e => hi (by rcases e with e | e; exact Or.inl e; exact Or.inr (Or.inl e))
    have hidx : idx < 128 / va.w := Nat.lt_of_not_le fun e => hi (Or.inr (Or.inr e))
    obtain ⟨ha, hr⟩ := h.simdAddr rn post
    refine ⟨_, by rw [Simd.lift, liftLdSingle, ha, loadList_eq hr, Option.map_some], ?_⟩
    refine foldl_regs rt k _ _ hr fun j m1 hj h1 => ?_
    rw [getD_range _ _ _ _ hj]
    have := h1.insElem (vreg rt j) va hidx (s.mem.read (s.reg 64 rn + BitVec.ofNat 64 (va.e * j)) va.e)
    unfold S.setEl S.setEls at this
    rw [nth_eq, setRegs_succ] at this
    · rw [nth_eq, postIndex_mem]; exact this
    · omega
    · congr 1
      refine ofLanes_congr fun i _ => ?_
      split
      · rfl
      · rw [S.el, setRegs_later _ _ _ (Nat.le_refl _) (by omega), postIndex_vec]; rfl

theorem sim_ldR (h : Rel slide m s) {k : Nat} {va : VA} {rt : Fin 32} {rn : Reg} {post : Post}
    (hs : s.simd (.ldR k va rt rn post) = some s') : SimTo slide m (.ldR k va rt rn post) s' := by
  simp only [S.simd] at hs
  split at hs
  · cases hs
  next hi =>
    cases hs
    have hk := regsOk_le hi
    obtain ⟨ha, hr⟩ := h.simdAddr rn post
    refine ⟨_, by rw [Simd.lift, liftLdR, ha, loadList_eq hr, Option.map_some], ?_⟩
    refine foldl_regs rt k _ _ hr fun j m1 hj h1 => ?_
    refine setRegs_lanes h1 (by omega) (fun i hi => ?_) rfl
    rw [Vec.splat, getD_range _ _ _ _ hj, postIndex_mem]
    rfl

/-! ### Stores -/

/-- Byte `o` of a value of `n` bytes. -/
def byteOf {v : Nat} (x : BitVec v) (o : Nat) : BitVec 8 := x.extractLsb' (8 * o) 8

theorem byte_el (s : S) (r : Fin 32) (e i b : Nat) (hb : b < e) : byteOf (s.el r (8 * e) i) b = s.byte r e i b := by
  apply BitVec.eq_of_getLsbD_eq
  intro j hj
  simp only [byteOf, S.el, S.byte, BitVec.getLsbD_extractLsb', hj, show 8 * b + j < 8 * e by omega, decide_true,
    Bool.true_and]
  congr 1
  rw [Nat.mul_add, Nat.mul_assoc]; omega

theorem byte_lanes (e n v : Nat) (f : Nat → BitVec (8 * e)) (o : Nat) (he : 0 < e) (ho : o < e * n) (hv : e * n ≤ v) :
    byteOf ((ofLanes (8 * e) n f).setWidth (8 * v)) o = byteOf (f (o / e)) (o % e) := by
  apply BitVec.eq_of_getLsbD_eq
  intro j hj
  have hlt : 8 * o + j < 8 * e * n := by rw [Nat.mul_assoc]; omega
  have hv2 : 8 * o + j < 8 * v := by omega
  have hq : (8 * o + j) / (8 * e) = o / e := by
    rw [← Nat.div_div_eq_div_mul]; congr 1; omega
  have hr : (8 * o + j) % (8 * e) = 8 * (o % e) + j := by
    rw [Nat.mod_mul, show (8 * o + j) % 8 = j by omega, show (8 * o + j) / 8 = o by omega]; omega
  simp only [byteOf, BitVec.getLsbD_extractLsb', BitVec.getLsbD_setWidth, hj, decide_true, Bool.true_and, hv2]
  rw [getLsbD_ofLanes _ _ _ _ (by omega), hq, hr]
  simp only [hlt, decide_true, Bool.true_and]

theorem setBytes_zero (a : BitVec 64) (f : Nat → BitVec 8) : s.setBytes a 0 f = s := by
  simp [S.setBytes]

/-- Writing `n` bytes after the first `k`. -/
theorem setBytes_add (a : BitVec 64) (k n : Nat) (hkn : k + n < 2 ^ 64) (f : Nat → BitVec 8) (v : BitVec (8 * n))
    (hv : ∀ o, o < n → byteOf v o = f (k + o)) :
    { s.setBytes a k f with mem := (s.setBytes a k f).mem.write (a + BitVec.ofNat 64 k) n v } =
      s.setBytes a (k + n) f := by
  unfold S.setBytes
  simp only
  congr 1
  funext x
  simp only [Mem.write]
  have hd : x - (a + BitVec.ofNat 64 k) = x - a - BitVec.ofNat 64 k := by
    rw [BitVec.sub_eq_add_neg, BitVec.neg_add, BitVec.sub_eq_add_neg, BitVec.sub_eq_add_neg, BitVec.sub_eq_add_neg,
      BitVec.add_assoc]
  rw [hd]
  generalize x - a = d
  have hdl := d.isLt
  have hsub : (d - BitVec.ofNat 64 k).toNat = if k ≤ d.toNat then d.toNat - k else d.toNat + 2 ^ 64 - k := by
    rw [BitVec.toNat_sub, BitVec.toNat_ofNat, Nat.mod_eq_of_lt (show k < 2 ^ 64 by omega)]
    split <;> omega
  rw [hsub]
  by_cases h1 : k ≤ d.toNat
  · simp only [h1, if_true]
    by_cases h2 : d.toNat - k < n
    · rw [if_pos h2, if_pos (by omega)]
      have := hv _ h2
      rw [byteOf, show k + (d.toNat - k) = d.toNat by omega] at this
      exact this
    · rw [if_neg h2, if_neg (by omega), if_neg (by omega)]
  · simp only [h1, if_false]
    rw [if_neg (by omega), if_pos (by omega), if_pos (by omega)]

theorem Rel.setMem (h : Rel slide m s) {μ : VMem} {ν : Mem} (e : μ = ν.toV) :
    Rel slide { m with mem := μ } { s with mem := ν } :=
  ⟨h.gp, h.sp, h.vec, h.tpidr, e, h.pc, h.fl⟩

theorem Rel.store (h : Rel slide m s) (a : BitVec 64) (n : Nat) (v : BitVec (8 * n)) :
    ∃ m', A64.store m (some a) n 1 (some v) = some m' ∧ Rel slide m' { s with mem := s.mem.write a n v } := by
  refine ⟨{ m with mem := m.mem.write a n (some v) }, by rw [A64.store]; simp only [Nat.mod_one, if_true], ?_⟩
  exact h.setMem (by rw [h.mem, VMem.write_toV])

theorem Rel.storeAt (h : Rel slide m (s.setBytes a (n * k) f)) (v : BitVec (8 * n)) (hb : n * k + n < 2 ^ 64)
    (hv : ∀ o, o < n → byteOf v o = f (n * k + o)) :
    ∃ m', storeAt m (some a) n k (some v) = some m' ∧ Rel slide m' (s.setBytes a (n * k + n) f) := by
  obtain ⟨m', h1, h2⟩ := h.store (a + BitVec.ofNat 64 (n * k)) n v
  refine ⟨m', by rw [A64.storeAt, add_some]; exact h1, ?_⟩
  rw [setBytes_add a (n * k) n hb f v hv] at h2
  exact h2

theorem el_setBytes (s : S) (a : BitVec 64) (n : Nat) (f : Nat → BitVec 8) (r : Fin 32) (w i : Nat) :
    (s.setBytes a n f).el r w i = s.el r w i := rfl

theorem el_postIndex (s : S) (rn : Reg) (post : Post) (r : Fin 32) (w i : Nat) :
    (s.postIndex rn post).el r w i = s.el r w i := by
  rw [S.el, postIndex_vec]; rfl

/-- The value of a vector of elements of registers, as it is stored. -/
theorem vec_bytes (va : VA) {n : Nat} {v : Vec va.w} {R : Nat → Fin 32} {I : Nat → Nat} (b : Nat)
    (hb : b = va.e * n) (hv : ∀ i, i < n → v i = some (s.el (R i) va.w (I i))) :
    ∃ x : BitVec (8 * b), bitcast (8 * b) (Vec.toBits n v) = some x ∧
      ∀ o, o < b → byteOf x o = s.byte (R (o / va.e)) va.e (I (o / va.e)) (o % va.e) := by
  refine ⟨_, by rw [Vec.toBits_eq hv]; rfl, fun o ho => ?_⟩
  rw [byte_lanes _ _ _ _ _ (VA.e_pos va) (by omega) (by omega), byte_el _ _ _ _ _ (Nat.mod_lt _ (VA.e_pos va))]

theorem sim_st1 (h : Rel slide m s) {nreg : Nat} {va : VA} {rt : Fin 32} {rn : Reg} {post : Post}
    (hs : s.simd (.st1 nreg va rt rn post) = some s') : SimTo slide m (.st1 nreg va rt rn post) s' := by
  simp only [S.simd] at hs
  split at hs
  · cases hs
  next hi =>
    cases hs
    have hk := regsOk_le hi
    obtain ⟨ha, hr⟩ := h.simdAddr rn post
    unfold SimTo
    simp only [Simd.lift, liftSt1]
    rw [if_pos hk, ha]
    refine foldlM_some (fun k m => Rel slide m ((s.postIndex rn post).setBytes (s.reg 64 rn) (va.e * va.n * k) _))
      _ nreg _ ?_ ?_
    · rw [Nat.mul_zero, setBytes_zero]; exact hr
    · intro j m1 hj h1
      obtain ⟨x, hx, hb⟩ := vec_bytes (s := s) va (n := va.n) (v := m1.getVec va (vreg rt j)) (R := fun _ => nth rt j)
        (I := fun i => i) va.bytes rfl fun i hi => by
          rw [h1.getVec va _ hi, el_setBytes, el_postIndex, nth_eq]
      rw [hx, Nat.mul_succ]
      have hbl := VA.bytes_le va
      have hm : va.bytes * j ≤ va.bytes * 4 := Nat.mul_le_mul_left _ (by omega)
      refine h1.storeAt x ?_ ?_
      · show va.bytes * j + va.bytes < _
        omega
      · intro o ho
        rw [hb o ho]
        have he := VA.e_pos va
        have e0 : va.e * va.n * j + o = o + va.e * (va.n * j) := by rw [Nat.mul_assoc]; omega
        have e1 : (va.e * va.n * j + o) / va.e = va.n * j + o / va.e := by
          rw [e0, Nat.add_mul_div_left _ _ he]; omega
        have e2 : (va.e * va.n * j + o) % va.e = o % va.e := by rw [e0, Nat.add_mul_mod_self_left]
        have h3 : o / va.e < va.n := by rw [Nat.div_lt_iff_lt_mul he, Nat.mul_comm]; exact ho
        rw [e1, e2, Nat.mul_add_div (VA.n_pos va), Nat.div_eq_of_lt h3, Nat.mul_add_mod, Nat.mod_eq_of_lt h3, Nat.add_zero]

theorem sim_stSingle (h : Rel slide m s) {k : Nat} {va : VA} {rt : Fin 32} {idx : Nat} {rn : Reg} {post : Post}
    (hs : s.simd (.stSingle k va rt idx rn post) = some s') : SimTo slide m (.stSingle k va rt idx rn post) s' := by
  simp only [S.simd] at hs
  split at hs
  · cases hs
  next hi =>
    cases hs
    have hk := regsOk_le (rn := rn) (k := k) fun e => hi (by rcases e with e | e; exact Or.inl e; exact Or.inr (Or.inl e))
    have hidx : idx < 128 / va.w := Nat.lt_of_not_le fun e => hi (Or.inr (Or.inr e))
    obtain ⟨ha, hr⟩ := h.simdAddr rn post
    unfold SimTo
    simp only [Simd.lift, liftStSingle]
    rw [ha]
    refine foldlM_some (fun k m => Rel slide m ((s.postIndex rn post).setBytes (s.reg 64 rn) (va.e * k) _))
      _ k _ ?_ ?_
    · rw [Nat.mul_zero, setBytes_zero]; exact hr
    · intro j m1 hj h1
      have hbl : va.e ≤ 8 := by cases va <;> decide
      have hm : va.e * j ≤ va.e * 4 := Nat.mul_le_mul_left _ (by omega)
      rw [h1.getElem va _ hidx, Nat.mul_succ]
      refine h1.storeAt _ (by omega) ?_
      intro o ho
      have he := VA.e_pos va
      rw [el_setBytes, el_postIndex, nth_eq, byte_el _ _ _ _ _ ho, Nat.mul_add_div he, Nat.div_eq_of_lt ho, Nat.mul_add_mod,
        Nat.mod_eq_of_lt ho, Nat.add_zero]

/-- `zipAll`: elements of two registers alternate. -/
theorem zipAll_els {w n : Nat} {a b : Vec w} (Ra Rb : Fin 32)
    (ha : ∀ i, i < n → a i = some (s.el Ra w i)) (hb : ∀ i, i < n → b i = some (s.el Rb w i)) (p : Nat) (hp : p < 2 * n) :
    Vec.shuffle n a b (zipAll n) p = some (s.el (if p % 2 = 0 then Ra else Rb) w (p / 2)) := by
  rw [zipAll, Vec.shuffle_eq (pairs_get n (fun i => i) (fun i => i + n) p hp)]
  by_cases h : p % 2 = 0
  · rw [if_pos h, if_pos h, if_pos (by omega)]
    exact ha _ (by omega)
  · rw [if_neg h, if_neg h, if_neg (by omega), if_pos (by omega), show p / 2 + n - n = p / 2 by omega]
    exact hb _ (by omega)

theorem sim_stN (h : Rel slide m s) {k : Nat} {va : VA} {rt : Fin 32} {rn : Reg} {post : Post}
    (hs : s.simd (.stN k va rt rn post) = some s') : SimTo slide m (.stN k va rt rn post) s' := by
  simp only [S.simd] at hs
  split at hs
  · cases hs
  next hi =>
    cases hs
    have hk := regsOk_le (rn := rn) (k := k) fun e => hi (by rcases e with e | e; exact Or.inl e; exact Or.inr (Or.inl e))
    have hk1 : k ≠ 1 := fun e => hi (Or.inr (Or.inr (Or.inl e)))
    have hd1 : va ≠ .d1 := fun e => hi (Or.inr (Or.inr (Or.inr e)))
    have hn2 : va.n / 2 + va.n / 2 = va.n := by cases va <;> first | rfl | exact absurd rfl hd1
    have hk2 : k = 2 ∨ k = 3 ∨ k = 4 := by omega
    obtain ⟨ha, hr⟩ := h.simdAddr rn post
    have hv : ∀ j i, i < va.n → (simdAddr m rn post).2.getVec va (vreg rt j) i = some (s.el (nth rt j) va.w i) :=
      fun j i hi => by rw [hr.getVec va _ hi, el_postIndex, nth_eq]
    have he := VA.e_pos va
    have hbl := VA.bytes_le va
    unfold SimTo
    simp only [Simd.lift, liftStN]
    rw [ha]
    rcases hk2 with rfl | rfl | rfl
    · simp only
      obtain ⟨x, hx, hb⟩ := vec_bytes (s := s) va (n := va.n) (R := fun i => nth rt (i % 2)) (I := fun i => i / 2)
        (v := Vec.shuffle va.n ((simdAddr m rn post).2.getVec va (vreg rt 0))
          ((simdAddr m rn post).2.getVec va (vreg rt 1)) (zipLower va.n)) va.bytes rfl fun i hi => by
          rw [zipLower, Vec.shuffle_eq (pairs_get (va.n / 2) (fun i => i) (fun i => i + va.n) i (by omega))]
          by_cases h : i % 2 = 0
          · rw [if_pos h, if_pos (by omega), h]; exact hv _ _ (by omega)
          · rw [if_neg h, if_neg (by omega), if_pos (by omega), show i / 2 + va.n - va.n = i / 2 by omega,
              show i % 2 = 1 by omega]
            exact hv _ _ (by omega)
      obtain ⟨y, hy, hb2⟩ := vec_bytes (s := s) va (n := va.n) (R := fun i => nth rt ((va.n + i) % 2))
        (I := fun i => (va.n + i) / 2)
        (v := Vec.shuffle va.n ((simdAddr m rn post).2.getVec va (vreg rt 0))
          ((simdAddr m rn post).2.getVec va (vreg rt 1)) (zipUpper va.n)) va.bytes rfl fun i hi => by
          rw [zipUpper, Vec.shuffle_eq (pairs_get (va.n / 2) (fun i => va.n / 2 + i) (fun i => va.n / 2 + i + va.n) i (by omega)),
            show (va.n + i) / 2 = va.n / 2 + i / 2 by omega]
          by_cases h : i % 2 = 0
          · rw [if_pos h, if_pos (by omega), show (va.n + i) % 2 = 0 by omega]; exact hv _ _ (by omega)
          · rw [if_neg h, if_neg (by omega), if_pos (by omega),
              show va.n / 2 + i / 2 + va.n - va.n = va.n / 2 + i / 2 by omega, show (va.n + i) % 2 = 1 by omega]
            exact hv _ _ (by omega)
      rw [hx, hy]
      obtain ⟨m1, e1, r1⟩ := Rel.storeAt (m := (simdAddr m rn post).2) (s := s.postIndex rn post) (a := s.reg 64 rn)
        (n := va.bytes) (k := 0)
        (f := fun o => s.byte (nth rt (o / va.e % 2)) va.e (o / va.e / 2) (o % va.e))
        (by rw [Nat.mul_zero, setBytes_zero]; exact hr) x (by omega)
        (fun o ho => by rw [hb o ho, Nat.mul_zero, Nat.zero_add])
      obtain ⟨m2, e2, r2⟩ := Rel.storeAt (k := 1) (n := va.bytes) (by
        rw [Nat.mul_one]; rw [Nat.mul_zero, Nat.zero_add] at r1; exact r1) y (by omega)
        (fun o ho => by
          rw [hb2 o ho]
          have e0 : va.bytes * 1 + o = o + va.e * va.n := by rw [Nat.mul_one, Nat.add_comm]
          rw [e0, Nat.add_mul_div_left _ _ he, Nat.add_mul_mod_self_left, Nat.add_comm (o / va.e)])
      refine ⟨m2, by rw [e1, Option.bind_some, e2], ?_⟩
      rw [show va.e * va.n * 2 = va.bytes * 1 + va.bytes by simp only [VA.bytes]; omega]
      exact r2
    · simp only
      obtain ⟨x, hx, hb⟩ := vec_bytes (s := s) va (n := 3 * va.n) (R := fun i => nth rt (i % 3)) (I := fun i => i / 3)
        (v := Vec.shuffle (2 * va.n) (Vec.shuffle va.n ((simdAddr m rn post).2.getVec va (vreg rt 0))
            ((simdAddr m rn post).2.getVec va (vreg rt 1)) (zipAll va.n))
          (concat va.n ((simdAddr m rn post).2.getVec va (vreg rt 2)) Vec.zero)
          ((List.range va.n).flatMap fun i => [2 * i, 2 * i + 1, i + 2 * va.n])) (va.e * (3 * va.n)) rfl fun i hi => by
          have hm : ((List.range va.n).flatMap fun i => [2 * i, 2 * i + 1, i + 2 * va.n])[i]? =
              [2 * (i / 3), 2 * (i / 3) + 1, i / 3 + 2 * va.n][i % 3]? :=
            flat_get va.n 3 _ (fun _ => rfl) i hi
          rcases (show i % 3 = 0 ∨ i % 3 = 1 ∨ i % 3 = 2 by omega) with e | e | e
          · rw [e] at hm ⊢
            rw [Vec.shuffle_eq hm, if_pos (by omega), zipAll_els (s := s) (nth rt 0) (nth rt 1) (hv 0) (hv 1) _ (by omega),
              if_pos (by omega), show 2 * (i / 3) / 2 = i / 3 by omega]
          · rw [e] at hm ⊢
            rw [Vec.shuffle_eq hm, if_pos (by omega), zipAll_els (s := s) (nth rt 0) (nth rt 1) (hv 0) (hv 1) _ (by omega),
              if_neg (by omega), show (2 * (i / 3) + 1) / 2 = i / 3 by omega]
          · rw [e] at hm ⊢
            rw [Vec.shuffle_eq hm, if_neg (by omega), if_pos (by omega), concat_eq (by omega), if_pos (by omega),
              show i / 3 + 2 * va.n - 2 * va.n = i / 3 by omega, hv 2 _ (by omega)]
      rw [hx]
      obtain ⟨m1, e1, r1⟩ := hr.store (s.reg 64 rn) _ x
      refine ⟨m1, e1, ?_⟩
      have hl : va.e * (3 * va.n) = 3 * va.bytes := by simp only [VA.bytes]; rw [Nat.mul_left_comm]
      have := setBytes_add (s := s.postIndex rn post) (s.reg 64 rn) 0 (va.e * (3 * va.n)) (by omega)
        (fun o => s.byte (nth rt (o / va.e % 3)) va.e (o / va.e / 3) (o % va.e)) x
        (fun o ho => by rw [hb o ho, Nat.zero_add])
      rw [setBytes_zero, Nat.zero_add, show s.reg 64 rn + BitVec.ofNat 64 0 = s.reg 64 rn from BitVec.add_zero _] at this
      rw [this] at r1
      rw [show va.e * va.n * 3 = va.e * (3 * va.n) by rw [Nat.mul_assoc, Nat.mul_comm 3]]
      exact r1
    · simp only
      obtain ⟨x, hx, hb⟩ := vec_bytes (s := s) va (n := 4 * va.n) (R := fun i => nth rt (i % 4)) (I := fun i => i / 4)
        (v := Vec.shuffle (2 * va.n) (Vec.shuffle va.n ((simdAddr m rn post).2.getVec va (vreg rt 0))
            ((simdAddr m rn post).2.getVec va (vreg rt 1)) (zipAll va.n))
          (Vec.shuffle va.n ((simdAddr m rn post).2.getVec va (vreg rt 2))
            ((simdAddr m rn post).2.getVec va (vreg rt 3)) (zipAll va.n))
          ((List.range va.n).flatMap fun i => [2 * i, 2 * i + 1, 2 * i + 2 * va.n, 2 * i + 2 * va.n + 1]))
          (va.e * (4 * va.n)) rfl fun i hi => by
          have hm : ((List.range va.n).flatMap fun i => [2 * i, 2 * i + 1, 2 * i + 2 * va.n, 2 * i + 2 * va.n + 1])[i]? =
              [2 * (i / 4), 2 * (i / 4) + 1, 2 * (i / 4) + 2 * va.n, 2 * (i / 4) + 2 * va.n + 1][i % 4]? :=
            flat_get va.n 4 _ (fun _ => rfl) i hi
          rcases (show i % 4 = 0 ∨ i % 4 = 1 ∨ i % 4 = 2 ∨ i % 4 = 3 by omega) with e | e | e | e
          · rw [e] at hm ⊢
            rw [Vec.shuffle_eq hm, if_pos (by omega), zipAll_els (s := s) (nth rt 0) (nth rt 1) (hv 0) (hv 1) _ (by omega),
              if_pos (by omega), show 2 * (i / 4) / 2 = i / 4 by omega]
          · rw [e] at hm ⊢
            rw [Vec.shuffle_eq hm, if_pos (by omega), zipAll_els (s := s) (nth rt 0) (nth rt 1) (hv 0) (hv 1) _ (by omega),
              if_neg (by omega), show (2 * (i / 4) + 1) / 2 = i / 4 by omega]
          · rw [e] at hm ⊢
            rw [Vec.shuffle_eq hm, if_neg (by omega), if_pos (by omega),
              zipAll_els (s := s) (nth rt 2) (nth rt 3) (hv 2) (hv 3) _ (by omega), if_pos (by omega),
              show (2 * (i / 4) + 2 * va.n - 2 * va.n) / 2 = i / 4 by omega]
          · rw [e] at hm ⊢
            rw [Vec.shuffle_eq hm, if_neg (by omega), if_pos (by omega),
              zipAll_els (s := s) (nth rt 2) (nth rt 3) (hv 2) (hv 3) _ (by omega), if_neg (by omega),
              show (2 * (i / 4) + 2 * va.n + 1 - 2 * va.n) / 2 = i / 4 by omega]
      rw [hx]
      obtain ⟨m1, e1, r1⟩ := hr.store (s.reg 64 rn) _ x
      refine ⟨m1, e1, ?_⟩
      have hl : va.e * (4 * va.n) = 4 * va.bytes := by simp only [VA.bytes]; rw [Nat.mul_left_comm]
      have := setBytes_add (s := s.postIndex rn post) (s.reg 64 rn) 0 (va.e * (4 * va.n)) (by omega)
        (fun o => s.byte (nth rt (o / va.e % 4)) va.e (o / va.e / 4) (o % va.e)) x
        (fun o ho => by rw [hb o ho, Nat.zero_add])
      rw [setBytes_zero, Nat.zero_add, show s.reg 64 rn + BitVec.ofNat 64 0 = s.reg 64 rn from BitVec.add_zero _] at this
      rw [this] at r1
      rw [show va.e * va.n * 4 = va.e * (4 * va.n) by rw [Nat.mul_assoc, Nat.mul_comm 4]]
      exact r1

/-! ### All SIMD instructions -/

/-- What the code gets right of the SIMD instructions: SSHL and USHL by less than the element size; SSHR and USHR
by less than the element size; scalar floating-point comparisons of double precision. -/
def SimdOk (s : S) : Simd → Prop
  | .three op _ scalar va _ _ rm =>
    (∀ r, op = .shl r → ∀ i, i < (if scalar then 1 else va.n) → ShlOk va.w (s.el rm va.w i)) ∧
      (scalar = true → Three.isFp op = true → va.w = 64)
  | .two op scalar va _ _ => scalar = true → Two.isFp op = true → va.w = 64
  | .shr _ _ _ va _ _ imm => imm < va.w
  | _ => True

theorem sim_simd (h : Rel slide m s) {i : Simd} (hok : SimdOk s i) (hs : s.simd i = some s') :
    SimTo slide m i s' := by
  cases i with
  | three => exact sim_three h hok.1 hok.2 hs
  | two => exact sim_two h hok hs
  | shlImm => exact sim_shlImm h hs
  | shr => exact sim_shr h hok hs
  | sra => exact sim_sra h hs
  | shll => exact sim_shll h hs
  | shrn => exact sim_shrn h hs
  | xtn => exact sim_xtn h hs
  | long => exact sim_long h hs
  | longElem => exact sim_longElem h hs
  | wide => exact sim_wide h hs
  | mulElem => exact sim_mulElem h hs
  | pair => exact sim_pair h hs
  | addp => exact sim_addp h hs
  | addlp => exact sim_addlp h hs
  | across => exact sim_across h hs
  | immOp => exact sim_immOp h hs
  | movi => exact sim_movi h hs
  | dupElem => exact sim_dupElem h hs
  | dupGpr => exact sim_dupGpr h hs
  | ext => exact sim_ext h hs
  | insElem => exact sim_insElem h hs
  | insGpr => exact sim_insGpr h hs
  | mov => exact sim_mov h hs
  | tbl => exact sim_tbl h hs
  | uzp => exact sim_uzp h hs
  | zip => exact sim_zip h hs
  | rev => exact sim_rev h hs
  | ld1 => exact sim_ld1 h hs
  | ldN => exact sim_ldN h hs
  | ldSingle => exact sim_ldSingle h hs
  | ldR => exact sim_ldR h hs
  | st1 => exact sim_st1 h hs
  | stN => exact sim_stN h hs
  | stSingle => exact sim_stSingle h hs

/-- What is specified is handled by the lifter. -/
theorem simd_handled {i : Simd} (hs : s.simd i = some s') : i.handled = true := by
  unfold Simd.handled
  split
  · simp only [S.simd, if_true] at hs; cases hs
  · simp only [S.simd, Bool.true_eq_false, false_and, if_false] at hs; cases hs
  · simp only [S.simd, Bool.true_eq_false, false_and, if_false] at hs; cases hs
  · rfl

theorem sim_simdInstr {cfg : Cfg} {len : Nat} {i : Simd} (hok : SimdOk s i) (hs : step (.simd i) len s = some s') :
    Simulates cfg slide (.simd i) len s s' := by
  obtain ⟨s1, hp, rfl⟩ := step_plain hs rfl
  have hh : i.handled = true := simd_handled hp
  refine plain_sim (fun m => i.lift m) (fun start m => ?_) ?_
  · simp only [lift, hh, if_true]
  · intro start m hr _ _
    exact sim_simd hr hok hp

end Verif.A64.Spec
