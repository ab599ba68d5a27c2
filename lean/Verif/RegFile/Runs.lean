import Verif.RegFile.Access

/-!
Writes, deferred computations and whole access sequences: lemmas for C11, C12 and C13.
-/

set_option linter.unusedSimpArgs false

namespace Verif.RegFile

/-- The accesses an instruction lifter may perform on a register of the class: values and facets of
the register's types, values zero above their size (every LLVM value is). -/
def Op.ok (c : Cls) : Op → Prop
  | .read f _ => c.okFacet f
  | .set v => c.okTy v.ty ∧ ∀ i, v.ty.size ≤ i → v.bits i = false
  | .merge v => c.okTy v.ty ∧ ∀ i, v.ty.size ≤ i → v.bits i = false
  | .lazy (.load v) => c.okTy v.ty ∧ ∀ i, v.ty.size ≤ i → v.bits i = false
  | .lazy (.truncI8 _) => c = .pf
  | .lazy _ => c = .flag

/-- The access reads bits 8..15 (AH, BH, CH, DH). -/
def Op.high : Op → Bool
  | .read .i8h _ => true
  | _ => false

/-- The access reads or writes the register as an LLVM pointer. -/
def Op.ptr : Op → Bool
  | .read (.ty .ptr) _ => true
  | .set v => v.ty = .ptr
  | .merge v => v.ty = .ptr
  | .lazy (.load v) => v.ty = .ptr
  | _ => false

/-! ### Deferred computations -/

theorem bv_ofBool (b : Bool) : Lazy.force.bv (some (BitVec.ofBool b)) = Spec.flagBit b := by
  funext i
  show (BitVec.ofBool b).getLsbD i = (decide (i = 0) && b)
  rw [BitVec.getLsbD_ofBool]

theorem slt_zero_msb {n : Nat} (x : BitVec n) : x.slt 0 = decide (x.toInt < 0) := by
  simp [BitVec.slt]

/-- Each deferred computation yields the value its definition gives. -/
theorem force_bits (l : Lazy) : l.force.bits = Spec.lazy l := by
  cases l with
  | @isZero n v =>
    simp only [Lazy.force, IR.icmp, IR.cmp, IR.bin_some, bv_ofBool,
      Spec.lazy, IR.Pred.eval]
    congr 1
    by_cases h : v = 0
    · simp [h]
    · have : v.toNat ≠ 0 := fun h' => h (BitVec.eq_of_toNat_eq (by simpa using h'))
      simp [this]
      simpa using h
  | @isNeg n v =>
    simp only [Lazy.force, IR.icmp, IR.cmp, IR.bin_some, bv_ofBool,
      Spec.lazy, IR.Pred.eval, slt_zero_msb]
  | @isULT n a b =>
    simp only [Lazy.force, IR.icmp, IR.cmp, IR.bin_some, bv_ofBool,
      Spec.lazy, IR.Pred.eval, BitVec.ult]
  | @addOverflow n res lhs rhs =>
    simp only [Lazy.force, IR.icmp, IR.cmp, IR.bin_some, IR.un_some, bv_ofBool,
      Spec.lazy, IR.Pred.eval, IR.xor, IR.and, IR.not, slt_zero_msb, ← BitVec.msb_eq_toInt]
    congr 1
    have h1 : ∀ x : BitVec n, (x.toInt < 0) = (x.msb = true) := by
      intro x; rw [BitVec.msb_eq_toInt]; simp
    simp only [h1]
    rw [BitVec.msb_and, BitVec.msb_xor, BitVec.msb_not, BitVec.msb_xor]
    by_cases hn : 0 < n
    · cases lhs.msb <;> cases rhs.msb <;> cases res.msb <;> simp [hn]
    · have : n = 0 := by omega
      subst this
      simp [BitVec.msb]
  | @truncI8 n v =>
    simp only [Lazy.force, IR.trunc, IR.un_some, Spec.lazy]
    funext i
    show (BitVec.setWidth 8 v).getLsbD i = _
    rw [BitVec.getLsbD_setWidth]; rfl
  | load v => rfl
  | @x86Aux n res lhs rhs =>
    simp only [Lazy.force, IR.icmp, IR.cmp, IR.bin_some, IR.un_some, bv_ofBool,
      Spec.lazy, IR.Pred.eval, IR.xor, IR.and]
    congr 1
    have h16 : ∀ i, (16 : BitVec n).getLsbD i = (decide (i < n) && decide (i = 4)) := by
      intro i
      have : (16 : BitVec n) = BitVec.twoPow n 4 := by
        apply BitVec.eq_of_toNat_eq; simp [BitVec.toNat_twoPow]
      rw [this, BitVec.getLsbD_twoPow]
      by_cases h : i = 4
      · subst h; simp
      · have : ¬ 4 = i := fun h' => h h'.symm
        simp [h, this]
    have hb : ∀ x : BitVec n, x.toNat.testBit 4 = x.getLsbD 4 := fun x => rfl
    rw [hb, hb, hb]
    by_cases hbit : ((lhs ^^^ rhs) ^^^ res).getLsbD 4 = true
    · have hne : (lhs ^^^ rhs ^^^ res) &&& 16 ≠ 0 := by
        intro h0
        have := congrArg (fun x => BitVec.getLsbD x 4) h0
        simp only [BitVec.getLsbD_and, hbit, h16, BitVec.getLsbD_zero] at this
        have hlt : 4 < n := BitVec.lt_of_getLsbD hbit
        simp [hlt] at this
      rw [BitVec.getLsbD_xor, BitVec.getLsbD_xor] at hbit
      rw [bne_iff_ne.mpr hne]
      cases h1 : lhs.getLsbD 4 <;> cases h2 : rhs.getLsbD 4 <;> cases h3 : res.getLsbD 4 <;>
        simp [h1, h2, h3] at hbit ⊢
    · have heq : (lhs ^^^ rhs ^^^ res) &&& 16 = 0 := by
        apply BitVec.eq_of_getLsbD_eq
        intro i hi
        rw [BitVec.getLsbD_and, h16, show (0 : BitVec n).getLsbD i = false from BitVec.getLsbD_zero]
        by_cases h : i = 4
        · subst h
          simp only [Bool.not_eq_true] at hbit
          simp [hbit]
        · simp [h]
      rw [BitVec.getLsbD_xor, BitVec.getLsbD_xor] at hbit
      rw [heq]
      cases h1 : lhs.getLsbD 4 <;> cases h2 : rhs.getLsbD 4 <;> cases h3 : res.getLsbD 4 <;>
        simp [h1, h2, h3] at hbit ⊢

theorem flagBit_zero (b : Bool) (i : Nat) (h : 1 ≤ i) : Spec.flagBit b i = false := by
  have : i ≠ 0 := by omega
  simp [Spec.flagBit, this]

theorem force_wf {c : Cls} {l : Lazy} (h : Op.ok c (.lazy l)) :
    c.okTy l.force.ty ∧ ∀ i, l.force.ty.size ≤ i → l.force.bits i = false := by
  rw [force_bits]
  cases l <;> simp only [Op.ok] at h <;> first | exact h | skip
  all_goals
    subst h
    refine ⟨by simp [Cls.okTy, Lazy.force], ?_⟩
    intro i hi
    simp only [Lazy.force, Ty.size] at hi
    first
      | exact flagBit_zero _ i hi
      | (have : ¬ i < 8 := by omega
         simp [Spec.lazy, this])

/-! ### Writes -/

theorem vinv_single {c : Cls} {v : SV} {o : Option Bits} (ht : c.okTy v.ty)
    (hz : ∀ i, v.ty.size ≤ i → v.bits i = false) :
    VInv c true [RVal.mk' v v.ty.size] v.bits o := by
  refine ⟨?_, ⟨by simp, trivial⟩, agree_single (fun i _ => rfl), ?_, ?_, ?_, ?_, by simp⟩
  · intro w hw
    simp only [List.mem_singleton] at hw
    subst hw
    exact ⟨ht, rfl, hz⟩
  · intro w ws hw x hx
    simp only [List.cons.injEq] at hw
    rw [← hw.2] at hx; simp at hx
  · intro w ws hw
    simp only [List.cons.injEq] at hw
    left; rw [← hw.1]; rfl
  · intro i hi
    exact hz i (Nat.le_trans (okTy_size ht).2 hi)
  · intro _
    exact ⟨⟨_, [], rfl, rfl⟩, hz⟩

theorem setReg_spec {c : Cls} {base : Base} {rs : List RState} {flat : Bits} {fs : List Bits} {v : SV}
    (h : Inv c base rs (flat :: fs)) (hv : Op.ok c (.set v)) :
    ∃ rs', setReg rs v = some rs' ∧ Inv c base rs' (v.bits :: fs) ∧
      (NoPtr rs → v.ty ≠ .ptr → NoPtr rs') := by
  match rs, h with
  | r :: rest, h =>
    refine ⟨_, rfl, ⟨vinv_single hv.1 hv.2, h.2⟩, ?_⟩
    intro hn hp r' hr' w hw
    rcases List.mem_cons.mp hr' with rfl | hr'
    · simp only [RState.canon, List.mem_singleton] at hw
      subst hw; exact hp
    · exact hn r' (by simp [hr']) w hw

theorem setLazy_spec {c : Cls} {base : Base} {rs : List RState} {flat : Bits} {fs : List Bits} {l : Lazy}
    (h : Inv c base rs (flat :: fs)) (hl : Op.ok c (.lazy l)) :
    ∃ rs', setLazy rs l = some rs' ∧ Inv c base rs' (Spec.lazy l :: fs) ∧
      (NoPtr rs → Op.ptr (.lazy l) = false → NoPtr rs') := by
  match rs, h with
  | r :: rest, h =>
    have hw := force_wf hl
    refine ⟨_, rfl, ⟨?_, h.2⟩, ?_⟩
    · rw [← force_bits]
      exact vinv_single hw.1 hw.2
    · intro hn hp r' hr' w hw
      rcases List.mem_cons.mp hr' with rfl | hr'
      · simp only [RState.canon, List.mem_singleton] at hw
        subst hw
        cases l <;> simp_all [Op.ptr, Lazy.force, RVal.mk']
      · exact hn r' (by simp [hr']) w hw

theorem takeWhile_drop_le {n : Nat} : ∀ {xs : List RVal}, Sorted xs →
    ∃ q, xs = xs.takeWhile (fun v => !decide (v.size ≤ n)) ++ q ∧ ∀ v ∈ q, v.size ≤ n
  | [], _ => ⟨[], rfl, by simp⟩
  | x :: xs, h => by
    by_cases hx : x.size ≤ n
    · refine ⟨x :: xs, by simp [hx], ?_⟩
      intro v hv
      rcases List.mem_cons.mp hv with rfl | hv
      · exact hx
      · have := h.1 v hv; omega
    · obtain ⟨q, h1, h2⟩ := takeWhile_drop_le (n := n) h.2
      refine ⟨q, ?_, h2⟩
      simp only [List.takeWhile_cons, hx, decide_false, Bool.not_false, if_true, List.cons_append]
      rw [← h1]

theorem agree_merge {flat : Bits} {v : SV} : ∀ {xs q : List RVal},
    (∀ w ∈ xs, v.ty.size < w.size) → (∀ w ∈ q, w.size ≤ v.ty.size) → Agree flat (xs ++ q) →
    Agree (Spec.step flat (.merge v)) (xs ++ [RVal.mk' v v.ty.size])
  | [], q, _, _, _ => by
    refine agree_single ?_
    intro i hi
    have hi : i < v.ty.size := hi
    simp [Spec.step, hi, RVal.mk']
  | x :: xs, q, hx, hq, h => by
    rw [List.cons_append] at h ⊢
    refine ⟨?_, agree_merge (fun w hw => hx w (by simp [hw])) hq h.2⟩
    intro i hi hix
    have hlow : lowBound (xs ++ [RVal.mk' v v.ty.size]) =
        if xs.any (·.dirty) then lowBound xs else v.ty.size := by
      rw [lowBound_append]; simp [lowBound, RVal.mk']
    have hge : v.ty.size ≤ lowBound (xs ++ [RVal.mk' v v.ty.size]) := by
      rw [hlow]
      split
      · rename_i hd
        obtain ⟨w, h1, _, h3⟩ := lowBound_pos_dirty hd
        rw [h3]; exact Nat.le_of_lt (hx w (by simp [h1]))
      · exact Nat.le_refl _
    have hni : ¬ i < v.ty.size := by omega
    simp only [Spec.step, hni, if_false]
    refine h.1 i ?_ hix
    rw [lowBound_append]
    rw [hlow] at hi
    split
    · rename_i hd; rw [if_pos hd] at hi; exact hi
    · rename_i hd
      have := lowBound_le (vs := q) hq
      omega

theorem mergeReg_spec {c : Cls} {base : Base} {rs : List RState} {flat : Bits} {fs : List Bits} {v : SV}
    (h : Inv c base rs (flat :: fs)) (hv : Op.ok c (.merge v)) :
    ∃ rs', mergeReg rs v = some rs' ∧ Inv c base rs' (Spec.step flat (.merge v) :: fs) ∧
      (NoPtr rs → v.ty ≠ .ptr → NoPtr rs') := by
  match rs, h with
  | r :: rest, h =>
    have hcl := canon_lazy r
    obtain ⟨hvt, hvz⟩ := hv
    have hts := okTy_size hvt
    refine ⟨_, rfl, ⟨?_, h.2⟩, ?_⟩
    · rw [canon_of_lazy_none (by exact hcl)]
      simp only
      have hi := h.1
      obtain ⟨q, hq1, hq2⟩ := takeWhile_drop_le (n := v.ty.size) hi.sorted
      generalize hk : r.canon.vals.takeWhile (fun w => !decide (w.size ≤ v.ty.size)) = keep at hq1
      have hkeep : ∀ w ∈ keep, v.ty.size < w.size := by
        intro w hw
        rw [← hk] at hw
        have := mem_takeWhile hw
        simpa using this
      have hkmem : ∀ w ∈ keep, w ∈ r.canon.vals := fun w hw => by rw [hq1]; simp [hw]
      have hksorted : Sorted keep := hk ▸ sorted_takeWhile hi.sorted
      have hzero : ∀ i, c.native.size ≤ i → Spec.step flat (.merge v) i = false := by
        intro i hi'
        have : ¬ i < v.ty.size := by omega
        simp [Spec.step, this, hi.zero i hi']
      have hstep : ∀ i, v.ty.size ≤ i → Spec.step flat (.merge v) i = flat i := by
        intro i hi'
        have : ¬ i < v.ty.size := by omega
        simp [Spec.step, this]
      have htop : top (keep ++ [RVal.mk' v v.ty.size]) ≥ v.ty.size ∧
          (top r.canon.vals ≤ top (keep ++ [RVal.mk' v v.ty.size])) := by
        cases hkk : keep with
        | nil =>
          rw [hkk] at hq1
          refine ⟨by simp [top, RVal.mk'], ?_⟩
          cases hq : q with
          | nil => rw [hq1, hq]; simp [top]
          | cons w ws => rw [hq1, hq]; simp only [top, List.nil_append, RVal.mk']; exact hq2 w (by simp [hq])
        | cons w ws =>
          rw [hkk] at hq1
          rw [hq1]
          simp only [top, List.cons_append]
          exact ⟨Nat.le_of_lt (hkeep w (by simp [hkk])), Nat.le_refl _⟩
      refine ⟨?_, ?_, ?_, ?_, ?_, hzero, ?_, ?_⟩
      · intro w hw
        rcases List.mem_append.mp hw with hw | hw
        · exact hi.wf w (hkmem w hw)
        · simp only [List.mem_singleton] at hw
          subst hw; exact ⟨hvt, rfl, hvz⟩
      · refine sorted_append hksorted ⟨by simp, trivial⟩ ?_
        intro x hx y hy
        simp only [List.mem_singleton] at hy
        subst hy
        exact Nat.le_of_lt (hkeep x hx)
      · refine agree_merge hkeep hq2 ?_
        rw [← hq1]; exact hi.agree
      · intro w ws hw x hx
        cases hkk : keep with
        | nil =>
          rw [hkk] at hw
          simp only [List.nil_append, List.cons.injEq] at hw
          rw [← hw.2] at hx; simp at hx
        | cons k ks =>
          rw [hkk] at hw
          simp only [List.cons_append, List.cons.injEq] at hw
          rw [← hw.1]
          rw [← hw.2] at hx
          rcases List.mem_append.mp hx with hx | hx
          · exact hi.strict k (ks ++ q) (by rw [hq1, hkk]; rfl) x (by simp [hx])
          · simp only [List.mem_singleton] at hx
            subst hx
            exact hkeep k (by simp [hkk])
      · intro w ws hw
        cases hkk : keep with
        | nil =>
          rw [hkk] at hw
          simp only [List.nil_append, List.cons.injEq] at hw
          left; rw [← hw.1]; rfl
        | cons k ks =>
          rw [hkk] at hw
          simp only [List.cons_append, List.cons.injEq] at hw
          rw [← hw.1]
          exact hi.first k (ks ++ q) (by rw [hq1, hkk]; rfl)
      · intro huz
        obtain ⟨⟨w, ws, h1, h2⟩, h3⟩ := hi.upper huz
        refine ⟨?_, ?_⟩
        · cases hkk : keep with
          | nil => exact ⟨_, [], rfl, rfl⟩
          | cons k ks =>
            rw [hq1, hkk] at h1
            simp only [List.cons_append, List.cons.injEq] at h1
            exact ⟨k, ks ++ [RVal.mk' v v.ty.size], rfl, by rw [h1.1]; exact h2⟩
        · intro i hi'
          rw [hstep i (by omega)]
          exact h3 i (by omega)
      · intro huz
        obtain ⟨g, hg, hinh⟩ := hi.inherited huz
        refine ⟨g, hg, fun i hi' => ?_⟩
        rw [hstep i (by omega)]
        exact hinh i (by omega)
    · intro hn hp r' hr' w hw
      rcases List.mem_cons.mp hr' with rfl | hr'
      · rw [canon_of_lazy_none (by exact hcl)] at hw
        rcases List.mem_append.mp hw with hw | hw
        · exact hn r (by simp) w (List.takeWhile_prefix _ |>.subset hw)
        · simp only [List.mem_singleton] at hw
          subst hw; exact hp
      · exact hn r' (by simp [hr']) w hw

/-! ### Access sequences -/

/-- Sequences for which AH..DH reads are safe: no such read, or no pointer view of the register. -/
def HighSafe (noPtr : Prop) (ops : List Op) : Prop :=
  (∀ op ∈ ops, op.high = false) ∨ (noPtr ∧ ∀ op ∈ ops, op.ptr = false)

theorem run_spec {c : Cls} {base : Base} : ∀ {ops : List Op} {rs : List RState} {flat : Bits} {fs : List Bits},
    Inv c base rs (flat :: fs) → (∀ op ∈ ops, op.ok c) → HighSafe (NoPtr rs) ops →
    ∃ rs' vs, run c base rs ops = some (rs', vs) ∧ vs.map (·.bits) = Spec.reads flat ops ∧
      Inv c base rs' (Spec.final flat ops :: fs) ∧
      (NoPtr rs → (∀ op ∈ ops, op.ptr = false) → NoPtr rs')
  | [], rs, flat, fs, h, _, _ => ⟨rs, [], rfl, rfl, h, fun hn _ => hn⟩
  | op :: ops, rs, flat, fs, h, hok, hs => by
    have hop := hok op (by simp)
    have hok' : ∀ o ∈ ops, Op.ok c o := fun o ho => hok o (by simp [ho])
    have hs' : ∀ rs', (NoPtr rs → op.ptr = false → NoPtr rs') → HighSafe (NoPtr rs') ops := by
      intro rs' hrs
      rcases hs with h1 | ⟨h1, h2⟩
      · exact Or.inl (fun o ho => h1 o (by simp [ho]))
      · exact Or.inr ⟨hrs h1 (h2 op (by simp)), fun o ho => h2 o (by simp [ho])⟩
    have comb : ∀ rs' rs'' : List RState, (NoPtr rs → op.ptr = false → NoPtr rs') →
        (NoPtr rs' → (∀ o ∈ ops, Op.ptr o = false) → NoPtr rs'') →
        NoPtr rs → (∀ o ∈ op :: ops, Op.ptr o = false) → NoPtr rs'' := by
      intro rs' rs'' h1 h2 h3 h4
      exact h2 (h1 h3 (h4 op (by simp))) (fun o ho => h4 o (by simp [ho]))
    cases op with
    | read f cache =>
      obtain ⟨rs', v, h1, h2, h3, _, h5⟩ := getReg_spec (cache := cache) h hop (by
        rintro rfl
        rcases hs with h1 | ⟨h1, _⟩
        · have := h1 _ (List.mem_cons_self ..); simp [Op.high] at this
        · exact h1)
      have h5' : NoPtr rs → Op.ptr (.read f cache) = false → NoPtr rs' := by
        intro hn hp
        refine h5 hn ?_
        rintro rfl; simp [Op.ptr] at hp
      obtain ⟨rs'', vs, h6, h7, h8, h9⟩ := run_spec h2 hok' (hs' rs' h5')
      simp only [run, h1, h6]
      exact ⟨rs'', v :: vs, rfl, by simp [Spec.reads, h3, h7, Spec.step], h8, comb rs' rs'' h5' h9⟩
    | set v =>
      obtain ⟨rs', h1, h2, h3⟩ := setReg_spec h hop
      have h3' : NoPtr rs → Op.ptr (.set v) = false → NoPtr rs' := by
        intro hn hp; exact h3 hn (by simpa [Op.ptr] using hp)
      obtain ⟨rs'', vs, h6, h7, h8, h9⟩ := run_spec h2 hok' (hs' rs' h3')
      simp only [run, h1, h6]
      exact ⟨rs'', vs, rfl, by simp [Spec.reads, h7, Spec.step], h8, comb rs' rs'' h3' h9⟩
    | merge v =>
      obtain ⟨rs', h1, h2, h3⟩ := mergeReg_spec h hop
      have h3' : NoPtr rs → Op.ptr (.merge v) = false → NoPtr rs' := by
        intro hn hp; exact h3 hn (by simpa [Op.ptr] using hp)
      obtain ⟨rs'', vs, h6, h7, h8, h9⟩ := run_spec h2 hok' (hs' rs' h3')
      simp only [run, h1, h6]
      exact ⟨rs'', vs, rfl, by simp [Spec.reads, h7], h8, comb rs' rs'' h3' h9⟩
    | lazy l =>
      obtain ⟨rs', h1, h2, h3⟩ := setLazy_spec h hop
      obtain ⟨rs'', vs, h6, h7, h8, h9⟩ := run_spec h2 hok' (hs' rs' h3)
      simp only [run, h1, h6]
      exact ⟨rs'', vs, rfl, by simp [Spec.reads, h7, Spec.step], h8, comb rs' rs'' h3 h9⟩

end Verif.RegFile
