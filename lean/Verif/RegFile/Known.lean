import Verif.RegFile.Model

/-!
When does a register file look outside of its block?  Once it has a register in full, it never does
so again; so a block gets at most one PHI node per register.  This connects the register states of
`Verif.RegFile.Model` with the flag `has` of `Verif.Lift.FillPhis`.
-/

namespace Verif.RegFile

set_option linter.unusedSimpArgs false

/-- A register of native size is there, or its upper part is known to be zero: no access of at most
native size looks outside of the block. -/
def Known (c : Cls) (r : RState) : Prop := needsOuter c.native.size r.canon = false

theorem known_iff {n : Nat} {r : RState} : needsOuter n r = false ↔
    r.uz = true ∨ ∃ v vs, r.vals = v :: vs ∧ n ≤ v.size := by
  unfold needsOuter
  cases r.uz with
  | true => simp
  | false =>
    cases hv : r.vals with
    | nil => simp
    | cons v vs => simp

theorem fold_size {full : Nat} {v0 v : RVal} {vs : List RVal} (h : fold full (v0 :: vs) = some v) :
    v0.size ≤ v.size := by
  have hs : v.size = if full < v0.size then v0.size else full := by
    simp only [fold] at h
    split at h
    · cases h
    · split at h
      · split at h
        · cases h
        · split at h
          · cases h
          · cases h; rfl
      · split at h
        · cases h
        · split at h
          · cases h
          · cases h; rfl
      · cases h
  rw [hs]; split <;> omega

theorem finishFold_known {full n : Nat} {r r' : RState} {i : Nat}
    (h : finishFold full r = some (r', i)) (hk : needsOuter n r = false) : needsOuter n r' = false := by
  rw [known_iff] at hk ⊢
  unfold finishFold at h
  split at h
  next hv =>
    split at h
    next hu => cases h; exact .inl hu
    · cases h
  next v0 vs hv =>
    split at h
    · cases h
    · split at h
      · cases h; exact hk
      · split at h
        · cases h
        next v hf =>
          cases h
          rcases hk with hk | ⟨w, ws, hw, hs⟩
          · exact .inl hk
          · right
            rw [hv] at hw hf; cases hw
            exact ⟨v, [], rfl, Nat.le_trans hs (fold_size hf)⟩

theorem inherit_known {n : Nat} {r p : RState} (hr : needsOuter n r = true)
    (hp : needsOuter n p = false) : needsOuter n (inherit r p) = false := by
  rw [known_iff] at hp ⊢
  rcases hp with hp | ⟨w, ws, hw, hs⟩
  · exact .inl hp
  · right
    unfold inherit
    cases hv : r.vals with
    | nil => exact ⟨w, ws, hw, hs⟩
    | cons v0 vs =>
      have hlt : v0.size < n := by
        simp only [needsOuter, hv, Bool.and_eq_true, decide_eq_true_eq] at hr; exact hr.2
      have : ¬ w.size < v0.size := by omega
      exact ⟨w, ws.takeWhile (fun v => !decide (v.size < v0.size)) ++ v0 :: vs, by
        simp [hw, this], hs⟩

theorem needsOuter_mono {n m : Nat} {r : RState} (h : n ≤ m) (hr : needsOuter n r = true) :
    needsOuter m r = true := by
  cases hm : needsOuter m r with
  | true => rfl
  | false =>
    have : needsOuter n r = false := by
      rw [known_iff] at hm ⊢
      rcases hm with hm | ⟨v, vs, h1, h2⟩
      · exact .inl hm
      · exact .inr ⟨v, vs, h1, Nat.le_trans h h2⟩
    rw [this] at hr; cases hr

/-- `GetRegFold`: a register that is known stays known, and one that is looked up outside, or asked
for in full, is known afterwards. -/
theorem getFold_known {c : Cls} {base : Base} : ∀ {rs rs' : List RState} {r r' : RState}
    {full i : Nat}, full ≤ c.native.size → getFold c base (r :: rs) full = some (r' :: rs', i) →
    (Known c r ∨ needsOuter full r.canon = true ∨ full = c.native.size) →
    needsOuter c.native.size r' = false := by
  intro rs
  induction rs with
  | nil =>
    intro rs' r r' full i hf h hk
    unfold getFold at h
    simp only at h
    split at h
    next hn =>
      split at h
      · cases h
      · split at h
        · cases h
        next r1 j hff =>
          cases h
          refine finishFold_known hff ?_
          rw [known_iff]; right
          exact ⟨_, _, rfl, Nat.le_refl _⟩
    next hn =>
      split at h
      · cases h
      next r1 j hff =>
        cases h
        refine finishFold_known hff ?_
        rcases hk with hk | hk | rfl
        · exact hk
        · exact absurd hk hn
        · simpa using hn
  | cons q qs ih =>
    intro rs' r r' full i hf h hk
    unfold getFold at h
    simp only at h
    split at h
    next hn =>
      split at h
      · cases h
      next rest j hg =>
        split at h
        · cases h
        next p ps =>
          split at h
          · cases h
          next r1 j' hff =>
            cases h
            refine finishFold_known hff ?_
            exact inherit_known (needsOuter_mono hf hn) (ih (Nat.le_refl _) hg (.inr (.inr rfl)))
    next hn =>
      split at h
      · cases h
      next r1 j hff =>
        cases h
        refine finishFold_known hff ?_
        rcases hk with hk | hk | rfl
        · exact hk
        · exact absurd hk hn
        · simpa using hn

theorem canon_none {r : RState} (h : r.lazy = none) : r.canon = r := by simp [RState.canon, h]

theorem canon_known {c : Cls} {r : RState} {n : Nat} (h : needsOuter n r = false) (hn : n = c.native.size) :
    Known c r := by
  subst hn
  unfold Known RState.canon
  cases r.lazy with
  | none => exact h
  | some l => rfl

theorem getReg_known {c : Cls} {base : Base} {rs rs' : List RState} {r r' : RState} {f : Facet}
    {cache : Bool} {v : SV} (hf : f.readSize ≤ c.native.size)
    (h : getReg c base (r :: rs) f cache = some (r' :: rs', v))
    (hk : Known c r ∨ needsOuter f.readSize r.canon = true ∨ f.readSize = c.native.size) :
    Known c r' := by
  unfold getReg at h
  split at h
  · cases h
  · cases h
  next r1 rest idx hg =>
    have h1 := getFold_known hf hg hk
    have hset : ∀ (w : RVal) (vals : List RVal), r1.vals[idx]? = some w →
        (∀ x xs, r1.vals = x :: xs → ∃ y ys, vals = y :: ys ∧ y.size = x.size) →
        needsOuter c.native.size { r1 with vals := vals } = false := by
      intro w vals hw hv
      rw [known_iff] at h1 ⊢
      rcases h1 with h1 | ⟨x, xs, h2, h3⟩
      · exact .inl h1
      · obtain ⟨y, ys, h4, h5⟩ := hv x xs h2
        exact .inr ⟨y, ys, h4, by rw [h5]; exact h3⟩
    split at h
    · cases h
    next w hw =>
      split at h
      · split at h
        · cases h; exact canon_known h1 rfl
        · cases h
      next t =>
        split at h
        · split at h
          · cases h; exact canon_known h1 rfl
          · split at h
            · cases h; exact canon_known h1 rfl
            · split at h
              · cases h
              next a ha =>
                cases h
                refine canon_known (hset w _ hw ?_) rfl
                intro x xs hx
                rw [hx] at hw ⊢
                cases idx with
                | zero =>
                  simp only [List.getElem?_cons_zero, Option.some.injEq] at hw
                  subst hw
                  exact ⟨_, _, rfl, rfl⟩
                | succ k => exact ⟨_, _, rfl, rfl⟩
        · split at h
          · cases h
          next res hres =>
            split at h
            · split at h
              · cases h
                refine canon_known (hset w _ hw ?_) rfl
                intro x xs hx
                rw [hx]
                exact ⟨x, _, rfl, rfl⟩
              · cases h
            · cases h; exact canon_known h1 rfl

/-- The accesses of lifters: reads of at most native size. -/
def Op.small (c : Cls) : Op → Prop
  | .read f _ => f.readSize ≤ c.native.size
  | _ => True

/-- C50, register file side: a register that a block knows in full stays known through any sequence
of reads and writes, so the block never again takes it from its parent or creates a PHI node for it
(`needsOuter` is false for every later access of at most native size). -/
theorem C50_known_stays {c : Cls} {base : Base} : ∀ (ops : List Op) {rs rs' : List RState}
    {r r' : RState} {out : List SV}, (∀ o ∈ ops, o.small c) →
    run c base (r :: rs) ops = some (r' :: rs', out) → Known c r → Known c r' := by
  intro ops
  induction ops with
  | nil => intro rs rs' r r' out _ h hk; simp only [run, Option.some.injEq, Prod.mk.injEq] at h; rw [List.cons.injEq] at h; rw [← h.1.1]; exact hk
  | cons o ops ih =>
    intro rs rs' r r' out hs h hk
    have hs' : ∀ o ∈ ops, o.small c := fun x hx => hs x (by simp [hx])
    cases o with
    | read f cache =>
      simp only [run] at h
      split at h
      · cases h
      next chain v hg =>
        split at h
        · cases h
        next chain' vs hr =>
          cases h
          cases chain with
          | nil =>
            exfalso
            unfold getReg at hg
            repeat' split at hg
            all_goals cases hg
          | cons r1 rs1 =>
            exact ih hs' hr (getReg_known (hs (.read f cache) (by simp)) hg (.inl hk))
    | set v =>
      simp only [run, setReg] at h
      exact ih hs' h rfl
    | «lazy» l =>
      simp only [run, setLazy] at h
      exact ih hs' h rfl
    | merge v =>
      simp only [run, mergeReg] at h
      refine ih hs' h ?_
      apply canon_known (n := c.native.size) _ rfl
      have hk' := hk
      unfold Known at hk'
      rw [known_iff] at hk' ⊢
      rcases hk' with hk' | ⟨x, xs, h2, h3⟩
      · exact .inl hk'
      · right
        by_cases hx : x.size ≤ v.ty.size
        · exact ⟨RVal.mk' v v.ty.size, [], by simp [h2, hx], Nat.le_trans h3 hx⟩
        · exact ⟨x, _, by simp only [h2, List.takeWhile_cons, hx, decide_false, Bool.not_false, if_true, List.cons_append]; rfl, h3⟩

/-- C50, register file side: whenever a block takes a register from outside (from its parent, or by
creating a PHI node), and whenever the whole register is read, the block knows the register
afterwards; with `C50_known_stays` there is at most one PHI node per block and register. -/
theorem C50_looked_up_once {c : Cls} {base : Base} {rs rs' rs'' : List RState} {r r' r'' : RState}
    {f : Facet} {cache : Bool} {v : SV} {ops : List Op} {out : List SV}
    (hf : f.readSize ≤ c.native.size)
    (h : getReg c base (r :: rs) f cache = some (r' :: rs', v))
    (ho : needsOuter f.readSize r.canon = true ∨ f.readSize = c.native.size)
    (hs : ∀ o ∈ ops, o.small c) (hr : run c base (r' :: rs') ops = some (r'' :: rs'', out)) :
    ∀ n ≤ c.native.size, needsOuter n r''.canon = false := by
  intro n hn
  have := C50_known_stays ops hs hr (getReg_known hf h (.inr ho))
  cases hc : needsOuter n r''.canon with
  | false => rfl
  | true => rw [this.symm.trans (needsOuter_mono hn hc)]

/-- A block with a PHI node that merges a low byte and reads the whole register twice. -/
example : ∃ r rs v, getReg .gp (.phi fun i => decide (i = 3)) [RState.fresh] (.ty (.int 64)) true
      = some (r :: rs, v) ∧ needsOuter 64 RState.fresh.canon = true ∧ Known .gp r := by
  refine ⟨_, _, _, rfl, rfl, rfl⟩

end Verif.RegFile
