import Verif.Lift.FillPhis
import Mathlib.Data.Fintype.Card
import Mathlib.Algebra.BigOperators.Group.Finset.Basic
import Mathlib.Algebra.Order.BigOperators.Group.Finset

/-! Invariants of the construction of PHI nodes. -/

namespace Verif.Lift

open Verif.Decode Verif.IR

set_option linter.unusedSimpArgs false
set_option linter.unusedSectionVars false

variable {P R V M : Type} [DecidableEq R]

/-- What is needed of the graph: chains of parents end. -/
structure FilesOK (g : Graph P) (rank : Id → Nat) (N : Nat) : Prop where
  lt : ∀ b, (g b).isSome → rank b < N
  inited : ∀ b bb, g b = some bb → bb.init.isSome
  parent : ∀ b bb p, g b = some bb → bb.init = some (.parent p) → (g p).isSome ∧ rank p < rank b
  preds : ∀ b bb q, g b = some bb → q ∈ bb.preds → (g q).isSome

/-- Structure of the PHI nodes. -/
structure Str (g : Graph P) (st : PhiSt R) : Prop where
  clean : ∀ b bb, g b = some bb → bb.init = some .clean → ∀ r, (st b).has r = true
  phiHas : ∀ b, ∀ p ∈ (st b).phis, (st b).has p.reg = true
  uniq : ∀ b, ((st b).phis.map PhiNode.reg).Nodup
  dom : ∀ b, (st b).phis ≠ [] → ∃ bb, g b = some bb ∧ bb.init = some .phis

/-- Only new, empty PHI nodes are added. -/
structure GrowB (x y : BlockPhis R) : Prop where
  has : ∀ r, x.has r = true → y.has r = true
  new : ∃ rs : List R, y.phis = x.phis ++ rs.map (fun r => ⟨r, []⟩) ∧
    y.pending = x.pending ++ List.range' x.phis.length rs.length

theorem GrowB.refl (x : BlockPhis R) : GrowB x x := ⟨fun _ h => h, [], by simp, by simp⟩

theorem GrowB.trans {x y z : BlockPhis R} (h : GrowB x y) (h' : GrowB y z) : GrowB x z := by
  obtain ⟨rs, h1, h2⟩ := h.new
  obtain ⟨qs, h3, h4⟩ := h'.new
  refine ⟨fun r hr => h'.has r (h.has r hr), rs ++ qs, ?_, ?_⟩
  · rw [h3, h1]; simp
  · rw [h4, h2, h1]
    simp only [List.length_append, List.length_map, List.append_assoc, List.append_cancel_left_eq]
    rw [List.range'_append_1]

theorem growB_know (x : BlockPhis R) (r : R) : GrowB x (x.know r) := by
  refine ⟨?_, [], by simp [BlockPhis.know], by simp [BlockPhis.know]⟩
  intro q hq
  simp only [BlockPhis.know]
  split
  · rfl
  · exact hq

theorem growB_push (x : BlockPhis R) (r : R) : GrowB x (x.push r) := by
  refine ⟨?_, [r], by simp [BlockPhis.push], by simp [BlockPhis.push]⟩
  intro q hq
  simp only [BlockPhis.push]
  split
  · rfl
  · exact hq

theorem set_same (st : PhiSt R) (b : Id) (x : BlockPhis R) : st.set b x b = x := by simp [PhiSt.set]
theorem set_ne {st : PhiSt R} {b c : Id} {x : BlockPhis R} (h : c ≠ b) : st.set b x c = st c := by
  simp [PhiSt.set, h]

theorem str_know {g : Graph P} {st : PhiSt R} (H : Str g st) (b : Id) (r : R) :
    Str g (st.set b ((st b).know r)) := by
  refine ⟨?_, ?_, ?_, ?_⟩
  · intro c cb hc hi q
    by_cases h : c = b
    · subst h
      rw [set_same]
      exact (growB_know _ _).has _ (H.clean _ _ hc hi q)
    · rw [set_ne h]; exact H.clean _ _ hc hi q
  · intro c p hp
    by_cases h : c = b
    · subst h
      rw [set_same] at hp ⊢
      exact (growB_know _ _).has _ (H.phiHas _ p hp)
    · rw [set_ne h] at hp ⊢; exact H.phiHas _ p hp
  · intro c
    by_cases h : c = b
    · subst h; rw [set_same]; exact H.uniq c
    · rw [set_ne h]; exact H.uniq c
  · intro c hc
    by_cases h : c = b
    · subst h; rw [set_same] at hc; exact H.dom c hc
    · rw [set_ne h] at hc; exact H.dom c hc

theorem str_push {g : Graph P} {st : PhiSt R} (H : Str g st) {b : Id} {bb : BB P} {r : R}
    (hb : g b = some bb) (hi : bb.init = some .phis) (hr : (st b).has r = false) :
    Str g (st.set b ((st b).push r)) := by
  refine ⟨?_, ?_, ?_, ?_⟩
  · intro c cb hc hi q
    by_cases h : c = b
    · subst h
      rw [set_same]
      exact (growB_push _ _).has _ (H.clean _ _ hc hi q)
    · rw [set_ne h]; exact H.clean _ _ hc hi q
  · intro c p hp
    by_cases h : c = b
    · subst h
      rw [set_same] at hp ⊢
      simp only [BlockPhis.push, List.mem_append, List.mem_singleton] at hp
      rcases hp with hp | rfl
      · exact (growB_push _ _).has _ (H.phiHas _ p hp)
      · simp [BlockPhis.push]
    · rw [set_ne h] at hp ⊢; exact H.phiHas _ p hp
  · intro c
    by_cases h : c = b
    · subst h
      rw [set_same]
      simp only [BlockPhis.push, List.map_append, List.map_cons, List.map_nil]
      rw [List.nodup_append]
      refine ⟨H.uniq c, by simp, ?_⟩
      intro x hx y hy
      simp only [List.mem_singleton] at hy
      subst hy
      rintro rfl
      obtain ⟨p, hp, rfl⟩ := List.mem_map.1 hx
      rw [H.phiHas c p hp] at hr
      cases hr
    · rw [set_ne h]; exact H.uniq c
  · intro c hc
    by_cases h : c = b
    · subst h; exact ⟨bb, hb, hi⟩
    · rw [set_ne h] at hc; exact H.dom c hc

/-- Looking up a register succeeds, makes it known, and adds nothing to blocks that know it. -/
theorem demand_ok {L : Lifter P R V M} {g : Graph P} {rank : Id → Nat} {N : Nat}
    (hf : FilesOK g rank N) (n : Nat) : ∀ {st : PhiSt R} {b : Id} (r : R), Str g st → (g b).isSome →
      rank b < n → ∃ st', demand L g n st b r = some st' ∧ Str g st' ∧
        (∀ c, GrowB (st c) (st' c)) ∧ (st' b).has r = true ∧
        (∀ c, (st c).has r = true →
          (st' c).phis = (st c).phis ∧ (st' c).pending = (st c).pending) := by
  induction n with
  | zero => intro st b r _ _ h; omega
  | succ n ih =>
    intro st b r H hb hr
    unfold demand
    by_cases hh : (st b).has r = true
    · exact ⟨st, by simp [hh], H, fun c => GrowB.refl _, hh, fun c _ => ⟨rfl, rfl⟩⟩
    · rw [if_neg hh]
      have hh : (st b).has r = false := by simpa using hh
      obtain ⟨bb, hbb⟩ := Option.isSome_iff_exists.1 hb
      have hi := hf.inited b bb hbb
      obtain ⟨ini, hini⟩ := Option.isSome_iff_exists.1 hi
      simp only [hbb, hini]
      cases ini with
      | clean => rw [H.clean _ _ hbb hini r] at hh; cases hh
      | phis =>
        refine ⟨_, rfl, str_push H hbb hini hh, ?_, ?_, ?_⟩
        · intro c
          by_cases h : c = b
          · subst h; rw [set_same]; exact growB_push _ _
          · rw [set_ne h]; exact GrowB.refl _
        · rw [set_same]; simp [BlockPhis.push]
        · intro c hc
          have h : c ≠ b := by rintro rfl; rw [hc] at hh; cases hh
          rw [set_ne h]; exact ⟨rfl, rfl⟩
      | parent p =>
        obtain ⟨hp, hlt⟩ := hf.parent b bb p hbb hini
        have key : ∃ st', (if cleanEnd L g p = true then some st else demand L g n st p r) = some st' ∧
            Str g st' ∧ (∀ c, GrowB (st c) (st' c)) ∧
            (∀ c, (st c).has r = true →
              (st' c).phis = (st c).phis ∧ (st' c).pending = (st c).pending) := by
          split
          · exact ⟨st, rfl, H, fun c => GrowB.refl _, fun c _ => ⟨rfl, rfl⟩⟩
          · obtain ⟨st', h1, h2, h3, -, h4⟩ := ih r H hp (by omega)
            exact ⟨st', h1, h2, h3, h4⟩
        obtain ⟨st', h1, h2, h3, h4⟩ := key
        simp only [h1]
        refine ⟨_, rfl, str_know h2 b r, ?_, ?_, ?_⟩
        · intro c
          by_cases h : c = b
          · subst h; rw [set_same]; exact (h3 c).trans (growB_know _ _)
          · rw [set_ne h]; exact h3 c
        · rw [set_same]; simp [BlockPhis.know]
        · intro c hc
          have h : c ≠ b := by rintro rfl; rw [hc] at hh; cases hh
          rw [set_ne h]; exact h4 c hc

/-- The register has a value at the end of the block. -/
def Avail (L : Lifter P R V M) (g : Graph P) (st : PhiSt R) (q : Id) (r : R) : Prop :=
  cleanEnd L g q = true ∨ (st q).has r = true

theorem demandEnd_ok {L : Lifter P R V M} {g : Graph P} {rank : Id → Nat} {N : Nat}
    (hf : FilesOK g rank N) {st : PhiSt R} {b : Id} (r : R) (H : Str g st) (hb : (g b).isSome) :
    ∃ st', demandEnd L g N st b r = some st' ∧ Str g st' ∧
        (∀ c, GrowB (st c) (st' c)) ∧ Avail L g st' b r ∧
        (∀ c, (st c).has r = true →
          (st' c).phis = (st c).phis ∧ (st' c).pending = (st c).pending) := by
  unfold demandEnd
  split
  next h => exact ⟨st, rfl, H, fun c => GrowB.refl _, .inl h, fun c _ => ⟨rfl, rfl⟩⟩
  · obtain ⟨st', h1, h2, h3, h4, h5⟩ := demand_ok (L := L) hf N r H hb (hf.lt b hb)
    exact ⟨st', h1, h2, h3, .inr h4, h5⟩

/-- State of the PHI nodes of a block between the steps of the loop. -/
structure Stat (L : Lifter P R V M) (g : Graph P) (st : PhiSt R) (b : Id) : Prop where
  nodup : (st b).pending.Nodup
  lt : ∀ i ∈ (st b).pending, i < (st b).phis.length
  empty : ∀ i p, (st b).phis[i]? = some p → i ∈ (st b).pending → p.incoming = []
  full : ∀ i p bb, (st b).phis[i]? = some p → i ∉ (st b).pending → g b = some bb →
    p.incoming = bb.preds ∧ ∀ q ∈ bb.preds, Avail L g st q p.reg

theorem stat_grow {L : Lifter P R V M} {g : Graph P} {st st' : PhiSt R} {b : Id} (H : Stat L g st b)
    (hg : GrowB (st b) (st' b)) (hm : ∀ c r, (st c).has r = true → (st' c).has r = true) :
    Stat L g st' b := by
  obtain ⟨rs, h1, h2⟩ := hg.new
  have hav : ∀ q r, Avail L g st q r → Avail L g st' q r := by
    rintro q r (h | h)
    · exact .inl h
    · exact .inr (hm q r h)
  refine ⟨?_, ?_, ?_, ?_⟩
  · rw [h2, List.nodup_append]
    refine ⟨H.nodup, List.nodup_range', ?_⟩
    intro x hx y hy
    have h3 := H.lt x hx
    have h4 := (List.mem_range'_1.1 hy).1
    omega
  · intro i hi
    rw [h2, List.mem_append] at hi
    rw [h1]
    simp only [List.length_append, List.length_map]
    rcases hi with hi | hi
    · have := H.lt i hi; omega
    · have := (List.mem_range'_1.1 hi).2; omega
  · intro i p hp hi
    rw [h1] at hp
    by_cases hl : i < (st b).phis.length
    · rw [List.getElem?_append_left hl] at hp
      refine H.empty i p hp ?_
      rw [h2, List.mem_append] at hi
      rcases hi with hi | hi
      · exact hi
      · have := (List.mem_range'_1.1 hi).1; omega
    · rw [List.getElem?_append_right (by omega)] at hp
      rw [List.getElem?_map] at hp
      obtain ⟨r, -, rfl⟩ := Option.map_eq_some_iff.1 hp
      rfl
  · intro i p bb hp hi hb
    have hlen : i < (st b).phis.length := by
      have h3 : i < (st' b).phis.length := by
        rcases Nat.lt_or_ge i (st' b).phis.length with h | h
        · exact h
        · rw [List.getElem?_eq_none h] at hp; cases hp
      rw [h1] at h3
      simp only [List.length_append, List.length_map] at h3
      rw [h2] at hi
      simp only [List.mem_append, List.mem_range'_1, not_or, not_and] at hi
      have := hi.2
      omega
    rw [h1, List.getElem?_append_left hlen] at hp
    have hi' : i ∉ (st b).pending := fun h => hi (by rw [h2]; exact List.mem_append_left _ h)
    obtain ⟨h5, h6⟩ := H.full i p bb hp hi' hb
    exact ⟨h5, fun q hq => hav _ _ (h6 q hq)⟩

theorem str_addIncoming {g : Graph P} {st : PhiSt R} (H : Str g st) (b : Id) (i : Nat) (q : Id) :
    Str g (st.set b ((st b).addIncoming i q)) := by
  have hreg : ((st b).addIncoming i q).phis.map PhiNode.reg = (st b).phis.map PhiNode.reg := by
    apply List.ext_getElem?
    intro j
    simp only [BlockPhis.addIncoming, List.getElem?_map, List.getElem?_modify]
    cases (st b).phis[j]? with
    | none => rfl
    | some p => simp only [Option.map_eq_map, Option.map_some]; split <;> rfl
  refine ⟨?_, ?_, ?_, ?_⟩
  · intro c cb hc hi r
    by_cases h : c = b
    · subst h; rw [set_same]; exact H.clean _ _ hc hi r
    · rw [set_ne h]; exact H.clean _ _ hc hi r
  · intro c p hp
    by_cases h : c = b
    · subst h
      rw [set_same] at hp ⊢
      have : p.reg ∈ ((st c).addIncoming i q).phis.map PhiNode.reg := List.mem_map.2 ⟨p, hp, rfl⟩
      rw [hreg] at this
      obtain ⟨p', hp', he⟩ := List.mem_map.1 this
      rw [← he]; exact H.phiHas _ p' hp'
    · rw [set_ne h] at hp ⊢; exact H.phiHas _ p hp
  · intro c
    by_cases h : c = b
    · subst h; rw [set_same, hreg]; exact H.uniq c
    · rw [set_ne h]; exact H.uniq c
  · intro c hc
    by_cases h : c = b
    · subst h
      rw [set_same] at hc
      refine H.dom c ?_
      intro h0
      apply hc
      have := congrArg List.length hreg
      simp only [List.length_map, h0, List.length_nil] at this
      exact List.length_eq_zero_iff.1 this
    · rw [set_ne h] at hc; exact H.dom c hc

/-- Filling one PHI node. -/
theorem fillPhi_ok {L : Lifter P R V M} {g : Graph P} {rank : Id → Nat} {N : Nat}
    (hf : FilesOK g rank N) {b : Id} {i : Nat} {r : R} (qs : List Id) :
    ∀ {st : PhiSt R} {phi : PhiNode R}, Str g st → (∀ q ∈ qs, (g q).isSome) →
      (st b).phis[i]? = some phi → phi.reg = r →
      ∃ st', fillPhi L g N b i r st qs = some st' ∧ Str g st' ∧ (∀ c, c ≠ b → GrowB (st c) (st' c)) ∧
        (∀ r, (st b).has r = true → (st' b).has r = true) ∧
        (st' b).pending = (st b).pending ∧
        (∀ j, (st' b).phis[j]? = (st b).phis[j]?.map (fun p =>
          if i = j then { p with incoming := p.incoming ++ qs } else p)) ∧
        (∀ q ∈ qs, Avail L g st' q r) := by
  induction qs with
  | nil =>
    intro st phi H _ _ _
    refine ⟨st, rfl, H, fun c _ => GrowB.refl _, fun _ h => h, rfl, ?_, by simp⟩
    intro j
    cases (st b).phis[j]? with
    | none => rfl
    | some p => simp
  | cons q qs ih =>
    intro st phi H hq hphi hreg
    obtain ⟨st1, h1, h2, h3, h4, h5⟩ := demandEnd_ok (L := L) hf r H (hq q (by simp))
    have hhas : (st b).has r = true := by
      rw [← hreg]; exact H.phiHas b phi (List.mem_of_getElem? hphi)
    obtain ⟨hp, hpe⟩ := h5 b hhas
    have hphi1 : ((st1.set b ((st1 b).addIncoming i q)) b).phis[i]? =
        some { phi with incoming := phi.incoming ++ [q] } := by
      rw [set_same]
      simp only [BlockPhis.addIncoming, List.getElem?_modify, hp, hphi, Option.map_eq_map, Option.map_some, if_true]
    obtain ⟨st2, k1, k2, k3, k4, k5, k6, k7⟩ := ih (str_addIncoming h2 b i q)
      (fun x hx => hq x (by simp [hx])) hphi1 hreg
    refine ⟨st2, ?_, k2, ?_, ?_, ?_, ?_, ?_⟩
    · simp only [fillPhi, h1, hpe, if_true, k1]
    · intro c hc
      have := k3 c hc
      rw [set_ne hc] at this
      exact (h3 c).trans this
    · intro x hx
      apply k4
      rw [set_same]
      exact (h3 b).has x hx
    · rw [k5, set_same]; exact hpe
    · intro j
      rw [k6, set_same]
      simp only [BlockPhis.addIncoming, List.getElem?_modify, hp]
      cases (st b).phis[j]? with
      | none => rfl
      | some p =>
        simp only [Option.map_eq_map, Option.map_some]
        split <;> simp
    · intro x hx
      simp only [List.mem_cons] at hx
      rcases hx with rfl | hx
      · rcases h4 with h | h
        · exact .inl h
        · right
          by_cases hxb : x = b
          · subst hxb
            apply k4
            rw [set_same]; exact h
          · have := k3 x hxb
            rw [set_ne hxb] at this
            exact this.has r h
      · exact k7 x hx

/-- Filling the PHI nodes of a list. -/
theorem fillList_ok {L : Lifter P R V M} {g : Graph P} {rank : Id → Nat} {N : Nat}
    (hf : FilesOK g rank N) {b : Id} {preds : List Id} (hq : ∀ q ∈ preds, (g q).isSome)
    (is : List Nat) :
    ∀ {st : PhiSt R}, Str g st → is.Nodup → (∀ i ∈ is, i < (st b).phis.length) →
      ∃ st', fillList L g N b preds st is = some st' ∧ Str g st' ∧ (∀ c, c ≠ b → GrowB (st c) (st' c)) ∧
        (∀ r, (st b).has r = true → (st' b).has r = true) ∧
        (st' b).pending = (st b).pending ∧
        (∀ j, (st' b).phis[j]? = (st b).phis[j]?.map (fun p =>
          if j ∈ is then { p with incoming := p.incoming ++ preds } else p)) ∧
        (∀ i ∈ is, ∀ p, (st b).phis[i]? = some p → ∀ q ∈ preds, Avail L g st' q p.reg) := by
  induction is with
  | nil =>
    intro st H _ _
    refine ⟨st, rfl, H, fun c _ => GrowB.refl _, fun _ h => h, rfl, ?_, by simp⟩
    intro j
    cases (st b).phis[j]? with
    | none => rfl
    | some p => simp
  | cons i is ih =>
    intro st H hnd hlt
    obtain ⟨phi, hphi⟩ : ∃ p, (st b).phis[i]? = some p :=
      ⟨_, List.getElem?_eq_getElem (hlt i (by simp))⟩
    obtain ⟨st1, h1, h2, h3, h4, h5, h6, h7⟩ := fillPhi_ok (L := L) hf preds H hq hphi rfl
    have hlen : (st1 b).phis.length = (st b).phis.length := by
      have h8 := h6 (st b).phis.length
      have h9 := h6 (st1 b).phis.length
      rw [List.getElem?_eq_none (Nat.le_refl (st b).phis.length), Option.map_none,
        List.getElem?_eq_none_iff] at h8
      rw [List.getElem?_eq_none (Nat.le_refl (st1 b).phis.length)] at h9
      have := Option.map_eq_none_iff.1 h9.symm
      rw [List.getElem?_eq_none_iff] at this
      omega
    rw [List.nodup_cons] at hnd
    obtain ⟨st2, k1, k2, k3, k4, k5, k6, k7⟩ := ih h2 hnd.2
      (fun j hj => by rw [hlen]; exact hlt j (by simp [hj]))
    refine ⟨st2, ?_, k2, ?_, ?_, ?_, ?_, ?_⟩
    · simp only [fillList, hphi, h1, k1]
    · intro c hc; exact (h3 c hc).trans (k3 c hc)
    · intro r hr; exact k4 r (h4 r hr)
    · rw [k5, h5]
    · intro j
      rw [k6, h6]
      cases hj : (st b).phis[j]? with
      | none => rfl
      | some p =>
        simp only [Option.map_some, List.mem_cons]
        by_cases hij : i = j
        · subst hij
          simp [hnd.1]
        · have : ¬ j = i := fun h => hij h.symm
          simp [hij, this]
    · intro j hj p hp q hqm
      simp only [List.mem_cons] at hj
      rcases hj with rfl | hj
      · rw [hphi] at hp; cases hp
        rcases h7 q hqm with h | h
        · exact .inl h
        · right
          by_cases hqb : q = b
          · subst hqb; exact k4 _ h
          · exact (k3 q hqb).has _ h
      · have hij : i ≠ j := by rintro rfl; exact hnd.1 hj
        have := h6 j
        rw [hp, Option.map_some, if_neg hij] at this
        exact k7 j hj p this q hqm

/-- The invariant of the loop. -/
structure PhiInv (L : Lifter P R V M) (g : Graph P) (st : PhiSt R) : Prop where
  str : Str g st
  stat : ∀ b, Stat L g st b

theorem PhiInv.pending_none {L : Lifter P R V M} {g : Graph P} {st : PhiSt R} (H : PhiInv L g st)
    {b : Id} (h : (st b).phis = []) : (st b).pending = [] := by
  apply List.eq_nil_iff_forall_not_mem.2
  intro i hi
  have := (H.stat b).lt i hi
  rw [h] at this
  simp at this

theorem fillBlock_ok {L : Lifter P R V M} {g : Graph P} {rank : Id → Nat} {N : Nat}
    (hf : FilesOK g rank N) {st : PhiSt R} (H : PhiInv L g st) (b : Id) :
    ∃ st' c, fillBlock L g N st b = some (st', c) ∧ PhiInv L g st' ∧ (st' b).pending = [] ∧
      (∀ x, (st x).phis.length ≤ (st' x).phis.length) ∧
      (c = false → st' = st) ∧
      (∀ x, (st x).pending = [] → (st' x).phis.length = (st x).phis.length → (st' x).pending = []) := by
  unfold fillBlock
  cases hb : g b with
  | none =>
    refine ⟨st, false, rfl, H, ?_, fun _ => Nat.le_refl _, fun _ => rfl, fun _ h _ => h⟩
    apply H.pending_none
    by_contra h
    obtain ⟨bb, h1, -⟩ := H.str.dom b h
    rw [hb] at h1; cases h1
  | some bb =>
    cases hp : (st b).pending with
    | nil => exact ⟨st, false, rfl, H, hp, fun _ => Nat.le_refl _, fun _ => rfl, fun _ h _ => h⟩
    | cons i is =>
      obtain ⟨st1, h1, h2, h3, h4, h5, h6, h7⟩ := fillList_ok (L := L) hf (hf.preds b bb · hb)
        (i :: is) H.str (by rw [← hp]; exact (H.stat b).nodup)
        (by rw [← hp]; exact (H.stat b).lt)
      simp only [h1]
      have hmono : ∀ c r, (st c).has r = true →
          ((st1.set b { st1 b with pending := [] }) c).has r = true := by
        intro c r hr
        by_cases hc : c = b
        · subst hc; rw [set_same]; exact h4 r hr
        · rw [set_ne hc]; exact (h3 c hc).has r hr
      have hlen : (st1 b).phis.length = (st b).phis.length := by
        have h8 := h6 (st b).phis.length
        have h9 := h6 (st1 b).phis.length
        rw [List.getElem?_eq_none (Nat.le_refl (st b).phis.length), Option.map_none,
          List.getElem?_eq_none_iff] at h8
        rw [List.getElem?_eq_none (Nat.le_refl (st1 b).phis.length)] at h9
        have := Option.map_eq_none_iff.1 h9.symm
        rw [List.getElem?_eq_none_iff] at this
        omega
      refine ⟨_, true, rfl, ⟨?_, ?_⟩, ?_, ?_, by simp, ?_⟩
      · refine ⟨?_, ?_, ?_, ?_⟩
        · intro c cb hc hi r
          by_cases h : c = b
          · subst h; rw [set_same]; exact h2.clean _ _ hc hi r
          · rw [set_ne h]; exact h2.clean _ _ hc hi r
        · intro c p hp
          by_cases h : c = b
          · subst h; rw [set_same] at hp ⊢; exact h2.phiHas _ p hp
          · rw [set_ne h] at hp ⊢; exact h2.phiHas _ p hp
        · intro c
          by_cases h : c = b
          · subst h; rw [set_same]; exact h2.uniq c
          · rw [set_ne h]; exact h2.uniq c
        · intro c hc
          by_cases h : c = b
          · subst h; rw [set_same] at hc; exact h2.dom c hc
          · rw [set_ne h] at hc; exact h2.dom c hc
      · intro c
        by_cases hc : c = b
        · subst hc
          refine ⟨by rw [set_same]; simp, by rw [set_same]; simp, by rw [set_same]; simp, ?_⟩
          intro j p cb hj _ hcb
          rw [hb] at hcb; cases hcb
          rw [set_same] at hj
          simp only at hj
          rw [h6] at hj
          obtain ⟨p0, hp0, he⟩ := Option.map_eq_some_iff.1 hj
          by_cases hm : j ∈ i :: is
          · rw [if_pos hm] at he
            subst he
            refine ⟨?_, ?_⟩
            · have := (H.stat c).empty j p0 hp0 (by rw [hp]; exact hm)
              simp [this]
            · intro q hq
              rcases h7 j hm p0 hp0 q hq with h | h
              · exact .inl h
              · right
                by_cases hqc : q = c
                · subst hqc; rw [set_same]; exact h
                · rw [set_ne hqc]; exact h
          · rw [if_neg hm] at he
            subst he
            obtain ⟨k1, k2⟩ := (H.stat c).full j p0 bb hp0 (by rw [hp]; exact hm) hb
            refine ⟨k1, ?_⟩
            intro q hq
            rcases k2 q hq with h | h
            · exact .inl h
            · exact .inr (hmono q _ h)
        · refine stat_grow (H.stat c) ?_ hmono
          rw [set_ne hc]; exact h3 c hc
      · rw [set_same]
      · intro x
        by_cases hx : x = b
        · subst hx; rw [set_same]; simp only; omega
        · rw [set_ne hx]
          obtain ⟨rs, k1, -⟩ := (h3 x hx).new
          rw [k1]; simp
      · intro x hx0 hxl
        by_cases hx : x = b
        · subst hx; rw [set_same]
        · rw [set_ne hx] at hxl ⊢
          obtain ⟨rs, k1, k2⟩ := (h3 x hx).new
          rw [k1] at hxl
          simp only [List.length_append, List.length_map] at hxl
          have : rs.length = 0 := by omega
          rw [k2, hx0, this]; rfl

theorem fillRound_ok {L : Lifter P R V M} {g : Graph P} {rank : Id → Nat} {N : Nat}
    (hf : FilesOK g rank N) (ids : List Id) : ∀ {st : PhiSt R} (ch : Bool), PhiInv L g st →
    ∃ st' c, fillRound L g N st ch ids = some (st', c) ∧ PhiInv L g st' ∧
      (∀ x, (st x).phis.length ≤ (st' x).phis.length) ∧
      (c = false → ch = false ∧ st' = st ∧ ∀ b ∈ ids, (st b).pending = []) ∧
      (∀ x, ((st x).pending = [] ∨ x ∈ ids) → (∀ y, (st' y).phis.length = (st y).phis.length) →
        (st' x).pending = []) := by
  induction ids with
  | nil =>
    intro st ch H
    refine ⟨st, ch, rfl, H, fun _ => Nat.le_refl _, fun h => ⟨h, rfl, by simp⟩, ?_⟩
    rintro x (h | h) _
    · exact h
    · cases h
  | cons b ids ih =>
    intro st ch H
    obtain ⟨st1, c1, h1, h2, h3, h4, h5, h6⟩ := fillBlock_ok hf H b
    obtain ⟨st2, c2, k1, k2, k3, k4, k5⟩ := ih (ch || c1) h2
    refine ⟨st2, c2, by simp only [fillRound, h1, k1], k2, fun x => Nat.le_trans (h4 x) (k3 x), ?_, ?_⟩
    · intro hc
      obtain ⟨l1, l2, l3⟩ := k4 hc
      simp only [Bool.or_eq_false_iff] at l1
      have := h5 l1.2
      subst this
      refine ⟨l1.1, l2, ?_⟩
      intro x hx
      simp only [List.mem_cons] at hx
      rcases hx with rfl | hx
      · exact h3
      · exact l3 x hx
    · intro x hx hl
      have e1 : ∀ y, (st1 y).phis.length = (st y).phis.length := by
        intro y; have := hl y; have := h4 y; have := k3 y; omega
      have e2 : ∀ y, (st2 y).phis.length = (st1 y).phis.length := by
        intro y; have := hl y; have := h4 y; have := k3 y; omega
      refine k5 x ?_ e2
      rcases hx with hx | hx
      · exact .inl (h6 x hx (e1 x))
      · simp only [List.mem_cons] at hx
        rcases hx with rfl | hx
        · exact .inl h3
        · exact .inr hx

theorem fillRound_done {L : Lifter P R V M} {g : Graph P} {N : Nat} (ids : List Id) :
    ∀ {st : PhiSt R} (ch : Bool), (∀ b ∈ ids, (st b).pending = []) →
      fillRound L g N st ch ids = some (st, ch) := by
  induction ids with
  | nil => intro st ch _; rfl
  | cons b ids ih =>
    intro st ch h
    have hb : fillBlock L g N st b = some (st, false) := by
      unfold fillBlock
      split
      · rfl
      · simp only [h b (by simp)]
    simp only [fillRound, hb, Bool.or_false]
    exact ih ch (fun x hx => h x (by simp [hx]))

/-- Number of PHI nodes in the blocks of a list. -/
def phiCount (ids : List Id) (st : PhiSt R) : Nat := ∑ b ∈ ids.toFinset, (st b).phis.length

theorem phiCount_le [Fintype R] {g : Graph P} {ids : List Id} {st : PhiSt R} (H : Str g st) :
    phiCount ids st ≤ ids.length * Fintype.card R := by
  unfold phiCount
  refine Nat.le_trans (Finset.sum_le_card_nsmul _ _ (Fintype.card R) ?_) ?_
  · intro b _
    have := (H.uniq b).length_le_card
    simpa using this
  · show ids.toFinset.card * Fintype.card R ≤ _
    exact Nat.mul_le_mul_right _ (List.toFinset_card_le ids)

theorem fillLoop_ok [Fintype R] {L : Lifter P R V M} {g : Graph P} {rank : Id → Nat} {N : Nat}
    (hf : FilesOK g rank N) {ids : List Id} (hids : ∀ b bb, g b = some bb → bb.init = some .phis → b ∈ ids)
    (k : Nat) : ∀ {st : PhiSt R}, PhiInv L g st →
      ids.length * Fintype.card R + 2 ≤ k + phiCount ids st →
      ∃ st', fillLoop L g N ids k st = some st' ∧ PhiInv L g st' ∧ (∀ b ∈ ids, (st' b).pending = []) := by
  induction k with
  | zero =>
    intro st H hk
    have := phiCount_le (ids := ids) H.str
    omega
  | succ k ih =>
    intro st H hk
    obtain ⟨st1, c, h1, h2, h3, h4, h5⟩ := fillRound_ok hf ids false H
    cases c with
    | false =>
      obtain ⟨-, rfl, h6⟩ := h4 rfl
      exact ⟨st1, by simp only [fillLoop, h1], h2, h6⟩
    | true =>
      by_cases hl : ∀ y, (st1 y).phis.length = (st y).phis.length
      · have h6 : ∀ b ∈ ids, (st1 b).pending = [] := fun b hb => h5 b (.inr hb) hl
        refine ⟨st1, ?_, h2, h6⟩
        cases k with
        | zero =>
          have := phiCount_le (ids := ids) H.str
          omega
        | succ k => simp only [fillLoop, h1, fillRound_done ids false h6]
      · have hlt : phiCount ids st < phiCount ids st1 := by
          have hex : ∃ y, (st1 y).phis.length ≠ (st y).phis.length := by
            by_contra hn
            exact hl (fun y => by by_contra h; exact hn ⟨y, h⟩)
          obtain ⟨y, hy⟩ := hex
          have hy' : (st y).phis.length < (st1 y).phis.length := by have := h3 y; omega
          have hym : y ∈ ids := by
            have hne : (st1 y).phis ≠ [] := by
              intro h; rw [h] at hy'; simp at hy'
            obtain ⟨bb, hbb, hi⟩ := h2.str.dom y hne
            exact hids y bb hbb hi
          exact Finset.sum_lt_sum (fun i _ => h3 i) ⟨y, List.mem_toFinset.2 hym, hy'⟩
        obtain ⟨st2, k1, k2, k3⟩ := ih h2 (by omega)
        exact ⟨st2, by simp only [fillLoop, h1, k1], k2, k3⟩

theorem phiInv_init (L : Lifter P R V M) (g : Graph P) : PhiInv L g (phiInit g : PhiSt R) := by
  refine ⟨⟨?_, ?_, ?_, ?_⟩, ?_⟩
  · intro b bb hb hi r; simp [phiInit, hb, hi]
  · intro b p hp; simp [phiInit] at hp
  · intro b; simp [phiInit]
  · intro b hb; simp [phiInit] at hb
  · intro b
    refine ⟨by simp [phiInit], by simp [phiInit], by simp [phiInit], ?_⟩
    intro i p bb hp
    simp [phiInit] at hp

/-- Accesses keep the invariant and hit no assertion. -/
theorem runAccs_ok {L : Lifter P R V M} {g : Graph P} {rank : Id → Nat} {N : Nat}
    (hf : FilesOK g rank N) (as : List (PhiAcc R)) : ∀ {st : PhiSt R}, PhiInv L g st →
      (∀ b r, PhiAcc.read b r ∈ as → (g b).isSome) →
      ∃ st', runAccs L g N st as = some st' ∧ PhiInv L g st' := by
  induction as with
  | nil => intro st H _; exact ⟨st, rfl, H⟩
  | cons a as ih =>
    intro st H hr
    cases a with
    | read b r =>
      have hb := hr b r (by simp)
      obtain ⟨st1, h1, h2, h3, -, -⟩ := demand_ok (L := L) hf N r H.str hb (hf.lt b hb)
      obtain ⟨st2, k1, k2⟩ := ih (st := st1)
        ⟨h2, fun c => stat_grow (H.stat c) (h3 c) (fun x q hq => (h3 x).has q hq)⟩
        (fun c q hc => hr c q (by simp [hc]))
      exact ⟨st2, by simp only [runAccs, h1, k1], k2⟩
    | write b r =>
      have hg : ∀ c, GrowB (st c) (st.set b ((st b).know r) c) := by
        intro c
        by_cases h : c = b
        · subst h; rw [set_same]; exact growB_know _ _
        · rw [set_ne h]; exact GrowB.refl _
      obtain ⟨st2, k1, k2⟩ := ih (st := st.set b ((st b).know r))
        ⟨str_know H.str b r, fun c => stat_grow (H.stat c) (hg c) (fun x q hq => (hg x).has q hq)⟩
        (fun c q hc => hr c q (by simp [hc]))
      exact ⟨st2, by simp only [runAccs, k1], k2⟩

/-! ### Where values come from -/

/-- Every register that is known in the register file a block starts with was loaded from the CPU
struct there, is a PHI node, was written (`W`), or comes from the end of the parent. -/
def Sourced (L : Lifter P R V M) (g : Graph P) (W : Id → R → Prop) (st : PhiSt R) : Prop :=
  ∀ b r, (st b).has r = true →
    (∃ bb, g b = some bb ∧ bb.init = some .clean) ∨ r ∈ (st b).phis.map PhiNode.reg ∨ W b r ∨
    ∃ bb p, g b = some bb ∧ bb.init = some (.parent p) ∧ Avail L g st p r

/-- What is known stays known, and has a source. -/
structure Keeps (L : Lifter P R V M) (g : Graph P) (W : Id → R → Prop) (st st' : PhiSt R) : Prop where
  mono : ∀ b r, (st b).has r = true → (st' b).has r = true
  src : Sourced L g W st → Sourced L g W st'

theorem Keeps.refl {L : Lifter P R V M} {g : Graph P} {W : Id → R → Prop} (st : PhiSt R) :
    Keeps L g W st st := ⟨fun _ _ h => h, fun h => h⟩

theorem Keeps.trans {L : Lifter P R V M} {g : Graph P} {W : Id → R → Prop} {s t u : PhiSt R}
    (h : Keeps L g W s t) (h' : Keeps L g W t u) : Keeps L g W s u :=
  ⟨fun b r hr => h'.mono b r (h.mono b r hr), fun hs => h'.src (h.src hs)⟩

theorem Avail.mono {L : Lifter P R V M} {g : Graph P} {st st' : PhiSt R}
    (h : ∀ b r, (st b).has r = true → (st' b).has r = true) {q : Id} {r : R}
    (ha : Avail L g st q r) : Avail L g st' q r :=
  ha.imp id (h q r)

/-- Changing one block: the registers known before stay known and stay PHI nodes, and every new one
has a source. -/
theorem keeps_set {L : Lifter P R V M} {g : Graph P} {W : Id → R → Prop} {st : PhiSt R} {b : Id}
    {x : BlockPhis R} (h1 : ∀ r, (st b).has r = true → x.has r = true)
    (h2 : ∀ r, r ∈ (st b).phis.map PhiNode.reg → r ∈ x.phis.map PhiNode.reg)
    (h3 : ∀ r, x.has r = true → (st b).has r = true ∨ r ∈ x.phis.map PhiNode.reg ∨ W b r ∨
      ∃ bb p, g b = some bb ∧ bb.init = some (.parent p) ∧ Avail L g st p r) :
    Keeps L g W st (st.set b x) := by
  have hm : ∀ c r, (st c).has r = true → ((st.set b x) c).has r = true := by
    intro c r hr
    by_cases hc : c = b
    · subst hc; rw [set_same]; exact h1 r hr
    · rw [set_ne hc]; exact hr
  refine ⟨hm, fun hs c r hr => ?_⟩
  have lift : ∀ c, (∃ bb p, g c = some bb ∧ bb.init = some (.parent p) ∧ Avail L g st p r) →
      ∃ bb p, g c = some bb ∧ bb.init = some (.parent p) ∧ Avail L g (st.set b x) p r := by
    rintro c ⟨bb, p, e1, e2, e3⟩
    exact ⟨bb, p, e1, e2, e3.mono hm⟩
  by_cases hc : c = b
  · subst hc
    rw [set_same] at hr ⊢
    rcases h3 r hr with h | h | h | h
    · rcases hs c r h with h | h | h | h
      · exact .inl h
      · exact .inr (.inl (h2 r h))
      · exact .inr (.inr (.inl h))
      · exact .inr (.inr (.inr (lift c h)))
    · exact .inr (.inl h)
    · exact .inr (.inr (.inl h))
    · exact .inr (.inr (.inr (lift c h)))
  · rw [set_ne hc] at hr ⊢
    rcases hs c r hr with h | h | h | h
    · exact .inl h
    · exact .inr (.inl h)
    · exact .inr (.inr (.inl h))
    · exact .inr (.inr (.inr (lift c h)))

theorem keeps_demand {L : Lifter P R V M} {g : Graph P} {W : Id → R → Prop} (n : Nat) :
    ∀ {st st' : PhiSt R} {b : Id} {r : R}, demand L g n st b r = some st' →
      Keeps L g W st st' ∧ (st' b).has r = true := by
  induction n with
  | zero => intro st st' b r h; cases h
  | succ n ih =>
    intro st st' b r h
    simp only [demand] at h
    split at h
    next hh => cases h; exact ⟨.refl _, hh⟩
    next hh =>
      cases hb : g b with
      | none => rw [hb] at h; cases h
      | some bb =>
        rw [hb] at h
        simp only at h
        cases hi : bb.init with
        | none => rw [hi] at h; cases h
        | some ini =>
          rw [hi] at h
          cases ini with
          | clean => cases h
          | parent p =>
            simp only at h
            have key : ∀ st1, (if cleanEnd L g p then some st else demand L g n st p r) = some st1 →
                Keeps L g W st st1 ∧ Avail L g st1 p r := by
              intro st1 h1
              split at h1
              next hcl => cases h1; exact ⟨.refl _, .inl hcl⟩
              next hcl => exact ⟨(ih h1).1, .inr (ih h1).2⟩
            split at h
            · cases h
            next st1 h1 =>
              cases h
              obtain ⟨k1, k2⟩ := key st1 h1
              refine ⟨k1.trans (keeps_set ?_ (fun _ h => h) ?_), by simp [set_same, BlockPhis.know]⟩
              · intro q hq; simp only [BlockPhis.know]; split <;> simp_all
              · intro q hq
                simp only [BlockPhis.know] at hq
                split at hq
                next hqr => subst hqr; exact .inr (.inr (.inr ⟨bb, p, hb, hi, k2⟩))
                · exact .inl hq
          | phis =>
            simp only [Option.some.injEq] at h
            subst h
            refine ⟨keeps_set ?_ ?_ ?_, by simp [set_same, BlockPhis.push]⟩
            · intro q hq; simp only [BlockPhis.push]; split <;> simp_all
            · intro q hq
              simp only [BlockPhis.push, List.map_append, List.mem_append]
              exact .inl hq
            · intro q hq
              simp only [BlockPhis.push] at hq
              split at hq
              next hqr =>
                subst hqr
                right; left
                simp [BlockPhis.push]
              · exact .inl hq

theorem keeps_demandEnd {L : Lifter P R V M} {g : Graph P} {W : Id → R → Prop} {n : Nat}
    {st st' : PhiSt R} {b : Id} {r : R} (h : demandEnd L g n st b r = some st') :
    Keeps L g W st st' := by
  unfold demandEnd at h
  split at h
  · cases h; exact .refl _
  · exact (keeps_demand n h).1

theorem keeps_addIncoming {L : Lifter P R V M} {g : Graph P} {W : Id → R → Prop} (st : PhiSt R)
    (b : Id) (i : Nat) (q : Id) : Keeps L g W st (st.set b ((st b).addIncoming i q)) := by
  refine keeps_set (fun _ h => h) ?_ (fun _ h => .inl h)
  intro r hr
  have : ((st b).addIncoming i q).phis.map PhiNode.reg = (st b).phis.map PhiNode.reg := by
    apply List.ext_getElem?
    intro k
    simp only [BlockPhis.addIncoming, List.getElem?_map, List.getElem?_modify]
    cases (st b).phis[k]? with
    | none => simp
    | some x => by_cases h : i = k <;> simp [h]
  rw [this]; exact hr

theorem keeps_fillPhi {L : Lifter P R V M} {g : Graph P} {W : Id → R → Prop} {n : Nat} {b : Id}
    {i : Nat} {r : R} (qs : List Id) : ∀ {st st' : PhiSt R},
      fillPhi L g n b i r st qs = some st' → Keeps L g W st st' := by
  induction qs with
  | nil => intro st st' h; cases h; exact .refl _
  | cons q qs ih =>
    intro st st' h
    simp only [fillPhi] at h
    split at h
    · cases h
    next st1 h1 =>
      split at h
      · exact (keeps_demandEnd h1).trans ((keeps_addIncoming st1 b i q).trans (ih h))
      · cases h

theorem keeps_fillList {L : Lifter P R V M} {g : Graph P} {W : Id → R → Prop} {n : Nat} {b : Id}
    {preds : List Id} (is : List Nat) : ∀ {st st' : PhiSt R},
      fillList L g n b preds st is = some st' → Keeps L g W st st' := by
  induction is with
  | nil => intro st st' h; cases h; exact .refl _
  | cons i is ih =>
    intro st st' h
    simp only [fillList] at h
    split at h
    · cases h
    · split at h
      · cases h
      next st1 h1 => exact (keeps_fillPhi _ h1).trans (ih h)

theorem keeps_fillBlock {L : Lifter P R V M} {g : Graph P} {W : Id → R → Prop} {n : Nat}
    {st st' : PhiSt R} {b : Id} {c : Bool} (h : fillBlock L g n st b = some (st', c)) :
    Keeps L g W st st' := by
  unfold fillBlock at h
  split at h
  · cases h; exact .refl _
  · split at h
    · cases h; exact .refl _
    · split at h
      · cases h
      next st1 h1 =>
        cases h
        exact (keeps_fillList _ h1).trans (keeps_set (fun _ h => h) (fun _ h => h) (fun _ h => .inl h))

theorem keeps_fillRound {L : Lifter P R V M} {g : Graph P} {W : Id → R → Prop} {n : Nat}
    (bs : List Id) : ∀ {st st' : PhiSt R} {ch c : Bool},
      fillRound L g n st ch bs = some (st', c) → Keeps L g W st st' := by
  induction bs with
  | nil => intro st st' ch c h; cases h; exact .refl _
  | cons b bs ih =>
    intro st st' ch c h
    simp only [fillRound] at h
    split at h
    · cases h
    next st1 c1 h1 => exact (keeps_fillBlock h1).trans (ih h)

theorem keeps_fillLoop {L : Lifter P R V M} {g : Graph P} {W : Id → R → Prop} {n : Nat}
    {ids : List Id} (k : Nat) : ∀ {st st' : PhiSt R},
      fillLoop L g n ids k st = some st' → Keeps L g W st st' := by
  induction k with
  | zero => intro st st' h; cases h
  | succ k ih =>
    intro st st' h
    simp only [fillLoop] at h
    split at h
    · cases h
    next st1 h1 => exact (keeps_fillRound _ h1).trans (ih h)
    next st1 h1 => cases h; exact keeps_fillRound _ h1

theorem keeps_runAccs {L : Lifter P R V M} {g : Graph P} {W : Id → R → Prop} {n : Nat}
    (as : List (PhiAcc R)) (hW : ∀ b r, PhiAcc.write b r ∈ as → W b r) : ∀ {st st' : PhiSt R},
      runAccs L g n st as = some st' →
      Keeps L g W st st' ∧ ∀ b r, PhiAcc.read b r ∈ as → (st' b).has r = true := by
  induction as with
  | nil => intro st st' h; cases h; exact ⟨.refl _, by intro b r h; cases h⟩
  | cons a as ih =>
    intro st st' h
    have ih := @ih (fun b r hm => hW b r (List.mem_cons_of_mem _ hm))
    cases a with
    | read b r =>
      simp only [runAccs] at h
      split at h
      · cases h
      next st1 h1 =>
        obtain ⟨k1, k2⟩ := keeps_demand (W := W) n h1
        obtain ⟨k3, k4⟩ := @ih _ _ h
        refine ⟨k1.trans k3, ?_⟩
        intro b' r' hm
        rcases List.mem_cons.1 hm with hm | hm
        · cases hm; exact k3.mono _ _ k2
        · exact k4 b' r' hm
    | write b r =>
      simp only [runAccs] at h
      obtain ⟨k3, k4⟩ := @ih _ _ h
      refine ⟨(keeps_set (b := b) (x := (st b).know r) ?_ (fun _ h => h) ?_).trans k3, ?_⟩
      · intro q hq; simp only [BlockPhis.know]; split <;> simp_all
      · intro q hq
        simp only [BlockPhis.know] at hq
        split at hq
        next hqr => subst hqr; exact .inr (.inr (.inl (hW b q List.mem_cons_self)))
        · exact .inl hq
      · intro b' r' hm
        rcases List.mem_cons.1 hm with hm | hm
        · cases hm
        · exact k4 b' r' hm

theorem sourced_init (L : Lifter P R V M) (g : Graph P) (W : Id → R → Prop) :
    Sourced L g W (phiInit g : PhiSt R) := by
  intro b r hr
  left
  simp only [phiInit] at hr
  cases hb : g b with
  | none => rw [hb] at hr; cases hr
  | some bb => rw [hb] at hr; exact ⟨bb, rfl, by simpa using hr⟩

end Verif.Lift
