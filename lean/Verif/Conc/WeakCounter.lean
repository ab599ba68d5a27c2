import Verif.Conc.WeakCritical
import Verif.Conc.WeakArch

/-! C63, a counter that is protected by a lock, in executions that are not interleavings. -/

namespace Verif.Conc

open Verif.IR

variable {ι : Type}

/-- A load and a store of 8 bytes that are not atomic. -/
abbrev load8 (t : ι) (addr : Addr) (old : Val 64) : Ev ι :=
  { thread := t, isFence := false, ord := .notAtomic, addr, n := 8, old, new := none, reads := true }

abbrev store8 (t : ι) (addr : Addr) (old new : Val 64) : Ev ι :=
  { thread := t, isFence := false, ord := .notAtomic, addr, n := 8, old, new := some new, reads := false }

namespace Exec

variable {X : Exec ι} {mem : VMem} {a b : BitVec 64}

/-- What a thread does that takes the lock at `b`, adds `d` to the counter at `a` without atomic accesses, and gives the lock back: the
events at the positions before `n` are exchanges that do not find 0. -/
structure Adds (X : Exec ι) (a b : BitVec 64) (t : ι) (n : Nat) (v : Val 64) (d : BitVec 64) : Prop where
  fails : ∀ m, m < n → ∃ o old new, o ≠ .notAtomic ∧ old ≠ some 0#64 ∧ new ≠ some 0#64 ∧ X.at? (t, m) = some (swap8 t o b old new)
  takes : ∃ o new, o ≠ .notAtomic ∧ o.acq ∧ new ≠ some 0#64 ∧ X.at? (t, n) = some (swap8 t o b (some 0#64) new)
  reads : X.at? (t, n + 1) = some (load8 t a v)
  writes : ∃ old, X.at? (t, n + 2) = some (store8 t a old (IR.add v (some d)))
  gives : ∃ o old, o ≠ .notAtomic ∧ o.rel ∧ X.at? (t, n + 3) = some (swap8 t o b old (some 0#64))
  ends : X.at? (t, n + 4) = none

variable {n : ι → Nat} {v : ι → Val 64} {d : ι → BitVec 64}

theorem adds_at (hA : ∀ t, X.Adds a b t (n t) (v t) (d t)) {k : ι × Nat} {g : Ev ι} (hk : X.at? k = some g) :
    (k.2 < n k.1 ∧ ∃ o old new, o ≠ .notAtomic ∧ old ≠ some 0#64 ∧ new ≠ some 0#64 ∧ g = swap8 k.1 o b old new) ∨
    (k.2 = n k.1 ∧ ∃ o new, o ≠ .notAtomic ∧ o.acq ∧ new ≠ some 0#64 ∧ g = swap8 k.1 o b (some 0#64) new) ∨
    (k.2 = n k.1 + 1 ∧ g = load8 k.1 a (v k.1)) ∨
    (k.2 = n k.1 + 2 ∧ ∃ old, g = store8 k.1 a old (IR.add (v k.1) (some (d k.1)))) ∨
    (k.2 = n k.1 + 3 ∧ ∃ o old, o ≠ .notAtomic ∧ o.rel ∧ g = swap8 k.1 o b old (some 0#64)) := by
  obtain ⟨t, m⟩ := k
  have h := hA t
  dsimp only
  by_cases h0 : m < n t
  · obtain ⟨o, old, new, h1, h2, h3, h4⟩ := h.fails m h0
    rw [hk] at h4
    exact .inl ⟨h0, o, old, new, h1, h2, h3, Option.some.inj h4⟩
  · have hlt : m < n t + 4 := by
      refine Nat.lt_of_not_le fun hle => ?_
      have h1 : (X.ev t)[n t + 4]? = none := h.ends
      have h2 : (X.ev t)[m]? = some g := hk
      have := (List.getElem?_eq_some_iff.1 h2).1
      have := List.getElem?_eq_none_iff.1 h1
      omega
    have : m = n t ∨ m = n t + 1 ∨ m = n t + 2 ∨ m = n t + 3 := by omega
    rcases this with rfl | rfl | rfl | rfl
    · obtain ⟨o, new, h1, h2, h3, h4⟩ := h.takes
      rw [hk] at h4
      exact .inr (.inl ⟨rfl, o, new, h1, h2, h3, Option.some.inj h4⟩)
    · exact .inr (.inr (.inl ⟨rfl, Option.some.inj (hk.symm.trans h.reads)⟩))
    · obtain ⟨old, h4⟩ := h.writes
      exact .inr (.inr (.inr (.inl ⟨rfl, old, Option.some.inj (hk.symm.trans h4)⟩)))
    · obtain ⟨o, old, h1, h2, h4⟩ := h.gives
      exact .inr (.inr (.inr (.inr ⟨rfl, o, old, h1, h2, Option.some.inj (hk.symm.trans h4)⟩)))

theorem adds_takes (hA : ∀ t, X.Adds a b t (n t) (v t) (d t)) (t : ι) : X.Takes b (t, n t) := by
  obtain ⟨o, new, h1, h2, h3, h4⟩ := (hA t).takes
  exact ⟨t, o, new, h1, h2, h3, h4⟩

theorem adds_ends (hA : ∀ t, X.Adds a b t (n t) (v t) (d t)) (hab : a ≠ b) (t : ι) : X.EndsSection b (t, n t) (t, n t + 3) := by
  obtain ⟨o, old, h1, h2, h3⟩ := (hA t).gives
  refine ⟨⟨rfl, by simp, _, h3, trivial⟩, ⟨t, o, old, h1, h2, h3⟩, ?_⟩
  rintro ⟨t', m⟩ ⟨ht, hm, -⟩ ⟨-, hm', -⟩ ⟨_, _, _, -, -, hg⟩
  dsimp only at ht hm hm'
  subst ht
  have : m = n t + 1 ∨ m = n t + 2 := by omega
  rcases this with rfl | rfl
  · rw [(hA t).reads] at hg
    cases hg
  · obtain ⟨_, hw⟩ := (hA t).writes
    rw [hw] at hg
    simp only [Option.some.injEq, Ev.mk.injEq] at hg
    exact hab hg.2.2.2.1

theorem adds_usesLock (hX : X.Consistent mem) (hA : ∀ t, X.Adds a b t (n t) (v t) (d t)) (hab : a ≠ b) : X.UsesLock b := by
  refine ⟨fun k g hk hb => ?_, fun k t o new hk hn => ?_, fun k t o old hk => ?_⟩
  · have hdata : ¬ g.isFence = true → g.addr = a → False := by
      intro hf ha
      obtain ⟨o, new, -, -, -, h4⟩ := (hA k.1).takes
      rcases hX.uniform k _ g _ hk h4 (by simpa using hf) rfl with ⟨e, f, he, hf, -, -, h, -⟩ | h
      · rw [hk] at he
        rw [h4] at hf
        cases he
        cases hf
        exact hab (ha.symm.trans h)
      · obtain ⟨c, hc, hc'⟩ := hb
        exact h c ⟨hc, hc'⟩
    rcases adds_at hA hk with ⟨-, o, old, new, h1, -, -, rfl⟩ | ⟨-, o, new, h1, -, -, rfl⟩ | ⟨-, rfl⟩ | ⟨-, old, rfl⟩ |
      ⟨-, o, old, h1, -, rfl⟩
    · exact ⟨_, _, _, _, h1, rfl⟩
    · exact ⟨_, _, _, _, h1, rfl⟩
    · exact absurd rfl (hdata (by simp))
    · exact absurd rfl (hdata (by simp))
    · exact ⟨_, _, _, _, h1, rfl⟩
  · rcases adds_at hA hk with ⟨-, o, old, new, -, h1, -, h⟩ | ⟨-, o, new, -, h1, -, h⟩ | ⟨-, h⟩ | ⟨-, old, h⟩ | ⟨-, o, old, -, -, h⟩
    · cases h
      exact absurd rfl h1
    · cases h
      exact h1
    · simp only [Ev.mk.injEq] at h
      exact absurd h.2.2.2.1.symm hab
    · simp only [Ev.mk.injEq] at h
      exact absurd h.2.2.2.1.symm hab
    · cases h
      exact absurd rfl hn
  · rcases adds_at hA hk with ⟨-, o, old, new, -, -, h1, h⟩ | ⟨-, o, new, -, -, h1, h⟩ | ⟨-, h⟩ | ⟨-, old, h⟩ | ⟨hk2, o, old, -, h1, h⟩
    · cases h
      exact absurd rfl h1
    · cases h
      exact absurd rfl h1
    · cases h
    · simp only [Ev.mk.injEq] at h
      exact absurd h.2.2.2.1.symm hab
    · cases h
      refine ⟨h1, (k.1, n k.1), adds_takes hA k.1, ?_⟩
      have := adds_ends hA hab k.1
      rwa [← hk2] at this

/-- The section of `t` is before that of `u`. -/
def earlier (X : Exec ι) (n : ι → Nat) (t u : ι) : Prop := X.hb (t, n t + 3) (u, n u)

theorem adds_po (hA : ∀ t, X.Adds a b t (n t) (v t) (d t)) (t : ι) {i j : Nat} (hij : i < j) (hj : j ≤ n t + 3) : X.po (t, i) (t, j) := by
  obtain ⟨_, _, -, -, h⟩ := (hA t).gives
  have : n t + 3 < (X.ev t).length := (List.getElem?_eq_some_iff.1 (show (X.ev t)[n t + 3]? = _ from h)).1
  have h2 : j < (X.ev t).length := by omega
  exact ⟨rfl, hij, _, List.getElem?_eq_getElem h2, trivial⟩

theorem adds_trans (hA : ∀ t, X.Adds a b t (n t) (v t) (d t)) (t u s : ι) (h1 : X.earlier n t u) (h2 : X.earlier n u s) : X.earlier n t s :=
  .trans h1 (.trans (.po (adds_po hA u (by omega) (Nat.le_refl _))) h2)

theorem adds_irrefl (hX : X.Consistent mem) (hA : ∀ t, X.Adds a b t (n t) (v t) (d t)) (t : ι) : ¬ X.earlier n t t :=
  fun h => (hX.acyclic _).1 (.trans h (.po (adds_po hA t (i := n t) (j := n t + 3) (by omega) (Nat.le_refl _))))

/-- What is done in the earlier section happens before what is done in the later one. -/
theorem adds_hb (hA : ∀ t, X.Adds a b t (n t) (v t) (d t)) {t u : ι} (h : X.earlier n t u) {i j : Nat} (hi : i < n t + 3) (hj : n u < j)
    (hj' : j ≤ n u + 3) : X.hb (t, i) (u, j) :=
  .trans (.po (adds_po hA t hi (Nat.le_refl _))) (.trans h (.po (adds_po hA u hj hj')))

theorem adds_total (hX : X.Consistent mem) (hA : ∀ t, X.Adds a b t (n t) (v t) (d t)) (hab : a ≠ b) (all : List ι) (hall : ∀ t, t ∈ all)
    (t u : ι) (hne : t ≠ u) : X.earlier n t u ∨ X.earlier n u t := by
  rcases C63_weak_critical_sections hX (adds_usesLock hX hA hab) all (fun t _ => hall t) (adds_takes hA t) (adds_takes hA u)
      (fun h => hne (congrArg Prod.fst h)) with ⟨k, hk, h⟩ | ⟨k, hk, h⟩
  · rw [hk.unique (adds_ends hA hab t)] at h
    exact .inl h
  · rw [hk.unique (adds_ends hA hab u)] at h
    exact .inr h

/-- The writes of the counter. -/
theorem adds_write (hA : ∀ t, X.Adds a b t (n t) (v t) (d t)) (hab : a ≠ b) {w : ι × Nat} (hw : X.isWrite w) {e : Ev ι}
    (he : X.at? w = some e) (ha : e.addr = a) : w.2 = n w.1 + 2 ∧ e.n = 8 ∧ HEq e.new (some (IR.add (v w.1) (some (d w.1)))) := by
  obtain ⟨e', he', -, hn⟩ := hw
  rw [he] at he'
  cases he'
  rcases adds_at hA he with ⟨-, o, old, new, -, h1, -, rfl⟩ | ⟨-, o, new, -, h1, -, rfl⟩ | ⟨-, rfl⟩ | ⟨h, old, rfl⟩ | ⟨-, o, old, -, -, rfl⟩
  · exact absurd ha.symm hab
  · exact absurd ha.symm hab
  · cases hn
  · exact ⟨h, rfl, .rfl⟩
  · exact absurd ha.symm hab

theorem adds_same (hA : ∀ t, X.Adds a b t (n t) (v t) (d t)) (t u : ι) : X.same (t, n t + 2) (u, n u + 1) := by
  obtain ⟨_, h⟩ := (hA t).writes
  exact ⟨_, _, h, (hA u).reads, rfl, rfl, rfl, rfl⟩

theorem adds_isWrite (hA : ∀ t, X.Adds a b t (n t) (v t) (d t)) (t : ι) : X.isWrite (t, n t + 2) := by
  obtain ⟨_, h⟩ := (hA t).writes
  exact ⟨_, h, rfl, rfl⟩

theorem adds_writers (hA : ∀ t, X.Adds a b t (n t) (v t) (d t)) (hab : a ≠ b) {w : ι × Nat} (hw : X.isWrite w) {u : ι}
    (hs : X.same w (u, n u + 1)) : w = (w.1, n w.1 + 2) := by
  obtain ⟨e, f, he, hf, -, -, h, -⟩ := hs
  rw [(hA u).reads] at hf
  cases hf
  exact Prod.ext rfl (adds_write hA hab hw he h).1

/-- A section that has one right before it finds what that one has written. -/
theorem adds_next (hX : X.Consistent mem) (hA : ∀ t, X.Adds a b t (n t) (v t) (d t)) (hab : a ≠ b) (all : List ι) (hall : ∀ t, t ∈ all)
    {p u : ι} (hpu : X.earlier n p u) (hmax : ∀ t, X.earlier n t u → t = p ∨ X.earlier n t p) : v u = IR.add (v p) (some (d p)) := by
  have hrd : X.isRead (u, n u + 1) := ⟨_, (hA u).reads, rfl, rfl⟩
  have key : ∀ w, X.maySee (u, n u + 1) w → w = some (p, n p + 2) := by
    intro w hw
    cases w with
    | none => exact absurd (adds_hb hA hpu (by omega) (by omega) (by omega)) (hw _ (adds_isWrite hA p) (adds_same hA p u))
    | some w =>
      obtain ⟨h1, h2, h3, h4, h5⟩ := hw
      obtain ⟨t, m⟩ := w
      have hm := adds_writers hA hab h1 h2
      simp only [Prod.mk.injEq, true_and] at hm
      subst hm
      by_cases htu : t = u
      · subst htu
        exact absurd (.po (adds_po hA t (by omega) (by omega))) h4
      · rcases adds_total hX hA hab all hall t u htu with h | h
        · rcases hmax t h with rfl | h'
          · rfl
          · exact absurd (adds_hb hA hpu (by omega) (by omega) (by omega))
              (h5 (p, n p + 2) (adds_isWrite hA p) (adds_same hA p u) (adds_hb hA h' (by omega) (by omega) (by omega)))
        · exact absurd (adds_hb hA h (by omega) (by omega) (by omega)) h4
  have h1 := key _ (hX.sees _ hrd)
  have hv := hX.value _ _ (hA u).reads hrd (.inr fun w hw => by rw [key w hw, h1])
  obtain ⟨_, hw⟩ := (hA p).writes
  rw [h1] at hv
  simp only [Exec.value, hw, Option.bind_some] at hv
  exact (Option.some.inj hv).symm

/-- The first section finds the first value of the counter. -/
theorem adds_first (hX : X.Consistent mem) (hA : ∀ t, X.Adds a b t (n t) (v t) (d t)) (hab : a ≠ b) (all : List ι) (hall : ∀ t, t ∈ all)
    {u : ι} (hmin : ∀ t, ¬ X.earlier n t u) : v u = mem.read a 8 := by
  have hrd : X.isRead (u, n u + 1) := ⟨_, (hA u).reads, rfl, rfl⟩
  have key : ∀ w, X.maySee (u, n u + 1) w → w = none := by
    intro w hw
    cases w with
    | none => rfl
    | some w =>
      obtain ⟨h1, h2, h3, h4, h5⟩ := hw
      obtain ⟨t, m⟩ := w
      have hm := adds_writers hA hab h1 h2
      simp only [Prod.mk.injEq, true_and] at hm
      subst hm
      by_cases htu : t = u
      · subst htu
        exact absurd (.po (adds_po hA t (by omega) (by omega))) h4
      · rcases adds_total hX hA hab all hall t u htu with h | h
        · exact absurd h (hmin t)
        · exact absurd (adds_hb hA h (by omega) (by omega) (by omega)) h4
  have h1 := key _ (hX.sees _ hrd)
  have hv := hX.value _ _ (hA u).reads hrd (.inr fun w hw => by rw [key w hw, h1])
  rw [h1] at hv
  exact (Option.some.inj hv).symm

end Exec

open Classical in
/-- What a thread finds: the sum of what the threads before it have added. -/
theorem Exec.adds_found {N : Nat} {X : Exec (Fin N)} {mem : VMem} {a b c : BitVec 64} {n : Fin N → Nat} {v : Fin N → Val 64}
    {d : Fin N → BitVec 64} (hX : X.Consistent mem) (hA : ∀ t, X.Adds a b t (n t) (v t) (d t)) (hab : a ≠ b)
    (hmem : mem.read a 8 = some c) (u : Fin N) :
    v u = some (c + ∑ t ∈ Finset.univ.filter (fun t => X.earlier n t u), d t) := by
  generalize hk : (Finset.univ.filter (fun t => X.earlier n t u)).card = k
  induction k using Nat.strongRecOn generalizing u with
  | ind k ih =>
    subst hk
    by_cases h : ∃ t, X.earlier n t u
    · obtain ⟨t, ht⟩ := h
      obtain ⟨p, -, hp, hmax⟩ := exists_max (X.earlier n) (adds_trans hA) (adds_irrefl hX hA) (fun t => X.earlier n t u) (List.finRange N)
        ⟨t, List.mem_finRange t, ht⟩
      have hmax' : ∀ t, X.earlier n t u → t = p ∨ X.earlier n t p := by
        intro t ht
        by_cases htp : t = p
        · exact .inl htp
        · rcases adds_total hX hA hab _ List.mem_finRange t p htp with h | h
          · exact .inr h
          · exact absurd h (hmax t (List.mem_finRange t) ht)
      have hset : Finset.univ.filter (fun t => X.earlier n t u) = insert p (Finset.univ.filter (fun t => X.earlier n t p)) := by
        ext t
        simp only [Finset.mem_filter, Finset.mem_univ, true_and, Finset.mem_insert]
        refine ⟨hmax' t, ?_⟩
        rintro (rfl | h)
        · exact hp
        · exact adds_trans hA _ _ _ h hp
      have hni : p ∉ Finset.univ.filter (fun t => X.earlier n t p) := by
        simp only [Finset.mem_filter, Finset.mem_univ, true_and]
        exact adds_irrefl hX hA p
      rw [adds_next hX hA hab _ List.mem_finRange hp hmax', ih _ (by rw [hset, Finset.card_insert_of_notMem hni]; omega) p rfl, hset,
        Finset.sum_insert hni]
      simp only [IR.add, bin, Option.some.injEq]
      rw [add_assoc, add_comm (d p)]
    · have hempty : Finset.univ.filter (fun t => X.earlier n t u) = ∅ := by
        ext t
        simp only [Finset.mem_filter, Finset.mem_univ, true_and, Finset.notMem_empty, iff_false]
        exact fun ht => h ⟨t, ht⟩
      rw [adds_first hX hA hab _ List.mem_finRange (fun t ht => h ⟨t, ht⟩), hempty, Finset.sum_empty, hmem, add_zero]

/-- C63, a counter with a lock: each of `N` threads takes the lock, perhaps after unsuccessful attempts, reads the counter, writes it
without atomic accesses, and gives the lock back.  In every execution that LLVM allows, no update is lost: the counter has a last write, and this writes the first value and the
sum of the values that are added. -/
theorem Exec.C63_weak_locked_counter {N : Nat} {X : Exec (Fin N)} {mem : VMem} {a b c : BitVec 64} {n : Fin N → Nat} {v : Fin N → Val 64}
    {d : Fin N → BitVec 64} (hX : X.Consistent mem) (hA : ∀ t, X.Adds a b t (n t) (v t) (d t)) (hab : a ≠ b)
    (hmem : mem.read a 8 = some c) :
    (0 < N → ∃ w e, X.last w ∧ X.at? w = some e ∧ e.addr = a) ∧
    ∀ w e, X.last w → X.at? w = some e → e.addr = a → ∃ hn : e.n = 8, e.new = some (some ((c + ∑ t, d t).cast (by rw [hn]))) := by
  classical
  refine ⟨fun hN => ?_, fun w e hw he ha => ?_⟩
  · obtain ⟨p, -, -, hmax⟩ := exists_max (X.earlier n) (adds_trans hA) (adds_irrefl hX hA) (fun _ => True) (List.finRange N)
      ⟨⟨0, hN⟩, List.mem_finRange _, trivial⟩
    obtain ⟨old, hp⟩ := (hA p).writes
    refine ⟨(p, n p + 2), _, ⟨adds_isWrite hA p, fun i hi hs hne => ?_⟩, hp, rfl⟩
    obtain ⟨e, f, he, hf, -, -, h, -⟩ := hs
    rw [hp] at hf
    cases hf
    have hi2 : i = (i.1, n i.1 + 2) := Prod.ext rfl (adds_write hA hab hi he h).1
    have hip : i.1 ≠ p := fun h => hne (by rw [hi2, h])
    rcases adds_total hX hA hab _ List.mem_finRange i.1 p hip with h | h
    · rw [hi2]
      exact .inl (adds_hb hA h (by omega) (by omega) (by omega))
    · exact absurd h (hmax i.1 (List.mem_finRange _) trivial)
  obtain ⟨hw2, hn, hnew⟩ := adds_write hA hab hw.1 he ha
  refine ⟨hn, ?_⟩
  have hall : ∀ t, t ≠ w.1 → X.earlier n t w.1 := by
    intro t ht
    rcases adds_total hX hA hab _ List.mem_finRange t w.1 ht with h | h
    · exact h
    · have hww : w = (w.1, n w.1 + 2) := Prod.ext rfl hw2
      have hb := adds_hb hA h (i := n w.1 + 2) (j := n t + 2) (by omega) (by omega) (by omega)
      rw [← hww] at hb
      obtain ⟨_, hte⟩ := (hA t).writes
      obtain ⟨e', he', hf', -⟩ := hw.1
      rw [he] at he'
      cases he'
      rcases hw.2 (t, n t + 2) (adds_isWrite hA t) ⟨_, _, hte, he, rfl, hf', ha.symm, hn.symm⟩ (fun h => ht (congrArg Prod.fst h)) with h' | h'
      · exact absurd (.trans hb h') (hX.acyclic w).1
      · obtain ⟨⟨e'', he'', -, hna⟩, -⟩ := h'
        rw [hte] at he''
        cases he''
        exact absurd rfl hna
  have hset : Finset.univ.filter (fun t => X.earlier n t w.1) = Finset.univ.erase w.1 := by
    ext t
    simp only [Finset.mem_filter, Finset.mem_univ, true_and, Finset.mem_erase, and_true]
    exact ⟨fun h h' => adds_irrefl hX hA w.1 (h' ▸ h), hall t⟩
  rw [adds_found hX hA hab hmem w.1, hset] at hnew
  simp only [IR.add, bin] at hnew
  rw [add_assoc, Finset.sum_erase_add _ _ (Finset.mem_univ w.1)] at hnew
  obtain ⟨et, eF, eo, ea, en, eold, enew, er⟩ := e
  simp only at hn
  subst hn
  exact eq_of_heq hnew

end Verif.Conc
