import Verif.Conc.WeakLock

/-! C63, critical sections in executions that are not interleavings: a lock that is taken with an exchange with acquire ordering and given
back with an exchange with release ordering orders what is done in between. -/

namespace Verif.Conc

open Verif.IR

variable {ι : Type}

namespace Exec

variable (X : Exec ι) (a : BitVec 64)

/-- The lock is taken: an exchange with acquire ordering finds 0 and writes something else. -/
def Takes (i : ι × Nat) : Prop := ∃ t o new, o ≠ .notAtomic ∧ o.acq ∧ new ≠ some 0#64 ∧ X.at? i = some (swap8 t o a (some 0#64) new)

/-- The lock is given back: an exchange with release ordering writes 0. -/
def Gives (u : ι × Nat) : Prop := ∃ t o old, o ≠ .notAtomic ∧ o.rel ∧ X.at? u = some (swap8 t o a old (some 0#64))

/-- `u` is the first exchange after `i` in the same thread that gives the lock back. -/
def EndsSection (i u : ι × Nat) : Prop := X.po i u ∧ X.Gives a u ∧ ∀ k, X.po i k → X.po k u → ¬ X.Gives a k

/-- How a lock is to be used: the lock is accessed with atomic exchanges only; those that find 0 and write something else have acquire
ordering; those that write 0 have release ordering, and are done by a thread that has taken the lock and has not given it back. -/
structure UsesLock : Prop where
  swap : ∀ k g, X.at? k = some g → (∃ b, g.hits b ∧ (b - a).toNat < 8) → ∃ t o old new, o ≠ .notAtomic ∧ g = swap8 t o a old new
  takes : ∀ k t o new, X.at? k = some (swap8 t o a (some 0#64) new) → new ≠ some 0#64 → o.acq
  gives : ∀ k t o old, X.at? k = some (swap8 t o a old (some 0#64)) → o.rel ∧ ∃ i, X.Takes a i ∧ X.EndsSection a i k

end Exec

theorem countP_lt {α : Type} (p q : α → Bool) (l : List α) (h : ∀ x, p x = true → q x = true) (x : α) (hx : x ∈ l) (hq : q x = true)
    (hp : p x = false) : l.countP p < l.countP q := by
  induction l with
  | nil => cases hx
  | cons y l ih =>
    have hle : l.countP p ≤ l.countP q := List.countP_mono_left fun x _ => h x
    rw [List.countP_cons, List.countP_cons]
    rcases List.mem_cons.1 hx with rfl | hx
    · simp only [hq, hp, if_true]
      simp
      omega
    · have := ih hx
      by_cases hy : p y = true
      · simp only [hy, h y hy, if_true]
        omega
      · simp only [hy]
        simp only [Bool.false_eq_true, if_false]
        omega

namespace Exec

variable {X : Exec ι} {mem : VMem} {a : BitVec 64}

/-- An access of the lock. -/
def OfLock (X : Exec ι) (a : BitVec 64) (k : ι × Nat) : Prop := ∃ t o old new, o ≠ .notAtomic ∧ X.at? k = some (swap8 t o a old new)

theorem OfLock.same {k l : ι × Nat} (hk : X.OfLock a k) (hl : X.OfLock a l) : X.same k l := by
  obtain ⟨t, o, old, new, -, hk⟩ := hk
  obtain ⟨t', o', old', new', -, hl⟩ := hl
  exact ⟨_, _, hk, hl, rfl, rfl, rfl, rfl⟩

theorem OfLock.atomic {k : ι × Nat} (hk : X.OfLock a k) : X.has k Ev.atomic := by
  obtain ⟨t, o, old, new, ho, hk⟩ := hk
  exact ⟨_, hk, rfl, ho⟩

theorem OfLock.isRead {k : ι × Nat} (hk : X.OfLock a k) : X.isRead k := by
  obtain ⟨t, o, old, new, -, hk⟩ := hk
  exact ⟨_, hk, rfl, rfl⟩

theorem OfLock.isWrite {k : ι × Nat} (hk : X.OfLock a k) : X.isWrite k := by
  obtain ⟨t, o, old, new, -, hk⟩ := hk
  exact ⟨_, hk, rfl, rfl⟩

theorem Takes.ofLock {k : ι × Nat} (h : X.Takes a k) : X.OfLock a k := by
  obtain ⟨t, o, new, ho, -, -, h⟩ := h
  exact ⟨_, _, _, _, ho, h⟩

theorem Gives.ofLock {k : ι × Nat} (h : X.Gives a k) : X.OfLock a k := by
  obtain ⟨t, o, old, ho, -, h⟩ := h
  exact ⟨_, _, _, _, ho, h⟩

theorem lock_irrefl (hX : X.Consistent mem) {k : ι × Nat} (hk : X.OfLock a k) : ¬ X.mo k k :=
  fun h => (hX.acyclic k).2 hk.atomic (.mo hk.isWrite hk.isWrite (hk.same hk) h)

theorem lock_trans (hX : X.Consistent mem) {i j k : ι × Nat} (hi : X.OfLock a i) (hj : X.OfLock a j) (hk : X.OfLock a k)
    (h1 : X.mo i j) (h2 : X.mo j k) : X.mo i k := by
  have he : X.eco i k := .trans (.mo hi.isWrite hj.isWrite (hi.same hj) h1) (.mo hj.isWrite hk.isWrite (hj.same hk) h2)
  rcases hX.total i k hi.isWrite hk.isWrite (hi.same hk) hi.atomic hk.atomic with rfl | h | h
  · exact absurd he ((hX.acyclic i).2 hi.atomic)
  · exact h
  · exact absurd (.trans he (.mo hk.isWrite hi.isWrite (hk.same hi) h)) ((hX.acyclic i).2 hi.atomic)

/-- Program order and modification order agree. -/
theorem lock_po (hX : X.Consistent mem) {i j : ι × Nat} (hi : X.OfLock a i) (hj : X.OfLock a j) (h : X.po i j) : X.mo i j := by
  rcases hX.total i j hi.isWrite hj.isWrite (hi.same hj) hi.atomic hj.atomic with rfl | h' | h'
  · exact absurd h.2.1 (Nat.lt_irrefl _)
  · exact h'
  · exact absurd (.mo hj.isWrite hi.isWrite (hj.same hi) h') (hX.coherent i j hi.atomic hj.atomic (.po h))

/-- Who writes the bytes of the lock. -/
theorem ofLock_of_same (hl : X.UsesLock a) {k l : ι × Nat} (hk : X.OfLock a k) (hs : X.same l k) : X.OfLock a l := by
  obtain ⟨e, f, he, hf, h1, h2, h3, h4⟩ := hs
  obtain ⟨t, o, old, new, ho, hk⟩ := hk
  rw [hf] at hk
  cases hk
  obtain ⟨t, o, old, new, ho, rfl⟩ := hl.swap l e he ⟨a, by
    simp only [Ev.hits, h3, h4]
    simp, by simp⟩
  exact ⟨_, _, _, _, ho, he⟩

/-- The value that an exchange finds. -/
theorem lock_value (hX : X.Consistent mem) (hl : X.UsesLock a) {k : ι × Nat} {t : ι} {o : Ord} {old new : Val 64} (ho : o ≠ .notAtomic)
    (hk : X.at? k = some (swap8 t o a old new)) : X.value mem a 8 (X.src k) = some old := by
  have hL : X.OfLock a k := ⟨_, _, _, _, ho, hk⟩
  exact hX.value k _ hk hL.isRead (.inl ⟨⟨rfl, ho⟩, fun w hw => (ofLock_of_same hl hL hw.2.1).atomic⟩)

theorem lock_src (hX : X.Consistent mem) (hl : X.UsesLock a) {k w : ι × Nat} (hk : X.OfLock a k) (hw : X.src k = some w) :
    X.OfLock a w ∧ X.mo w k ∧ ∀ j, X.OfLock a j → X.mo j k → j = w ∨ X.mo j w := by
  have hs := hX.sees k hk.isRead
  rw [hw] at hs
  have hr := hX.rmw k hk.isRead hk.isWrite hk.atomic
  refine ⟨ofLock_of_same hl hk hs.2.1, hr.1 w hw, fun j hj hjk => ?_⟩
  obtain ⟨w', hw', h⟩ := hr.2 j hj.isWrite (hj.same hk) hjk (fun h => lock_irrefl hX hk (h ▸ hjk))
  rw [hw] at hw'
  cases hw'
  exact h.imp Eq.symm id

/-- Induction along the modification order of the lock. -/
theorem lock_induction (hX : X.Consistent mem) (hl : X.UsesLock a) (all : List ι) (hall : ∀ t, X.ev t ≠ [] → t ∈ all)
    (P : ι × Nat → Prop) (h : ∀ k, X.OfLock a k → (∀ w, X.src k = some w → P w) → P k) (k : ι × Nat) (hk : X.OfLock a k) : P k := by
  classical
  let L : List (ι × Nat) := all.flatMap fun t => (List.range (X.ev t).length).map fun n => (t, n)
  have hL : ∀ k, X.OfLock a k → k ∈ L := by
    rintro ⟨t, n⟩ ⟨_, o, old, new, -, hk⟩
    have hn : n < (X.ev t).length := (List.getElem?_eq_some_iff.1 (show (X.ev t)[n]? = _ from hk)).1
    exact List.mem_flatMap.2 ⟨t, hall t (fun h => by rw [h] at hn; exact absurd hn (Nat.not_lt_zero _)),
      List.mem_map.2 ⟨n, List.mem_range.2 hn, rfl⟩⟩
  let before (k : ι × Nat) (j : ι × Nat) : Bool := decide (X.OfLock a j ∧ X.mo j k)
  suffices H : ∀ N k, X.OfLock a k → L.countP (before k) = N → P k from H _ k hk rfl
  intro N
  induction N using Nat.strongRecOn with
  | ind N ih =>
    rintro k hk rfl
    refine h k hk fun w hw => ?_
    obtain ⟨hwL, hmo, -⟩ := lock_src hX hl hk hw
    refine ih _ ?_ w hwL rfl
    refine countP_lt _ _ L (fun j hj => ?_) w (hL w hwL) (decide_eq_true ⟨hwL, hmo⟩) (decide_eq_false fun h => lock_irrefl hX hwL h.2)
    have hj := of_decide_eq_true hj
    exact decide_eq_true ⟨hj.1, lock_trans hX hj.1 hwL hk hj.2 hmo⟩

theorem EndsSection.unique {i u v : ι × Nat} (hu : X.EndsSection a i u) (hv : X.EndsSection a i v) : u = v := by
  obtain ⟨⟨h1, h2, h3⟩, h4, h5⟩ := hu
  obtain ⟨⟨h1', h2', h3'⟩, h4', h5'⟩ := hv
  rcases Nat.lt_trichotomy u.2 v.2 with h | h | h
  · exact absurd h4 (h5' u ⟨h1, h2, h3⟩ ⟨h1.symm.trans h1', h, h3'⟩)
  · exact Prod.ext (h1.symm.trans h1') h
  · exact absurd h4' (h5 v ⟨h1', h2', h3'⟩ ⟨h1'.symm.trans h1, h, h3⟩)

/-- Every section that was begun before the exchange `k` is finished before it, but for one if the exchange does not find 0. -/
def Finished (X : Exec ι) (a : BitVec 64) (k : ι × Nat) : Prop :=
  ∃ x : Option (ι × Nat), (∀ t o new, X.at? k = some (swap8 t o a (some 0#64) new) → x = none) ∧
    ∀ i, X.Takes a i → X.mo i k → some i ≠ x → ∃ u, X.EndsSection a i u ∧ X.mo u k

theorem lock_finished (hX : X.Consistent mem) (hl : X.UsesLock a) (all : List ι) (hall : ∀ t, X.ev t ≠ [] → t ∈ all)
    (k : ι × Nat) (hk : X.OfLock a k) : X.Finished a k := by
  refine lock_induction hX hl all hall _ (fun k hk ih => ?_) k hk
  cases hs : X.src k with
  | none =>
    refine ⟨none, fun _ _ _ _ => rfl, fun i hi hik _ => ?_⟩
    obtain ⟨w, hw, -⟩ := (hX.rmw k hk.isRead hk.isWrite hk.atomic).2 i hi.ofLock.isWrite (hi.ofLock.same hk) hik
      (fun h => lock_irrefl hX hk (h ▸ hik))
    rw [hs] at hw
    cases hw
  | some w =>
    obtain ⟨x, hx, hfin⟩ := ih w hs
    obtain ⟨hw, hwk, hlast⟩ := lock_src hX hl hk hs
    have hval : ∀ t o old new, X.at? k = some (swap8 t o a old new) → ∃ t o v, X.at? w = some (swap8 t o a v old) := by
      intro t o old new h
      have ho : o ≠ .notAtomic := by
        obtain ⟨_, _, _, _, ho, h'⟩ := hk
        rw [h] at h'
        cases h'
        exact ho
      have hv := lock_value hX hl ho h
      obtain ⟨t', o', v, n, -, hw⟩ := hw
      rw [hs] at hv
      simp only [Exec.value, hw, Option.bind_some] at hv
      cases hv
      exact ⟨_, _, _, hw⟩
    have hmo : ∀ u, X.OfLock a u → X.mo u w → X.mo u k := fun u hu h => lock_trans hX hu hw hk h hwk
    obtain ⟨t, o, old, new, ho, hwe⟩ := id hw
    by_cases hn : new = some 0#64
    · -- the lock was given back
      subst hn
      obtain ⟨hrel, i0, hi0, hend⟩ := hl.gives w t o old hwe
      have hi0w : X.mo i0 w := lock_po hX hi0.ofLock hw hend.1
      refine ⟨none, fun _ _ _ _ => rfl, fun i hi hik _ => ?_⟩
      rcases hlast i hi.ofLock hik with rfl | hiw
      · obtain ⟨_, _, _, -, -, hne, h⟩ := hi
        rw [hwe] at h
        cases h
        exact absurd rfl hne
      · by_cases hix : some i = x
        · by_cases h0 : i0 = i
          · exact ⟨w, h0 ▸ hend, hwk⟩
          · obtain ⟨u, hu, huw⟩ := hfin i0 hi0 hi0w (fun h => h0 (Option.some.inj (h.trans hix.symm)))
            rw [hu.unique hend] at huw
            exact absurd huw (lock_irrefl hX hw)
        · obtain ⟨u, hu, huw⟩ := hfin i hi hiw hix
          exact ⟨u, hu, hmo u hu.2.1.ofLock huw⟩
    · have hk0 : ∀ t o new, X.at? k ≠ some (swap8 t o a (some 0#64) new) := by
        intro t o new h
        obtain ⟨_, _, _, h⟩ := hval _ _ _ _ h
        rw [hwe] at h
        cases h
        exact hn rfl
      by_cases hold : old = some 0#64
      · -- the lock was taken
        subst hold
        refine ⟨some w, fun t o new h => absurd h (hk0 t o new), fun i hi hik hiw => ?_⟩
        rcases hlast i hi.ofLock hik with rfl | hiw'
        · exact absurd rfl hiw
        · obtain ⟨u, hu, huw⟩ := hfin i hi hiw' (by rw [hx _ _ _ hwe]; exact fun h => by cases h)
          exact ⟨u, hu, hmo u hu.2.1.ofLock huw⟩
      · -- an exchange without effect
        refine ⟨x, fun t o new h => absurd h (hk0 t o new), fun i hi hik hix => ?_⟩
        rcases hlast i hi.ofLock hik with rfl | hiw
        · obtain ⟨_, _, _, -, -, -, h⟩ := hi
          rw [hwe] at h
          cases h
          exact absurd rfl hold
        · obtain ⟨u, hu, huw⟩ := hfin i hi hiw hix
          exact ⟨u, hu, hmo u hu.2.1.ofLock huw⟩

/-- All exchanges with the lock continue the release sequences of those before. -/
theorem lock_rs (hX : X.Consistent mem) (hl : X.UsesLock a) (all : List ι) (hall : ∀ t, X.ev t ≠ [] → t ∈ all) {u : ι × Nat}
    (hu : X.OfLock a u) (k : ι × Nat) (hk : X.OfLock a k) : X.mo u k → ∃ z, X.rs u z ∧ X.rf z k := by
  refine lock_induction hX hl all hall (fun k => X.mo u k → ∃ z, X.rs u z ∧ X.rf z k) (fun k hk ih huk => ?_) k hk
  obtain ⟨w, hw, h⟩ := (hX.rmw k hk.isRead hk.isWrite hk.atomic).2 u hu.isWrite (hu.same hk) huk (fun h => lock_irrefl hX hk (h ▸ huk))
  have hwL := (lock_src hX hl hk hw).1
  rcases h with rfl | h
  · exact ⟨w, .head, hk.isRead, hw⟩
  · obtain ⟨z, hz, hzw⟩ := ih w hw h
    exact ⟨w, .rmw hz hzw hwL.isWrite hwL.atomic, hk.isRead, hw⟩

/-- C63, critical sections: if a lock is used as it should be, of two sections, the exchange that ends one happens before the exchange
that begins the other, in every execution that LLVM allows, for any number of threads and sections. -/
theorem C63_weak_critical_sections (hX : X.Consistent mem) (hl : X.UsesLock a) (all : List ι)
    (hall : ∀ t, X.ev t ≠ [] → t ∈ all) {i j : ι × Nat} (hi : X.Takes a i) (hj : X.Takes a j) (hne : i ≠ j) :
    (∃ u, X.EndsSection a i u ∧ X.hb u j) ∨ ∃ u, X.EndsSection a j u ∧ X.hb u i := by
  have key : ∀ i j, X.Takes a i → X.Takes a j → X.mo i j → ∃ u, X.EndsSection a i u ∧ X.hb u j := by
    intro i j hi hj hij
    obtain ⟨x, hx, hfin⟩ := lock_finished hX hl all hall j hj.ofLock
    obtain ⟨t, o, new, ho, hacq, -, hje⟩ := id hj
    rw [hx _ _ _ hje] at hfin
    obtain ⟨u, hu, huj⟩ := hfin i hi hij (fun h => by cases h)
    obtain ⟨z, hz, hzj⟩ := lock_rs hX hl all hall hu.2.1.ofLock j hj.ofLock huj
    obtain ⟨_, _, _, ho', hrel, hue⟩ := id hu.2.1
    exact ⟨u, hu, C63_weak_release_acquire (.inl rfl) hz hzj (.inl rfl) ⟨_, hue, ⟨rfl, ho'⟩, hrel⟩ ⟨_, hje, ⟨rfl, ho⟩, hacq⟩⟩
  rcases hX.total i j hi.ofLock.isWrite hj.ofLock.isWrite (hi.ofLock.same hj.ofLock) hi.ofLock.atomic hj.ofLock.atomic with h | h | h
  · exact absurd h hne
  · exact .inl (key i j hi hj h)
  · exact .inr (key j i hj hi h)

end Exec

end Verif.Conc
