import Verif.Conc.WeakRun

/-!
Every execution that LLVM allows, in which all atomic accesses are sequentially consistent and which has no data race, is an
interleaving (`System.run`): the simplification of `Verif.Conc.Model` loses nothing for such executions.
-/

namespace Verif.Conc

open Verif.IR

variable {σ ι : Type}

/-! ### Orders of finite lists -/

/-- Topological sorting. -/
theorem exists_sorted {α : Type} (lt : α → α → Prop) (htr : ∀ a b c, lt a b → lt b c → lt a c) (hir : ∀ a, ¬ lt a a) (N : List α) :
    ∃ L : List α, L.Perm N ∧ L.Pairwise fun x y => ¬ lt y x := by
  classical
  induction N with
  | nil => exact ⟨[], .nil, .nil⟩
  | cons a N ih =>
    obtain ⟨L, hp, hs⟩ := ih
    have key : ∀ M : List α, M.Pairwise (fun x y => ¬ lt y x) → ∃ M' : List α, M'.Perm (a :: M) ∧ M'.Pairwise fun x y => ¬ lt y x := by
      intro M
      induction M with
      | nil => exact fun _ => ⟨[a], .refl _, by simp⟩
      | cons x M ihM =>
        intro hM
        obtain ⟨h1, h2⟩ := List.pairwise_cons.1 hM
        by_cases hx : lt a x
        · refine ⟨a :: x :: M, .refl _, List.pairwise_cons.2 ⟨fun q hq hqa => ?_, hM⟩⟩
          have hqx := htr q a x hqa hx
          rcases List.mem_cons.1 hq with rfl | hq
          · exact hir _ hqx
          · exact h1 q hq hqx
        · obtain ⟨M', hp', hs'⟩ := ihM h2
          refine ⟨x :: M', (hp'.cons x).trans (.swap a x M), List.pairwise_cons.2 ⟨fun q hq hqx => ?_, hs'⟩⟩
          rcases List.mem_cons.1 (hp'.mem_iff.1 hq) with rfl | hq
          · exact hx hqx
          · exact h1 q hq hqx
    obtain ⟨M', hp', hs'⟩ := key L hs
    exact ⟨M', hp'.trans (hp.cons a), hs'⟩

theorem filterMap_range {α : Type} (l : List α) : (List.range l.length).filterMap (fun k => l[k]?) = l := by
  induction l with
  | nil => rfl
  | cons a l ih =>
    rw [List.length_cons, List.range_succ_eq_map, List.filterMap_cons_some (f := fun k => (a :: l)[k]?) (a := 0) (b := a) rfl,
      List.filterMap_map]
    exact congrArg (a :: ·) ih

theorem exists_max {α : Type} (lt : α → α → Prop) (htr : ∀ a b c, lt a b → lt b c → lt a c) (hir : ∀ a, ¬ lt a a) (P : α → Prop)
    (N : List α) (h : ∃ x ∈ N, P x) : ∃ m ∈ N, P m ∧ ∀ x ∈ N, P x → ¬ lt m x := by
  classical
  induction N with
  | nil => obtain ⟨x, hx, -⟩ := h; cases hx
  | cons a N ih =>
    by_cases hN : ∃ x ∈ N, P x
    · obtain ⟨m, hm, hPm, hmax⟩ := ih hN
      by_cases ha : P a ∧ lt m a
      · refine ⟨a, List.mem_cons_self, ha.1, fun x hx hPx hax => ?_⟩
        rcases List.mem_cons.1 hx with rfl | hx
        · exact hir _ hax
        · exact hmax x hx hPx (htr _ _ _ ha.2 hax)
      · refine ⟨m, List.mem_cons_of_mem _ hm, hPm, fun x hx hPx hmx => ?_⟩
        rcases List.mem_cons.1 hx with rfl | hx
        · exact ha ⟨hPx, hmx⟩
        · exact hmax x hx hPx hmx
    · obtain ⟨x, hx, hPx⟩ := h
      rcases List.mem_cons.1 hx with rfl | hx
      · refine ⟨x, List.mem_cons_self, hPx, fun y hy hPy hxy => ?_⟩
        rcases List.mem_cons.1 hy with rfl | hy
        · exact hir _ hxy
        · exact hN ⟨y, hy, hPy⟩
      · exact absurd ⟨x, hx, hPx⟩ hN

/-! ### Conditions on executions -/

namespace Exec

variable (X : Exec ι)

/-- No data race: of two accesses to the same bytes, one of which writes and one of which is not atomic, one happens before the other. -/
def RaceFree : Prop := ∀ i j, X.same i j → i ≠ j → X.isWrite i ∨ X.isWrite j → ¬ X.has i Ev.atomic ∨ ¬ X.has j Ev.atomic →
  X.hb i j ∨ X.hb j i

/-- All atomic accesses are sequentially consistent. -/
def SeqCst : Prop := ∀ i, X.has i Ev.atomic → X.has i (·.ord = .seqCst)

/-- No read returns `undef` (see `Consistent.value`). -/
def Defined : Prop := ∀ r e, X.at? r = some e → X.isRead r →
  e.atomic ∧ (∀ w, X.maySee r (some w) → X.has w Ev.atomic) ∨ ∀ w, X.maySee r w → w = X.src r

/-- The last write of its bytes. -/
def last (w : ι × Nat) : Prop := X.isWrite w ∧ ∀ i, X.isWrite i → X.same i w → i ≠ w →
  X.hb i w ∨ X.has i Ev.atomic ∧ X.has w Ev.atomic ∧ X.mo i w

/-- Happens-before, and the coherence order of sequentially consistent accesses. -/
def edge (i j : ι × Nat) : Prop := X.hb i j ∨ X.has i (·.ord = .seqCst) ∧ X.has j (·.ord = .seqCst) ∧ X.eco i j

abbrev lt : ι × Nat → ι × Nat → Prop := Relation.TransGen X.edge

variable {X} {mem : VMem}

theorem same_symm {i j : ι × Nat} (h : X.same i j) : X.same j i := by
  obtain ⟨e, f, h1, h2, h3, h4, h5, h6⟩ := h
  exact ⟨f, e, h2, h1, h4, h3, h5.symm, h6.symm⟩

theorem same_trans {i j k : ι × Nat} (h : X.same i j) (h' : X.same j k) : X.same i k := by
  obtain ⟨e, f, h1, h2, h3, h4, h5, h6⟩ := h
  obtain ⟨f', g, h1', h2', h3', h4', h5', h6'⟩ := h'
  rw [h2] at h1'
  cases h1'
  exact ⟨e, g, h1, h2', h3, h4', h5.trans h5', h6.trans h6'⟩

theorem lt_irrefl (hX : X.Consistent mem) (i : ι × Nat) : ¬ X.lt i i := by
  obtain ⟨rank, hrank⟩ := hX.sc
  have key : ∀ j, X.lt i j → X.hb i j ∨ ∃ a b, (i = a ∨ X.hb i a) ∧ X.has a (·.ord = .seqCst) ∧ X.has b (·.ord = .seqCst) ∧
      rank a < rank b ∧ (b = j ∨ X.hb b j) := by
    intro j h
    induction h with
    | single h =>
      rcases h with h | ⟨h1, h2, h3⟩
      · exact .inl h
      · exact .inr ⟨_, _, .inl rfl, h1, h2, hrank _ _ h1 h2 (.inr h3), .inl rfl⟩
    | tail _ h ih =>
      rcases h with h | ⟨h1, h2, h3⟩
      · rcases ih with ih | ⟨a, b, ha, hsa, hsb, hab, hb⟩
        · exact .inl (.trans ih h)
        · refine .inr ⟨a, b, ha, hsa, hsb, hab, .inr ?_⟩
          rcases hb with rfl | hb
          · exact h
          · exact .trans hb h
      · have hlt := hrank _ _ h1 h2 (.inr h3)
        rcases ih with ih | ⟨a, b, ha, hsa, hsb, hab, hb⟩
        · exact .inr ⟨_, _, .inr ih, h1, h2, hlt, .inl rfl⟩
        · refine .inr ⟨a, _, ha, hsa, h2, ?_, .inl rfl⟩
          rcases hb with rfl | hb
          · omega
          · have := hrank _ _ hsb h1 (.inl hb)
            omega
  intro h
  rcases key i h with h | ⟨a, b, ha, hsa, hsb, hab, hb⟩
  · exact (hX.acyclic i).1 h
  · have : a = b ∨ X.hb b a := by
      rcases ha with rfl | ha <;> rcases hb with rfl | hb
      · exact .inl rfl
      · exact .inr hb
      · exact .inr ha
      · exact .inr (.trans hb ha)
    rcases this with rfl | h
    · omega
    · have := hrank _ _ hsb hsa (.inl h)
      omega

/-- A read comes after the write that it reads. -/
theorem lt_of_src (hX : X.Consistent mem) (hrf : X.RaceFree) (hsc : X.SeqCst) {r w : ι × Nat} (hr : X.isRead r) (hw : X.src r = some w) :
    X.lt w r := by
  have hs := hX.sees r hr
  rw [hw] at hs
  obtain ⟨h1, h2, h3, h4, -⟩ := hs
  by_cases ha : X.has w Ev.atomic ∧ X.has r Ev.atomic
  · exact .single (.inr ⟨hsc _ ha.1, hsc _ ha.2, .rf ⟨hr, hw⟩⟩)
  · rcases hrf w r h2 h3 (.inl h1) (Classical.not_and_iff_not_or_not.1 ha) with h | h
    · exact .single (.inl h)
    · exact absurd h h4

/-- All other writes of the bytes are before the write that is read, or after the read. -/
theorem lt_other (hX : X.Consistent mem) (hrf : X.RaceFree) (hsc : X.SeqCst) (hdef : X.Defined) (N : List (ι × Nat))
    (hN : ∀ i e, X.at? i = some e → i ∈ N) {r v : ι × Nat} (hr : X.isRead r) (hv : X.isWrite v) (hvr : X.same v r) (hne : v ≠ r) :
    (∃ w, X.src r = some w ∧ (v = w ∨ X.lt v w)) ∨ X.lt r v := by
  have hsee := hX.sees r hr
  have hirr : ∀ i, ¬ X.hb i i := fun i => (hX.acyclic i).1
  obtain ⟨e, he, hef, her⟩ := hr
  have hr : X.isRead r := ⟨e, he, hef, her⟩
  -- a write that happens before the read, when only one may be seen
  have hunique : (∀ w, X.maySee r w → w = X.src r) → X.hb v r → ∃ w, X.src r = some w ∧ (v = w ∨ X.hb v w) := by
    intro hu hb
    obtain ⟨m, -, ⟨hm1, hm2, hm3, hm4⟩, hmax⟩ := exists_max X.hb (fun _ _ _ => .trans) hirr
      (fun w => X.isWrite w ∧ X.same w r ∧ X.hb w r ∧ (v = w ∨ X.hb v w)) N
      (by obtain ⟨f, hf, h⟩ := hv; exact ⟨v, hN v f hf, ⟨f, hf, h⟩, hvr, hb, .inl rfl⟩)
    refine ⟨m, (hu (some m) ⟨hm1, hm2, ?_, fun h => hirr _ (.trans h hm3), fun w hw hs h1 h2 => ?_⟩).symm, hm4⟩
    · rintro rfl
      exact hirr _ hm3
    · obtain ⟨f, hf, h⟩ := hw
      refine hmax w (hN w f hf) ⟨⟨f, hf, h⟩, hs, h2, .inr ?_⟩ h1
      rcases hm4 with rfl | h
      · exact h1
      · exact .trans h h1
  have hlt : ∀ {a b}, X.hb a b → X.lt a b := fun h => .single (.inl h)
  by_cases ha : X.has v Ev.atomic ∧ X.has r Ev.atomic
  · have hfr : (∀ w, X.src r = some w → X.mo w v) → X.lt r v := fun hmo =>
      .single (.inr ⟨hsc _ ha.2, hsc _ ha.1, .fr ⟨hr, hv, same_symm hvr, hne.symm, hmo⟩⟩)
    cases hw : X.src r with
    | none => exact .inr (hfr fun w h => by rw [hw] at h; cases h)
    | some w =>
      by_cases hvw : v = w
      · exact .inl ⟨w, rfl, .inl hvw⟩
      rw [hw] at hsee
      obtain ⟨h1, h2, h3, h4, h5⟩ := hsee
      have hvws : X.same v w := same_trans hvr (same_symm h2)
      by_cases hwa : X.has w Ev.atomic
      · rcases hX.total v w hv h1 hvws ha.1 hwa with h | h | h
        · exact absurd h hvw
        · exact .inl ⟨w, rfl, .inr (.single (.inr ⟨hsc _ ha.1, hsc _ hwa, .mo hv h1 hvws h⟩))⟩
        · exact .inr (hfr fun w' h' => by rw [hw] at h'; cases h'; exact h)
      · rcases hrf v w hvws hvw (.inl hv) (.inr hwa) with h | h
        · exact .inl ⟨w, rfl, .inr (hlt h)⟩
        · -- `w` is not atomic, so it is the only write that may be seen
          have hu : ∀ w', X.maySee r w' → w' = X.src r := by
            rcases hdef r e he hr with ⟨-, h'⟩ | h'
            · exact absurd (h' w ⟨h1, h2, h3, h4, h5⟩) hwa
            · exact h'
          have hnr : ¬ X.hb v r := h5 v hv hvr h
          by_cases hrv : X.hb r v
          · exact .inr (hlt hrv)
          · have := hu (some v) ⟨hv, hvr, hne, hrv, fun w' _ _ h6 h7 => hnr (.trans h6 h7)⟩
            rw [hw] at this
            cases this
            exact absurd rfl hvw
  · rcases hrf v r hvr hne (.inl hv) (Classical.not_and_iff_not_or_not.1 ha) with hb | hb
    · cases hw : X.src r with
      | none =>
        rw [hw] at hsee
        exact absurd hb (hsee v hv hvr)
      | some w =>
        by_cases hvw : v = w
        · exact .inl ⟨w, rfl, .inl hvw⟩
        rcases hdef r e he hr with ⟨hra, h'⟩ | h'
        · -- `r` is atomic, so `v` is not
          have hva : ¬ X.has v Ev.atomic := fun h => ha ⟨h, e, he, hra⟩
          rw [hw] at hsee
          obtain ⟨h1, h2, h3, h4, h5⟩ := hsee
          rcases hrf v w (same_trans hvr (same_symm h2)) hvw (.inl hv) (.inl hva) with h | h
          · exact .inl ⟨w, rfl, .inr (hlt h)⟩
          · exact absurd hb (h5 v hv hvr h)
        · obtain ⟨w', hw', h⟩ := hunique h' hb
          rw [hw] at hw'
          cases hw'
          rcases h with h | h
          · exact absurd h hvw
          · exact .inl ⟨w, rfl, .inr (hlt h)⟩
    · exact .inr (hlt hb)

end Exec

/-! ### What is in memory -/

/-- Reads find what an interleaving has left in memory. -/
def SCvalid (mem : VMem) : List (Ev ι) → Prop
  | [] => True
  | e :: l => (e.isFence = false → e.reads = true → e.old = mem.read e.addr e.n) ∧ SCvalid (memAfter mem [e]) l

theorem scvalid_of (mem : VMem) (l : List (Ev ι))
    (h : ∀ l1 e l2, l = l1 ++ e :: l2 → e.isFence = false → e.reads = true → e.old = (memAfter mem l1).read e.addr e.n) :
    SCvalid mem l := by
  induction l generalizing mem with
  | nil => trivial
  | cons e l ih =>
    refine ⟨h [] e l rfl, ih _ fun l1 f l2 hl => ?_⟩
    have := h (e :: l1) f l2 (by rw [hl]; rfl)
    exact this

namespace Exec

variable {X : Exec ι} {mem : VMem}

/-- An access to other bytes changes nothing. -/
theorem read_other (hu : X.Uniform) (hsize : ∀ i e, X.at? i = some e → e.isFence = false → 0 < e.n ∧ e.n ≤ 2 ^ 64)
    (hfence : ∀ i e, X.at? i = some e → e.isFence = true → e.new = none) {r i : ι × Nat} {e f : Ev ι} (he : X.at? r = some e)
    (hef : e.isFence = false) (hf : X.at? i = some f) (hn : ¬ (X.isWrite i ∧ X.same i r)) (m : VMem) :
    (memAfter m [f]).read e.addr e.n = m.read e.addr e.n := by
  simp only [memAfter]
  cases hnew : f.new with
  | none => rfl
  | some v =>
    have hff : f.isFence = false := by
      cases h : f.isFence with
      | false => rfl
      | true =>
        have := hfence i f hf h
        rw [hnew] at this
        cases this
    have hw : X.isWrite i := ⟨f, hf, hff, by rw [hnew]; rfl⟩
    rcases hu i r f e hf he hff hef with h | h
    · exact absurd ⟨hw, h⟩ hn
    · refine VMem.read_congr _ _ _ _ fun k hk => ?_
      have h2 := (hsize r e he hef).2
      have : e.hits (e.addr + BitVec.ofNat 64 k) := by
        simp only [Ev.hits, offset_toNat e.addr k (by omega)]
        exact hk
      have hnf : ¬ f.hits (e.addr + BitVec.ofNat 64 k) := fun hx => h _ ⟨hx, this⟩
      simp only [Ev.hits] at hnf
      simp only [VMem.write, if_neg hnf]

theorem read_others (hu : X.Uniform) (hsize : ∀ i e, X.at? i = some e → e.isFence = false → 0 < e.n ∧ e.n ≤ 2 ^ 64)
    (hfence : ∀ i e, X.at? i = some e → e.isFence = true → e.new = none) {r : ι × Nat} {e : Ev ι} (he : X.at? r = some e)
    (hef : e.isFence = false) (L : List (ι × Nat)) (hn : ∀ i ∈ L, ¬ (X.isWrite i ∧ X.same i r)) (m : VMem) :
    (memAfter m (L.filterMap X.at?)).read e.addr e.n = m.read e.addr e.n := by
  induction L generalizing m with
  | nil => rfl
  | cons i L ih =>
    have ih' := ih (fun i hi => hn i (List.mem_cons_of_mem _ hi))
    cases hf : X.at? i with
    | none => rw [List.filterMap_cons_none hf]; exact ih' m
    | some f =>
      rw [List.filterMap_cons_some hf, show f :: L.filterMap X.at? = [f] ++ L.filterMap X.at? from rfl, memAfter_append, ih']
      exact read_other hu hsize hfence he hef hf (hn i List.mem_cons_self) m

/-- An order of the accesses that agrees with program order and in which every read comes right after the write that it reads, among the
writes of the same bytes. -/
structure Order (X : Exec ι) (lt : ι × Nat → ι × Nat → Prop) : Prop where
  trans : ∀ i j k, lt i j → lt j k → lt i k
  irrefl : ∀ i, ¬ lt i i
  po : ∀ i j, X.po i j → lt i j
  src : ∀ r w, X.isRead r → X.src r = some w → lt w r
  other : ∀ r i, X.isRead r → X.isWrite i → X.same i r → i ≠ r → (∃ w, X.src r = some w ∧ (i = w ∨ lt i w)) ∨ lt r i
  last : ∀ w i, X.last w → X.isWrite i → X.same i w → i ≠ w → lt i w

variable {lt : ι × Nat → ι × Nat → Prop}

/-- In the sorted execution every read finds what the interleaving has left. -/
theorem sorted_valid (hX : X.Consistent mem) (hlt : Order X lt) (hdef : X.Defined)
    (hsize : ∀ i e, X.at? i = some e → e.isFence = false → 0 < e.n ∧ e.n ≤ 2 ^ 64)
    (hfence : ∀ i e, X.at? i = some e → e.isFence = true → e.new = none) (L : List (ι × Nat)) (hnd : L.Nodup)
    (hall : ∀ i e, X.at? i = some e → i ∈ L) (hsort : L.Pairwise fun x y => ¬ lt y x) : SCvalid mem (L.filterMap X.at?) := by
  refine scvalid_of mem _ fun l1 e l2 hl hef her => ?_
  obtain ⟨L1, L2', hL, h1, h2⟩ := List.filterMap_eq_append_iff.1 hl
  obtain ⟨L0, r, L2, hL2, h3, he, h4⟩ := List.filterMap_eq_cons_iff.1 h2
  subst hL2
  have hl1 : l1 = (L1 ++ L0).filterMap X.at? := by
    rw [List.filterMap_append, h1, List.filterMap_eq_nil_iff.2 h3, List.append_nil]
  rw [← List.append_assoc] at hL
  generalize hA : L1 ++ L0 = A at hL hl1
  subst hl1 hL
  have hr : X.isRead r := ⟨e, he, hef, her⟩
  obtain ⟨hpA, hprL2, hpAr⟩ := List.pairwise_append.1 hsort
  obtain ⟨hndA, hndr, hndAr⟩ := List.pairwise_append.1 hnd
  have hval := hX.value r e he hr (hdef r e he hr)
  have hafter : ∀ i ∈ A, ¬ lt r i := fun i hi => hpAr i hi r List.mem_cons_self
  have hner : ∀ i ∈ A, i ≠ r := fun i hi => hndAr i hi r List.mem_cons_self
  cases hw : X.src r with
  | none =>
    rw [read_others hX.uniform hsize hfence he hef A fun i hi hi' => ?_]
    · rw [hw] at hval
      simp only [Exec.value, Option.some.injEq] at hval
      exact hval.symm
    · rcases hlt.other r i hr hi'.1 hi'.2 (hner i hi) with ⟨w, h, -⟩ | h
      · rw [hw] at h; cases h
      · exact hafter i hi h
  | some w =>
    have hwr := hlt.src r w hr hw
    have hs := hX.sees r hr
    rw [hw] at hs
    obtain ⟨⟨f, hf, hff, hfs⟩, hsame, -⟩ := hs
    have hwA : w ∈ A := by
      rcases List.mem_append.1 (hall w f hf) with h | h
      · exact h
      · rcases List.mem_cons.1 h with rfl | h
        · exact absurd hwr (hlt.irrefl _)
        · exact absurd hwr ((List.pairwise_cons.1 hprL2).1 w h)
    obtain ⟨P, Q, rfl⟩ := List.append_of_mem hwA
    rw [List.filterMap_append, List.filterMap_cons_some hf, memAfter_append,
      show f :: Q.filterMap X.at? = [f] ++ Q.filterMap X.at? from rfl, memAfter_append,
      read_others hX.uniform hsize hfence he hef Q fun i hi hi' => ?_]
    · obtain ⟨x, hx⟩ := Option.isSome_iff_exists.1 hfs
      rw [hw] at hval
      simp only [Exec.value, hf, Option.bind_some] at hval
      obtain ⟨f', e', hf', he', -, -, ha, hn⟩ := hsame
      rw [hf] at hf'
      rw [he] at he'
      cases hf'
      cases he'
      have hsz := hsize w f hf hff
      simp only [memAfter, hx]
      obtain ⟨et, eF, eo, ea, en, eold, enew, er⟩ := e
      obtain ⟨ft, fF, fo, fa, fn, fold, fnew, fr⟩ := f
      simp only at hn ha hx hval hsz ⊢
      subst hn
      subst ha
      rw [VMem.read_write _ _ _ _ hsz.1 hsz.2]
      simp only [dite_true, hx, Option.map_some, Option.some.injEq] at hval
      exact hval.symm
    · have hmem : i ∈ P ++ w :: Q := List.mem_append.2 (.inr (List.mem_cons_of_mem _ hi))
      have hwQ := (List.pairwise_append.1 hpA).2.1
      have hwi : ¬ lt i w := (List.pairwise_cons.1 hwQ).1 i hi
      have hne : w ≠ i := (List.pairwise_cons.1 (List.pairwise_append.1 hndA).2.1).1 i hi
      rcases hlt.other r i hr hi'.1 hi'.2 (hner i hmem) with ⟨w', h, h'⟩ | h
      · rw [hw] at h
        cases h
        rcases h' with rfl | h'
        · exact hne rfl
        · exact hwi h'
      · exact hafter i hmem h

/-- In the sorted execution the last write of its bytes stays in memory. -/
theorem sorted_last (hX : X.Consistent mem) (hlt : Order X lt)
    (hsize : ∀ i e, X.at? i = some e → e.isFence = false → 0 < e.n ∧ e.n ≤ 2 ^ 64)
    (hfence : ∀ i e, X.at? i = some e → e.isFence = true → e.new = none) (L : List (ι × Nat)) (hnd : L.Nodup)
    (hall : ∀ i e, X.at? i = some e → i ∈ L) (hsort : L.Pairwise fun x y => ¬ lt y x) {w : ι × Nat} {f : Ev ι} (hw : X.last w)
    (hf : X.at? w = some f) : f.new = some ((memAfter mem (L.filterMap X.at?)).read f.addr f.n) := by
  have hlast := hlt.last w
  obtain ⟨f', hf', hff, hfs⟩ := hw.1
  rw [hf] at hf'
  cases hf'
  obtain ⟨x, hx⟩ := Option.isSome_iff_exists.1 hfs
  obtain ⟨P, Q, rfl⟩ := List.append_of_mem (hall w f hf)
  have hsz := hsize w f hf hff
  rw [List.filterMap_append, List.filterMap_cons_some hf, memAfter_append,
    show f :: Q.filterMap X.at? = [f] ++ Q.filterMap X.at? from rfl, memAfter_append,
    read_others hX.uniform hsize hfence hf hff Q fun i hi hi' => ?_]
  · simp only [memAfter, hx]
    rw [VMem.read_write _ _ _ _ hsz.1 hsz.2]
  · have hwi : ¬ lt i w := (List.pairwise_cons.1 (List.pairwise_append.1 hsort).2.1).1 i hi
    have hne : w ≠ i := (List.pairwise_cons.1 (List.pairwise_append.1 hnd).2.1).1 i hi
    exact hwi (hlast i hw hi'.1 hi'.2 fun h => hne h.symm)

/-- The order of an execution without races. -/
theorem order_of_raceFree (hX : X.Consistent mem) (hrf : X.RaceFree) (hsc : X.SeqCst) (hdef : X.Defined) (N : List (ι × Nat))
    (hall : ∀ i e, X.at? i = some e → i ∈ N) : Order X X.lt where
  trans _ _ _ h h' := Relation.TransGen.trans h h'
  irrefl := lt_irrefl hX
  po _ _ h := .single (.inl (.po h))
  src _ _ hr hw := lt_of_src hX hrf hsc hr hw
  other _ _ hr hi hs hne := lt_other hX hrf hsc hdef N hall hr hi hs hne
  last w i hw hi hs hne := by
    rcases hw.2 i hi hs hne with h | ⟨h1, h2, h3⟩
    · exact .single (.inl h)
    · exact .single (.inr ⟨hsc i h1, hsc w h2, .mo hi hw.1 hs h3⟩)

/-- All accesses are atomic read-modify-writes of the same bytes. -/
def RmwOnly (X : Exec ι) : Prop := ∀ i e, X.at? i = some e → e.atomic ∧ e.reads = true ∧ e.new.isSome = true ∧
  ∀ j f, X.at? j = some f → e.addr = f.addr ∧ e.n = f.n

/-- If all accesses are atomic read-modify-writes of the same bytes, the modification order is an order of the accesses, whatever their
orderings. -/
theorem order_of_rmw (hX : X.Consistent mem) (hrmw : X.RmwOnly) :
    Order X (fun i j => X.isWrite i ∧ X.isWrite j ∧ X.mo i j) ∧ X.Defined := by
  have hat : ∀ i, X.isWrite i → X.has i Ev.atomic ∧ X.isRead i := by
    rintro i ⟨e, he, hf, -⟩
    have h := hrmw i e he
    exact ⟨⟨e, he, h.1⟩, ⟨e, he, hf, h.2.1⟩⟩
  have hsame : ∀ i j, X.isWrite i → X.isWrite j → X.same i j := by
    rintro i j ⟨e, he, hf, -⟩ ⟨e', he', hf', -⟩
    have h := (hrmw i e he).2.2.2 j e' he'
    exact ⟨e, e', he, he', hf, hf', h.1, h.2⟩
  have hwr : ∀ i, X.isRead i → X.isWrite i := by
    rintro i ⟨e, he, hf, -⟩
    exact ⟨e, he, hf, (hrmw i e he).2.2.1⟩
  have heco : ∀ i j, X.isWrite i → X.isWrite j → X.mo i j → X.eco i j := fun i j hi hj h => .mo hi hj (hsame i j hi hj) h
  have hirr : ∀ i, X.isWrite i → ¬ X.mo i i := fun i hi h => (hX.acyclic i).2 (hat i hi).1 (heco i i hi hi h)
  have htot : ∀ i j, X.isWrite i → X.isWrite j → i = j ∨ X.mo i j ∨ X.mo j i := fun i j hi hj =>
    hX.total i j hi hj (hsame i j hi hj) (hat i hi).1 (hat j hj).1
  have hhb : ∀ i j, X.isWrite i → X.isWrite j → X.hb i j → X.mo i j := by
    intro i j hi hj h
    rcases htot i j hi hj with rfl | h' | h'
    · exact absurd h (hX.acyclic i).1
    · exact h'
    · exact absurd (heco j i hj hi h') (hX.coherent i j (hat i hi).1 (hat j hj).1 h)
  have hmo : ∀ r i, X.isRead r → X.isWrite i → i ≠ r → ¬ X.mo r i → X.mo i r := by
    intro r i hr hi hne h
    rcases htot i r hi (hwr r hr) with h' | h' | h'
    · exact absurd h' hne
    · exact h'
    · exact absurd h' h
  refine ⟨⟨?_, fun i h => hirr i h.1 h.2.2, ?_, ?_, ?_, ?_⟩, ?_⟩
  · rintro i j k ⟨hi, hj, hij⟩ ⟨-, hk, hjk⟩
    refine ⟨hi, hk, ?_⟩
    have h := (heco i j hi hj hij).trans (heco j k hj hk hjk)
    rcases htot i k hi hk with rfl | h' | h'
    · exact absurd h ((hX.acyclic i).2 (hat i hi).1)
    · exact h'
    · exact absurd (h.trans (heco k i hk hi h')) ((hX.acyclic i).2 (hat i hi).1)
  · rintro i j ⟨h1, h2, e, he, -⟩
    have hlen := (List.getElem?_eq_some_iff.1 (show (X.ev j.1)[j.2]? = some e from he)).1
    have hi : X.at? i = some ((X.ev i.1)[i.2]'(by rw [h1]; omega)) := List.getElem?_eq_getElem _
    have h3 := hrmw j e he
    have h4 := hrmw i _ hi
    have hwi : X.isWrite i := ⟨_, hi, h4.1.1, h4.2.2.1⟩
    have hwj : X.isWrite j := ⟨e, he, h3.1.1, h3.2.2.1⟩
    exact ⟨hwi, hwj, hhb i j hwi hwj (.po ⟨h1, h2, e, he, trivial⟩)⟩
  · intro r w hr hw
    have hs := hX.sees r hr
    rw [hw] at hs
    exact ⟨hs.1, hwr r hr, (hX.rmw r hr (hwr r hr) (hat r (hwr r hr)).1).1 w hw⟩
  · intro r i hr hi hs hne
    by_cases h : X.mo r i
    · exact .inr ⟨hwr r hr, hi, h⟩
    · left
      obtain ⟨w, hw, h'⟩ := (hX.rmw r hr (hwr r hr) (hat r (hwr r hr)).1).2 i hi hs (hmo r i hr hi hne h) hne
      have hsees := hX.sees r hr
      rw [hw] at hsees
      rcases h' with h' | h'
      · exact ⟨w, hw, .inl (by rw [h'])⟩
      · exact ⟨w, hw, .inr ⟨hi, hsees.1, h'⟩⟩
  · intro w i hw hi hs hne
    rcases hw.2 i hi hs hne with h | h
    · exact ⟨hi, hw.1, hhb i w hi hw.1 h⟩
    · exact ⟨hi, hw.1, h.2.2⟩
  · intro r e he hr
    exact .inl ⟨(hrmw r e he).1, fun w hw => (hat w hw.1).1⟩

end Exec

/-! ### The interleaving -/

/-- Stores do not use the value that is in memory before. -/
def Code.Stores : Code σ → Prop
  | .done _ => True
  | .ub => True
  | .acc e k => (e.reads = false → ∀ v v', k v = k v' ∧ e.upd.map (· v) = e.upd.map (· v')) ∧ ∀ v, (k v).Stores
  | .fence _ k => k.Stores

/-- An event without the value found in memory by a store, which does not use it. -/
def Ev.forget (e : Ev ι) : Ev ι := if e.reads then e else { e with old := none }

/-- Fences, as emitted, write nothing. -/
theorem emits_fence {prog : σ → Code σ} {t : ι} {c c' : Code σ} {l : List (Ev ι)} (h : Emits prog t c l c') :
    ∀ e ∈ l, e.isFence = true → e.new = none := by
  induction h with
  | nil => intro e he; cases he
  | next _ ih => exact ih
  | acc v _ _ ih =>
    intro e he hf
    rcases List.mem_cons.1 he with rfl | he
    · cases hf
    · exact ih e he hf
  | fence _ ih =>
    intro e he hf
    rcases List.mem_cons.1 he with rfl | he
    · rfl
    · exact ih e he hf

variable [DecidableEq ι]

theorem trace_append (prog : ι → σ → Code σ) (s s' : List ι) (y : System ι σ) :
    System.trace prog (s ++ s') y =
      (System.trace prog s y).bind fun p => (System.trace prog s' p.2).map fun p' => (p.1 ++ p'.1, p'.2) := by
  induction s generalizing y with
  | nil => simp [System.trace]
  | cons t s ih =>
    simp only [List.cons_append, System.trace]
    cases y.step prog t with
    | none => rfl
    | some y' =>
      simp only [Option.bind_some, ih]
      cases System.trace prog s y' with
      | none => rfl
      | some p =>
        simp only [Option.bind_some, Option.map_some, Option.map_map]
        cases System.trace prog s' p.2 with
        | none => rfl
        | some p' => simp

/-- A thread performs its next event. -/
theorem step_event (prog : ι → σ → Code σ) (hprog : ∀ t s, (prog t s).Stores) (t : ι) (c c' : Code σ) (e : Ev ι) (l : List (Ev ι))
    (l' : List (Ev ι)) (h : Emits (prog t) t c l' c') (hl : l' = e :: l) (y : System ι σ) (hy : y.threads t = c) (hc : c.Stores)
    (hv : e.isFence = false → e.reads = true → e.old = y.mem.read e.addr e.n) :
    ∃ s e' y', System.trace prog s y = some ([e'], y') ∧ e'.forget = e.forget ∧ y'.mem = memAfter y.mem [e] ∧
      Emits (prog t) t (y'.threads t) l c' ∧ (y'.threads t).Stores ∧ ∀ u, u ≠ t → y'.threads u = y.threads u := by
  induction h generalizing y with
  | nil => cases hl
  | @next a _ _ _ ih =>
    let y1 : System ι σ := { threads := fun u => if u = t then prog t a else y.threads u, mem := y.mem }
    have hstep : y.step prog t = some y1 := by simp only [System.step, hy]; rfl
    have hev : y.event t = [] := by simp only [System.event, hy]
    obtain ⟨s, e', y', h1, h2, h3, h4, h5, h6⟩ := ih hl y1 (by simp [y1]) (hprog t a) hv
    refine ⟨t :: s, e', y', ?_, h2, h3, h4, h5, fun u hu => ?_⟩
    · simp [System.trace, hstep, h1, hev]
    · rw [h6 u hu]
      simp [y1, hu]
  | @acc a k v m _ hal hem _ =>
    cases hl
    have hc1 : a.reads = false → ∀ v v', k v = k v' ∧ a.upd.map (· v) = a.upd.map (· v') := hc.1
    have hc2 : ∀ v, (k v).Stores := hc.2
    let w := y.mem.read a.addr a.n
    have hw : k w = k v ∧ a.upd.map (· w) = a.upd.map (· v) := by
      cases hr : a.reads with
      | false => exact hc1 hr w v
      | true =>
        have : v = w := hv rfl hr
        rw [← this]
        exact ⟨rfl, rfl⟩
    have hforget : (a.event t w : Ev ι).forget = (a.event t v).forget := by
      cases hr : a.reads with
      | false => simp only [Ev.forget, Acc.event, hr, Bool.false_eq_true, if_false, hw.2]
      | true =>
        have : v = w := hv rfl hr
        rw [← this]
    let mem' : VMem := match a.upd with
      | none => y.mem
      | some f => y.mem.write a.addr a.n (f w)
    let y1 : System ι σ := { threads := fun u => if u = t then k w else y.threads u, mem := mem' }
    have hstep : y.step prog t = some y1 := by
      simp only [System.step, hy, Acc.perform, hal, if_true, Option.map_some]
      rfl
    have hev : y.event t = [a.event t w] := by simp only [System.event, hy]; rfl
    refine ⟨[t], a.event t w, y1, ?_, hforget, ?_, ?_, ?_, fun u hu => by simp [y1, hu]⟩
    · simp [System.trace, hstep, hev]
    · have := hw.2
      simp only [memAfter, Acc.event, ← this, y1, mem']
      cases a.upd <;> rfl
    · simp only [y1, if_true, hw.1]
      exact hem
    · simp only [y1, if_true]
      exact hc2 w
  | @fence o k m _ hem _ =>
    cases hl
    let y1 : System ι σ := { threads := fun u => if u = t then k else y.threads u, mem := y.mem }
    have hstep : y.step prog t = some y1 := by simp only [System.step, hy]; rfl
    have hev : y.event t = [fenceEvent t o] := by simp only [System.event, hy]; rfl
    refine ⟨[t], fenceEvent t o, y1, ?_, rfl, rfl, ?_, ?_, fun u hu => by simp [y1, hu]⟩
    · simp [System.trace, hstep, hev]
    · simp only [y1, if_true]
      exact hem
    · simp only [y1, if_true]
      exact hc

/-- A thread goes on to where it ends. -/
theorem step_end (prog : ι → σ → Code σ) (t : ι) (c c' : Code σ) (l : List (Ev ι)) (h : Emits (prog t) t c l c') (hl : l = [])
    (y : System ι σ) (hy : y.threads t = c) :
    ∃ s y', System.trace prog s y = some ([], y') ∧ y'.mem = y.mem ∧ y'.threads t = c' ∧ ∀ u, u ≠ t → y'.threads u = y.threads u := by
  induction h generalizing y with
  | nil => exact ⟨[], y, rfl, rfl, hy, fun _ _ => rfl⟩
  | @next a _ _ _ ih =>
    let y1 : System ι σ := { threads := fun u => if u = t then prog t a else y.threads u, mem := y.mem }
    have hstep : y.step prog t = some y1 := by simp only [System.step, hy]; rfl
    have hev : y.event t = [] := by simp only [System.event, hy]
    obtain ⟨s, y', h1, h2, h3, h4⟩ := ih hl y1 (by simp [y1])
    refine ⟨t :: s, y', ?_, h2, h3, fun u hu => ?_⟩
    · simp [System.trace, hstep, h1, hev]
    · rw [h4 u hu]
      simp [y1, hu]
  | acc => cases hl
  | fence => cases hl

theorem steps_end (prog : ι → σ → Code σ) (c' : ι → Code σ) (all : List ι) (hnd : all.Nodup) (y : System ι σ)
    (h : ∀ t ∈ all, Emits (prog t) t (y.threads t) [] (c' t)) :
    ∃ s y', System.trace prog s y = some ([], y') ∧ y'.mem = y.mem ∧ (∀ t ∈ all, y'.threads t = c' t) ∧
      ∀ u, u ∉ all → y'.threads u = y.threads u := by
  induction all generalizing y with
  | nil => exact ⟨[], y, rfl, rfl, (fun t ht => by cases ht), fun _ _ => rfl⟩
  | cons t all ih =>
    obtain ⟨hn, hnd'⟩ := List.nodup_cons.1 hnd
    obtain ⟨s1, y1, h1, hm1, h2, h3⟩ := step_end prog t _ _ _ (h t List.mem_cons_self) rfl y rfl
    obtain ⟨s2, y2, h4, hm2, h5, h6⟩ := ih hnd' y1 fun u hu => by
      rw [h3 u (fun h => hn (h ▸ hu))]
      exact h u (List.mem_cons_of_mem _ hu)
    refine ⟨s1 ++ s2, y2, by simp [trace_append, h1, h4], hm2.trans hm1, fun u hu => ?_, fun u hu => ?_⟩
    · rcases List.mem_cons.1 hu with rfl | hu
      · rw [h6 u hn, h2]
      · exact h5 u hu
    · rw [h6 u (fun h => hu (List.mem_cons_of_mem _ h)), h3 u (fun h => hu (h ▸ List.mem_cons_self))]

/-- Events in an order in which reads find what was left are an interleaving. -/
theorem run_events (prog : ι → σ → Code σ) (hprog : ∀ t s, (prog t s).Stores) (c' : ι → Code σ) (all : List ι) (hnd : all.Nodup)
    (hall : ∀ t, t ∈ all) (M : List (Ev ι)) (y : System ι σ) (hc : ∀ t, (y.threads t).Stores)
    (hem : ∀ t, Emits (prog t) t (y.threads t) (M.filter (·.thread = t)) (c' t)) (hv : SCvalid y.mem M) :
    ∃ s tr y', System.trace prog s y = some (tr, y') ∧ tr.map Ev.forget = M.map Ev.forget ∧ y'.mem = memAfter y.mem M ∧
      y'.threads = c' := by
  induction M generalizing y with
  | nil =>
    obtain ⟨s, y', h1, h2, h3, -⟩ := steps_end prog c' all hnd y fun t _ => hem t
    exact ⟨s, [], y', h1, rfl, h2, funext fun t => h3 t (hall t)⟩
  | cons e M ih =>
    have ht := hem e.thread
    rw [List.filter_cons_of_pos (by simp)] at ht
    obtain ⟨s, e', y1, h1, h2, h3, h4, h5, h6⟩ := step_event prog hprog e.thread _ _ e _ _ ht rfl y rfl (hc _) hv.1
    obtain ⟨s', tr, y2, h7, h8, h9, h10⟩ := ih y1 (fun t => by
        by_cases hte : t = e.thread
        · rw [hte]; exact h5
        · rw [h6 t hte]; exact hc t) (fun t => by
        by_cases hte : t = e.thread
        · rw [hte]; exact h4
        · rw [h6 t hte]
          have := hem t
          rwa [List.filter_cons_of_neg (by simpa using fun h => hte h.symm)] at this) (by rw [h3]; exact hv.2)
    refine ⟨s ++ s', e' :: tr, y2, by simp [trace_append, h1, h7], by simp [h2, h8], ?_, h10⟩
    rw [h9, h3]
    rfl

/-- An execution whose accesses have such an order is an interleaving. -/
theorem interleaving_of_order (prog : ι → σ → Code σ) (hprog : ∀ t s, (prog t s).Stores) (all : List ι) (hnd : all.Nodup)
    (hall : ∀ t, t ∈ all) (mem : VMem) (X : Exec ι) (hX : X.Consistent mem)
    (hlt : ∀ N : List (ι × Nat), (∀ i e, X.at? i = some e → i ∈ N) → ∃ lt, Exec.Order X lt) (hdef : X.Defined)
    (hsize : ∀ i e, X.at? i = some e → e.isFence = false → 0 < e.n ∧ e.n ≤ 2 ^ 64) (c c' : ι → Code σ) (hc : ∀ t, (c t).Stores)
    (hem : ∀ t, Emits (prog t) t (c t) (X.ev t) (c' t)) :
    ∃ schedule tr y', System.trace prog schedule { threads := c, mem } = some (tr, y') ∧ y'.threads = c' ∧
      (∀ t, (tr.filter (·.thread = t)).map Ev.forget = (X.ev t).map Ev.forget) ∧
      ∀ w e, X.last w → X.at? w = some e → e.new = some (y'.mem.read e.addr e.n) := by
  let own (t : ι) : List (ι × Nat) := (List.range (X.ev t).length).map (t, ·)
  let N : List (ι × Nat) := all.flatMap own
  have hmemN : ∀ i, i ∈ N ↔ i.2 < (X.ev i.1).length := by
    intro i
    simp only [N, own, List.mem_flatMap, List.mem_map, List.mem_range]
    constructor
    · rintro ⟨t, -, k, hk, rfl⟩
      exact hk
    · intro h
      exact ⟨i.1, hall _, i.2, h, rfl⟩
  have hNnd : N.Nodup := by
    simp only [N, List.Nodup, List.pairwise_flatMap]
    refine ⟨fun t _ => ?_, hnd.imp fun {t u} htu x hx y hy => ?_⟩
    · simp only [own, List.pairwise_map]
      exact List.nodup_range.imp fun {a b} hab h => hab (by cases h; rfl)
    · simp only [own, List.mem_map] at hx hy
      obtain ⟨_, _, rfl⟩ := hx
      obtain ⟨_, _, rfl⟩ := hy
      intro h
      cases h
      exact htu rfl
  obtain ⟨lt, hord⟩ := hlt N fun i e h => (hmemN i).2 (List.getElem?_eq_some_iff.1 (show (X.ev i.1)[i.2]? = some e from h)).1
  obtain ⟨L, hperm, hsort⟩ := exists_sorted lt hord.trans hord.irrefl N
  have hLnd : L.Nodup := hperm.nodup_iff.2 hNnd
  have hLall : ∀ i e, X.at? i = some e → i ∈ L := fun i e h =>
    hperm.mem_iff.2 ((hmemN i).2 (List.getElem?_eq_some_iff.1 (show (X.ev i.1)[i.2]? = some e from h)).1)
  have hfence : ∀ i e, X.at? i = some e → e.isFence = true → e.new = none := fun i e h =>
    emits_fence (hem i.1) e (List.mem_of_getElem? (show (X.ev i.1)[i.2]? = some e from h))
  have hvalid := Exec.sorted_valid hX hord hdef hsize hfence L hLnd hLall hsort
  have hown : ∀ t, L.filter (·.1 = t) = own t := by
    intro t
    have hp : (L.filter (·.1 = t)).Perm (own t) := by
      refine (List.perm_ext_iff_of_nodup (hLnd.filter _) ?_).2 fun i => ?_
      · simp only [own, List.Nodup, List.pairwise_map]
        exact List.nodup_range.imp fun {a b} hab h => hab (by cases h; rfl)
      · simp only [List.mem_filter, hperm.mem_iff, hmemN, own, List.mem_map, List.mem_range, decide_eq_true_eq]
        constructor
        · rintro ⟨h, rfl⟩
          exact ⟨i.2, h, rfl⟩
        · rintro ⟨k, hk, rfl⟩
          exact ⟨hk, rfl⟩
    have hmem : ∀ i, i ∈ L.filter (·.1 = t) → i.1 = t ∧ i.2 < (X.ev t).length := by
      intro i hi
      have h := hp.mem_iff.1 hi
      simp only [own, List.mem_map, List.mem_range] at h
      obtain ⟨k, hk, rfl⟩ := h
      exact ⟨rfl, hk⟩
    refine hp.eq_of_pairwise (le := fun x y => x.2 ≤ y.2) ?_ ?_ ?_
    · intro a b ha hb h1 h2
      have h3 := hmem a ha
      have h4 := hmem b (hp.mem_iff.2 hb)
      exact Prod.ext (h3.1.trans h4.1.symm) (Nat.le_antisymm h1 h2)
    · refine List.Pairwise.imp_of_mem ?_ (hsort.filter _)
      intro a b ha hb hab
      have h3 := hmem a ha
      have h4 := hmem b hb
      refine Nat.le_of_not_lt fun hlt => hab (hord.po _ _ ⟨h4.1.trans h3.1.symm, hlt, ?_⟩)
      have h5 : a.2 < (X.ev a.1).length := by rw [h3.1]; exact h3.2
      exact ⟨(X.ev a.1)[a.2], List.getElem?_eq_getElem h5, trivial⟩
    · simp only [own, List.pairwise_map]
      exact List.pairwise_lt_range.imp fun {a b} h => Nat.le_of_lt h
  have hfilter : ∀ t, (L.filterMap X.at?).filter (·.thread = t) = X.ev t := by
    intro t
    have h1 : (L.filterMap X.at?).filter (·.thread = t) = (L.filter (·.1 = t)).filterMap X.at? := by
      clear hperm hsort hLnd hLall hvalid hown
      induction L with
      | nil => rfl
      | cons i L ih =>
        cases hat : X.at? i with
        | none =>
          rw [List.filterMap_cons_none hat, ih, List.filter_cons]
          split
          · rw [List.filterMap_cons_none hat]
          · rfl
        | some e =>
          have := hX.thread i e hat
          rw [List.filterMap_cons_some hat, List.filter_cons, ih, List.filter_cons, this]
          split
          · rw [List.filterMap_cons_some hat]
          · rfl
    rw [h1, hown]
    simp only [own, List.filterMap_map]
    exact filterMap_range (X.ev t)
  obtain ⟨s, tr, y', h1, h2, h3, h4⟩ := run_events prog hprog c' all hnd hall (L.filterMap X.at?) { threads := c, mem } hc
    (fun t => by rw [hfilter]; exact hem t) hvalid
  refine ⟨s, tr, y', h1, h4, fun t => ?_, fun w e hw he => ?_⟩
  rotate_left
  · rw [h3]
    exact Exec.sorted_last hX hord hsize hfence L hLnd hLall hsort hw he
  have hth : ∀ e : Ev ι, e.forget.thread = e.thread := by
    intro e
    unfold Ev.forget
    split <;> rfl
  have hcomm : ∀ l : List (Ev ι), (l.filter (·.thread = t)).map Ev.forget = (l.map Ev.forget).filter (·.thread = t) := by
    intro l
    rw [List.filter_map]
    congr 1
    exact List.filter_congr fun e _ => by simp [hth]
  rw [hcomm, h2, ← hcomm, hfilter]

/-- C63: an execution that LLVM allows, without data races and `undef`, in which all atomic accesses are sequentially consistent, is an
interleaving: there is a schedule with which every thread performs the same accesses, reads the same values and ends in the same state, and the last write of every location is what
is in memory at the end. -/
theorem C63_race_free_interleaving (prog : ι → σ → Code σ) (hprog : ∀ t s, (prog t s).Stores) (all : List ι) (hnd : all.Nodup)
    (hall : ∀ t, t ∈ all) (mem : VMem) (X : Exec ι) (hX : X.Consistent mem) (hrf : X.RaceFree) (hsc : X.SeqCst) (hdef : X.Defined)
    (hsize : ∀ i e, X.at? i = some e → e.isFence = false → 0 < e.n ∧ e.n ≤ 2 ^ 64) (c c' : ι → Code σ) (hc : ∀ t, (c t).Stores)
    (hem : ∀ t, Emits (prog t) t (c t) (X.ev t) (c' t)) :
    ∃ schedule tr y', System.trace prog schedule { threads := c, mem } = some (tr, y') ∧ y'.threads = c' ∧
      (∀ t, (tr.filter (·.thread = t)).map Ev.forget = (X.ev t).map Ev.forget) ∧
      ∀ w e, X.last w → X.at? w = some e → e.new = some (y'.mem.read e.addr e.n) := by
  exact interleaving_of_order prog hprog all hnd hall mem X hX (fun N hN => ⟨_, Exec.order_of_raceFree hX hrf hsc hdef N hN⟩) hdef hsize
    c c' hc hem

/-- C63: an execution that LLVM allows, in which all accesses are atomic read-modify-writes of one location, is an interleaving, also if
they are not sequentially consistent. -/
theorem C63_rmw_interleaving (prog : ι → σ → Code σ) (hprog : ∀ t s, (prog t s).Stores) (all : List ι) (hnd : all.Nodup)
    (hall : ∀ t, t ∈ all) (mem : VMem) (X : Exec ι) (hX : X.Consistent mem) (hrmw : X.RmwOnly)
    (hsize : ∀ i e, X.at? i = some e → e.isFence = false → 0 < e.n ∧ e.n ≤ 2 ^ 64) (c c' : ι → Code σ) (hc : ∀ t, (c t).Stores)
    (hem : ∀ t, Emits (prog t) t (c t) (X.ev t) (c' t)) :
    ∃ schedule tr y', System.trace prog schedule { threads := c, mem } = some (tr, y') ∧ y'.threads = c' ∧
      (∀ t, (tr.filter (·.thread = t)).map Ev.forget = (X.ev t).map Ev.forget) ∧
      ∀ w e, X.last w → X.at? w = some e → e.new = some (y'.mem.read e.addr e.n) :=
  interleaving_of_order prog hprog all hnd hall mem X hX (fun _ _ => ⟨_, (Exec.order_of_rmw hX hrmw).1⟩) (Exec.order_of_rmw hX hrmw).2 hsize
    c c' hc hem

end Verif.Conc
