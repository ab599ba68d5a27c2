import Verif.Lift.Chain
import Verif.Lift.Override

/-!
C59, C61: functions lifted from code in a table, and call functions that are the dispatcher itself: programs
with nested and recursive calls run by lifted functions.
-/

namespace Verif.Lift

open Verif.Decode Verif.IR

variable {P R V M MS : Type}

/-! ### Specification -/

/-- The guest machine returns from a function: it executes `n` instructions, of which the last is a return
and no other one is, and gets from `m` to `m'`. -/
inductive Guest.Returns (G : Guest P MS) (code : Decoder P) (slide : BitVec 64) (ret : Inst P → Bool) :
    Nat → MS → MS → Prop where
  | ret {i : Inst P} {m m' : MS} : code i.start = some (i.len, i.payload) → G.pc m = i.start + slide →
      ret i = true → G.step i m = some m' → G.Returns code slide ret 1 m m'
  | step {i : Inst P} {m m1 m' : MS} {n : Nat} : code i.start = some (i.len, i.payload) →
      G.pc m = i.start + slide → ret i = false → G.step i m = some m1 →
      G.Returns code slide ret n m1 m' → G.Returns code slide ret (n + 1) m m'

open Classical in
/-- What a call does to the guest machine `G f`, where `f` tells what the calls in the called function
do: it runs until it returns.  Calls may be nested `j` deep. -/
noncomputable def guestCall (G : (MS → Option MS) → Guest P MS) (code : Decoder P) (slide : BitVec 64)
    (ret : Inst P → Bool) : Nat → MS → Option MS
  | 0, _ => none
  | j + 1, m =>
    if h : ∃ m' n, (G (guestCall G code slide ret j)).Returns code slide ret n m m' then some h.choose
    else none

/-! ### Model -/

/-- The function with these blocks was lifted from the code at address `a`: some decode calls, all on the same
code, then lifting, with the instructions meeting the conditions `side`. -/
def Compiled.FromCode [DecidableEq R] (u : Compiled P R V M) (cls : Classifier P) (callFn : Bool) (code : Decoder P)
    (slide : BitVec 64) (side : List (Inst P) → Prop) (a : Addr) : Prop :=
  ∃ (h : List (Call P)) (fn : Fn P) (known : Bool) (regs : List R) (fuel : Nat) (d : DInstr P),
    Hist cls h fn ∧ (∀ c ∈ h, c.dec = code) ∧ Counted cls callFn h fn ∧
    lift known u.lifter.toSLifter fn = .ok u.graph ∧ (∀ r, r ∈ regs) ∧
    optimizePacks u.lifter u.graph (packIds fn) regs fuel = some u.plan ∧
    (∀ c, FoldOK u.lifter slide u.graph c) ∧ fn.instrs.head? = some d ∧ d.inst.start = a ∧ side fn.insts

open Classical in
/-- The dispatcher as call function: it runs lifted functions until one of them returns (with the dispatcher as
tail function), where the functions in the table `T g` call `g` for calls.  Nested calls are at most `j` deep;
`none` is undefined behaviour, or no result. -/
noncomputable def dispatch [DecidableEq R] (T : (CPU R V M → Option (CPU R V M)) → Addr → Option (Compiled P R V M))
    (drop : R → V → Bool) (slide : BitVec 64) (out0 : CPU R V M → Id → R → V) :
    Nat → CPU R V M → Option (CPU R V M)
  | 0, _ => none
  | j + 1, c =>
    if h : ∃ c' K, runChain (T (dispatch T drop slide out0 j)) id drop slide out0 K (.out c) = some (.stop c')
    then some h.choose else none

/-! ### Facts about the guest machine -/

theorem returns_step {G : Guest P MS} {code : Decoder P} {slide : BitVec 64} {ret : Inst P → Bool} {n : Nat}
    {m m' : MS} (h : G.Returns code slide ret n m m') {i : Inst P}
    (hi : code i.start = some (i.len, i.payload)) (hpc : G.pc m = i.start + slide) :
    ∃ m1, G.step i m = some m1 ∧ ((ret i = true ∧ n = 1 ∧ m1 = m') ∨
      (ret i = false ∧ ∃ n', n = n' + 1 ∧ G.Returns code slide ret n' m1 m')) := by
  have same : ∀ j : Inst P, code j.start = some (j.len, j.payload) → G.pc m = j.start + slide → j = i := by
    intro j hj hp
    have hs : j.start = i.start := by
      rw [hpc, BitVec.add_left_inj] at hp; exact hp.symm
    rw [hs, hi] at hj
    simp only [Option.some.injEq, Prod.mk.injEq] at hj
    rcases i with ⟨_, _, _⟩
    rcases j with ⟨_, _, _⟩
    simp only at hs hj
    rw [hs, hj.1, hj.2]
  cases h with
  | ret h1 h2 h3 h4 =>
    obtain rfl := same _ h1 h2
    exact ⟨_, h4, .inl ⟨h3, rfl, rfl⟩⟩
  | step h1 h2 h3 h4 h5 =>
    obtain rfl := same _ h1 h2
    exact ⟨_, h4, .inr ⟨h3, _, rfl, h5⟩⟩

theorem returns_run {G : Guest P MS} {code : Decoder P} {slide : BitVec 64} {ret : Inst P → Bool} {n : Nat}
    {m m' : MS} (h : G.Returns code slide ret n m m') : 1 ≤ n ∧ G.run code slide n m = some m' := by
  induction h with
  | ret h1 h2 h3 h4 => exact ⟨Nat.le_refl _, by simp [Guest.run, next_eq h1 h2, h4]⟩
  | step h1 h2 h3 h4 h5 ih =>
    exact ⟨by omega, by simp only [Guest.run, next_eq h1 h2, h4, Option.bind_some]; exact ih.2⟩

/-- The end state is determined. -/
theorem returns_det {G : Guest P MS} {code : Decoder P} {slide : BitVec 64} {ret : Inst P → Bool} {n n' : Nat}
    {m m1 m2 : MS} (h1 : G.Returns code slide ret n m m1) (h2 : G.Returns code slide ret n' m m2) :
    m1 = m2 := by
  induction h1 generalizing n' m2 with
  | ret g1 g2 g3 g4 =>
    obtain ⟨m3, k1, ⟨-, -, k2⟩ | ⟨k2, -⟩⟩ := returns_step h2 g1 g2
    · rw [g4] at k1; cases k1; exact k2
    · rw [g3] at k2; cases k2
  | step g1 g2 g3 g4 g5 ih =>
    obtain ⟨m3, k1, ⟨k2, -⟩ | ⟨-, n3, -, k3⟩⟩ := returns_step h2 g1 g2
    · rw [g3] at k2; cases k2
    · rw [g4] at k1; cases k1; exact ih k3

/-- Straight-line code without a return. -/
theorem follow_returns {G : Guest P MS} {code : Decoder P} {slide : BitVec 64} {ret ok : Inst P → Bool} :
    ∀ (body : List (Inst P)), (∀ i ∈ body, code i.start = some (i.len, i.payload)) →
      (∀ i ∈ body.dropLast, ok i = true) → (∀ i ∈ body, ok i = true → ret i = false) →
      ∀ {n : Nat} {m m2 m' : MS}, G.Follow ok slide body m m2 → G.Returns code slide ret n m m' →
        ∃ n', n = body.countP ok + n' ∧ G.Returns code slide ret n' m2 m' := by
  intro body
  induction body with
  | nil =>
    intro _ _ _ n m m2 m' hf hr
    obtain rfl : m2 = m := hf
    exact ⟨n, by simp, hr⟩
  | cons i is ih =>
    intro hc ho hn n m m2 m' hf hr
    obtain ⟨hpc, hf⟩ := hf
    by_cases hok : ok i = true
    · rw [if_pos hok] at hf
      obtain ⟨m1, hst, hf⟩ := hf
      obtain ⟨m3, k1, ⟨k2, -⟩ | ⟨-, n3, rfl, k3⟩⟩ := returns_step hr (hc i (by simp)) hpc
      · rw [hn i (by simp) hok] at k2; cases k2
      · rw [hst] at k1; cases k1
        obtain ⟨n', rfl, h⟩ := ih (fun x hx => hc x (List.mem_cons_of_mem _ hx))
          (fun x hx => ho x (by
            cases is with
            | nil => simp at hx
            | cons j is => rw [List.dropLast_cons_cons]; exact List.mem_cons_of_mem _ hx))
          (fun x hx => hn x (List.mem_cons_of_mem _ hx)) hf k3
        exact ⟨n', by rw [List.countP_cons_of_pos hok]; omega, h⟩
    · rw [if_neg hok] at hf
      subst hf
      obtain rfl : is = [] := by
        cases is with
        | nil => rfl
        | cons j is => exact absurd (ho i (by rw [List.dropLast_cons_cons]; simp)) hok
      exact ⟨n, by simp [hok], hr⟩

/-- Straight-line code that ends with a return. -/
theorem follow_ret {G : Guest P MS} {code : Decoder P} {slide : BitVec 64} {ret ok : Inst P → Bool} :
    ∀ (body : List (Inst P)), (∀ i ∈ body, code i.start = some (i.len, i.payload)) →
      (∀ i ∈ body.dropLast, ok i = true ∧ ret i = false) →
      (∃ i, body.getLast? = some i ∧ ok i = true ∧ ret i = true) →
      ∀ {n : Nat} {m m2 m' : MS}, G.Follow ok slide body m m2 → G.Returns code slide ret n m m' →
        n = body.countP ok ∧ m2 = m' := by
  intro body
  induction body with
  | nil => intro _ _ ⟨i, hi, _⟩; cases hi
  | cons i is ih =>
    intro hc ho hl n m m2 m' hf hr
    obtain ⟨hpc, hf⟩ := hf
    obtain ⟨m3, k1, h⟩ := returns_step hr (hc i (by simp)) hpc
    cases is with
    | nil =>
      obtain ⟨j, hj, hok, hret⟩ := hl
      simp only [List.getLast?_singleton, Option.some.injEq] at hj
      subst hj
      rw [if_pos hok] at hf
      obtain ⟨m1, hst, hf⟩ := hf
      obtain rfl : m1 = m3 := by rw [hst] at k1; exact Option.some.inj k1
      obtain rfl : m2 = m1 := hf
      rcases h with ⟨-, rfl, rfl⟩ | ⟨h, -⟩
      · exact ⟨by simp [hok], rfl⟩
      · rw [hret] at h; cases h
    | cons j is =>
      obtain ⟨hok, hnr⟩ := ho i (by rw [List.dropLast_cons_cons]; simp)
      rw [if_pos hok] at hf
      obtain ⟨m1, hst, hf⟩ := hf
      rw [hst] at k1; cases k1
      rcases h with ⟨h, -⟩ | ⟨-, n', rfl, h⟩
      · rw [hnr] at h; cases h
      · obtain ⟨h1, h2⟩ := ih (fun x hx => hc x (List.mem_cons_of_mem _ hx))
          (fun x hx => ho x (by rw [List.dropLast_cons_cons]; exact List.mem_cons_of_mem _ hx))
          (by rwa [List.getLast?_cons_cons] at hl) hf h
        exact ⟨by rw [List.countP_cons_of_pos hok]; omega, h2⟩

/-- A machine that returns does not get stuck on the way. -/
theorem stuck_returns {G : Guest P MS} {code : Decoder P} {slide : BitVec 64} {ret ok : Inst P → Bool}
    {body : List (Inst P)} (hc : ∀ i ∈ body, code i.start = some (i.len, i.payload))
    (ho : ∀ i ∈ body.dropLast, ok i = true ∧ ret i = false) {n : Nat} {m m' : MS}
    (hs : G.StuckIn code slide body m) (hr : G.Returns code slide ret n m m') : False := by
  obtain ⟨j, m1, i, hj, hf, -, hpc, hst⟩ := hs
  have hlt : j < body.length := by
    have := List.getElem?_eq_some_iff.1 hj
    exact this.1
  have hsub : ∀ x ∈ body.take j, x ∈ body.dropLast := by
    intro x hx
    rw [List.dropLast_eq_take]
    exact (List.take_sublist_take_left (by omega)).subset hx
  obtain ⟨n', -, h⟩ := follow_returns (body.take j) (fun x hx => hc x (List.mem_of_mem_take hx))
    (ok := fun _ => true) (fun _ _ => rfl) (fun x hx _ => (ho x (hsub x hx)).2) hf hr
  obtain ⟨m3, h3, -⟩ := returns_step h (hc i (List.mem_of_getElem? hj)) hpc
  rw [hst] at h3; cases h3

/-! ### Facts about the blocks -/

/-- The blocks of a lifted function: instructions other than the last of a block are lifted and do not
return, and the code of a block returns if and only if its last instruction does. -/
structure RetGraph (L : SLifter P) (code : Decoder P) (ret : Inst P → Bool) (g : Graph P) (ids : Id → Prop) :
    Prop where
  entry : ∃ bb x, g .entry = some bb ∧ bb.term = some (.br x) ∧ ids x
  genuine : ∀ a, ids (.at a) → ∃ bb, g (.at a) = some bb ∧
    (∀ i ∈ bb.body, code i.start = some (i.len, i.payload)) ∧
    (∀ i ∈ bb.body.dropLast, L.ok i = true ∧ ret i = false) ∧
    (bb.term = none → ∃ i, bb.body.getLast? = some i ∧ L.ok i = true ∧ ret i = true) ∧
    (bb.term ≠ none → ∀ i ∈ bb.body, L.ok i = true → ret i = false) ∧
    ∀ t, bb.term = some t → ∀ x ∈ succsOf t, ids x
  notEntry : ¬ ids .entry

theorem termAt_mem (f : Form) (slide pc : BitVec 64) (t : Term) : termAt f slide pc t ∈ succsOf t := by
  cases t with
  | br x => simp [termAt, succsOf]
  | cond x y =>
    simp only [termAt, succsOf]
    split <;> (try split) <;> simp

/-- The walk of a machine that returns through the blocks of the function. -/
theorem walk_returns {L : SLifter P} {slide : BitVec 64} {g : Graph P} {G : Guest P MS} {code : Decoder P}
    {ret : Inst P → Bool} {ids : Id → Prop} (hg : RetGraph L code ret g ids) {m m' : MS} {N : Nat}
    (hr : G.Returns code slide ret N m m') {k n : Nat} {l : Loc} {m1 : MS}
    (h : Walk L slide g G m k n l m1) :
    (l = .done false ∧ N = n ∧ m1 = m') ∨ ((∀ b, l = .at b → b = .entry ∨ ids b) ∧ l ≠ .done false ∧
      ∃ n', N = n + n' ∧ G.Returns code slide ret n' m1 m') := by
  induction h with
  | start =>
    refine .inr ⟨?_, by simp, N, by omega, hr⟩
    intro b hb; cases hb; exact .inl rfl
  | @step k n l m1 m2 _ hf ih =>
    rcases ih with ⟨rfl, rfl, rfl⟩ | ⟨hids, hne, n', rfl, hr'⟩
    · obtain rfl : m2 = m1 := hf
      exact .inl ⟨rfl, rfl, rfl⟩
    · cases l with
      | done v =>
        obtain rfl : m2 = m1 := hf
        cases v with
        | false => exact absurd rfl hne
        | true => exact .inr ⟨(by intro b hb; cases hb), (by simp [nextLoc]), n', rfl, hr'⟩
      | «at» b =>
        cases b with
        | exit =>
          obtain rfl : m2 = m1 := hf
          exact .inr ⟨(by intro b hb; cases hb), (by simp [nextLoc]), n', rfl, hr'⟩
        | entry =>
          obtain rfl : m2 = m1 := hf
          obtain ⟨bb, x, h1, h2, h3⟩ := hg.entry
          refine .inr ⟨?_, by simp [nextLoc, h1, h2], n', rfl, hr'⟩
          intro b hb
          simp only [nextLoc, h1, h2, termAt, Loc.at.injEq] at hb
          subst hb; exact .inr h3
        | «at» a =>
          have ha : ids (.at a) := by
            rcases hids _ rfl with h | h
            · cases h
            · exact h
          obtain ⟨bb, h1, h2, h3, h4, h5, h6⟩ := hg.genuine a ha
          have hbody : bodyAt g (.at (.at a)) = bb.body := by simp only [bodyAt, h1]
          rw [hbody] at hf ⊢
          cases ht : bb.term with
          | none =>
            obtain ⟨g1, g2⟩ := follow_ret bb.body h2 h3 (h4 ht) hf hr'
            exact .inl ⟨by simp only [nextLoc, h1, ht], by omega, g2⟩
          | some t =>
            obtain ⟨n2, rfl, g2⟩ := follow_returns bb.body h2 (fun i hi => (h3 i hi).1)
              (h5 (by rw [ht]; simp)) hf hr'
            refine .inr ⟨?_, by simp [nextLoc, h1, ht], n2, by omega, g2⟩
            intro b hb
            simp only [nextLoc, h1, ht, Loc.at.injEq] at hb
            subst hb
            exact .inr (h6 t ht _ (termAt_mem _ _ _ _))

theorem lifted_inner_ok (L : SLifter P) : ∀ l : List (DInstr P), ∀ x ∈ (lifted L l).dropLast,
    L.ok x.inst = true := by
  intro l
  induction l with
  | nil => intro x hx; simp [lifted] at hx
  | cons d ds ih =>
    intro x hx
    rw [lifted] at hx
    split at hx
    next hok =>
      cases hl : lifted L ds with
      | nil => rw [hl] at hx; simp at hx
      | cons e es =>
        rw [hl, List.dropLast_cons_cons, ← hl] at hx
        rcases List.mem_cons.1 hx with rfl | hx
        · exact hok
        · exact ih x hx
    · simp at hx

/-- Functions lifted from code have such blocks. -/
theorem ret_graph {cls : Classifier P} {h : List (Call P)} {fn : Fn P} (H : Hist cls h fn) {code : Decoder P}
    (hcalls : ∀ c ∈ h, c.dec = code) {known : Bool} {L : SLifter P} {g : Graph P}
    (hl : lift known L fn = .ok g) {ret : Inst P → Bool}
    (hret : ∀ i ∈ fn.insts, L.ok i = true → (L.form i = .returned ↔ ret i = true))
    (hfail : ∀ i ∈ fn.insts, L.ok i = false → L.form i ≠ .returned) :
    ∃ ids, RetGraph L code ret g ids := by
  obtain ⟨e, bs, g0, -, hf, hs, HG, rfl⟩ := lift_inv H hl
  have hgen : ∀ i ∈ fn.insts, code i.start = some (i.len, i.payload) := by
    intro i hi
    obtain ⟨c, hc, hd⟩ := C01_genuine H i hi
    rw [← hcalls c hc]; exact hd
  refine ⟨fun b => b = .exit ∨ ∃ r ∈ bs, b = .at r.1.inst.start, ?_, ?_, by simp⟩
  · have he : sealExit g0 .entry = _ := HG.entryB
    refine ⟨_, _, he, rfl, .inr ?_⟩
    obtain ⟨b, hb, hbe⟩ := run_of_start hf hs (entry_ok HG).2
    exact ⟨b, hb, by rw [hbe]⟩
  · rintro a (h | ⟨b, hb, h⟩)
    · cases h
    obtain rfl : a = b.1.inst.start := by simpa using h
    obtain ⟨-, bb, hbb, hB⟩ := HG.built b hb
    have hgb : sealExit g0 (.at b.1.inst.start) = some bb := hbb
    have hmem : ∀ i ∈ bb.body, i ∈ fn.insts := by
      intro i hi
      rw [hB.body] at hi
      obtain ⟨x, hx, rfl⟩ := List.mem_map.1 hi
      exact List.mem_map.2 ⟨x, run_mem hf hb x (lifted_sub _ _ x hx), rfl⟩
    have hinner : ∀ i ∈ bb.body.dropLast, L.ok i = true ∧ ret i = false := by
      intro i hi
      have hi' := hmem i (List.mem_of_mem_dropLast hi)
      rw [hB.body, ← List.map_dropLast] at hi
      obtain ⟨x, hx, rfl⟩ := List.mem_map.1 hi
      have hok := lifted_inner_ok _ _ x hx
      refine ⟨hok, ?_⟩
      have := hB.inner x hx
      cases hr : ret x.inst with
      | false => rfl
      | true => exact absurd ((hret _ hi' hok).2 hr) this
    have hlast : bb.body.getLast? = some (lastOf L b.1 b.2).inst := by
      rw [hB.body, List.getLast?_map, List.getLast?_eq_some_getLast (lifted_ne_nil L b.1 b.2)]
      rfl
    have hlm : (lastOf L b.1 b.2).inst ∈ fn.insts := hmem _ (List.mem_of_getLast? hlast)
    have hterm : bb.term = none ↔ L.form (lastOf L b.1 b.2).inst = .returned := by
      rw [hB.term]
      unfold termOf
      split <;> simp_all
    refine ⟨bb, hgb, fun i hi => hgen i (hmem i hi), hinner, ?_, ?_, ?_⟩
    · intro ht
      have hform := hterm.1 ht
      have hok : L.ok (lastOf L b.1 b.2).inst = true := by
        cases ho : L.ok (lastOf L b.1 b.2).inst with
        | true => rfl
        | false => exact absurd hform (hfail _ hlm ho)
      exact ⟨_, hlast, hok, (hret _ hlm hok).1 hform⟩
    · intro ht i hi hok
      have hsplit := List.dropLast_append_getLast? _ hlast
      rw [← hsplit] at hi
      rcases List.mem_append.1 hi with hi | hi
      · exact (hinner i hi).2
      · rw [List.mem_singleton] at hi
        subst hi
        cases hr : ret (lastOf L b.1 b.2).inst with
        | false => rfl
        | true => exact absurd (hterm.2 ((hret _ hlm hok).2 hr)) ht
    · intro t ht x hx
      rw [hB.term] at ht
      cases x with
      | exit => exact .inl rfl
      | entry =>
        have hm : Id.entry ∈ succsOpt (termOf L (countEntry fn e) (lastOf L b.1 b.2)) := by
          rw [ht]; exact hx
        rcases termOf_succs L (countEntry fn e) (lastOf L b.1 b.2) _ hm with h | ⟨c, h⟩ <;> cases h
      | «at» c =>
        have hm : Id.at c ∈ succsOpt (termOf L (countEntry fn e) (lastOf L b.1 b.2)) := by
          rw [ht]; exact hx
        obtain ⟨-, hst⟩ := pcTerm_valid _ _ _ _ hm
        obtain ⟨r, hr, hrs⟩ := run_of_start hf hs hst
        exact .inr ⟨r, hr, by rw [hrs]⟩

/-! ### Running lifted functions until they return -/

section
variable [DecidableEq R] {T : Addr → Option (Compiled P R V M)} {again : Bool → Bool} {drop : R → V → Bool}
  {slide : BitVec 64} {out0 : CPU R V M → Id → R → V}
  {G : Guest P MS} {code : Decoder P} {rel : MS → (R → V) → M → Prop} {ret : Inst P → Bool}

theorem runChain_add (K : Nat) (x : ChainCfg P R V M) : ∀ K' : Nat,
    runChain T again drop slide out0 (K + K') x
      = (runChain T again drop slide out0 K x).bind (runChain T again drop slide out0 K') := by
  intro K'
  induction K' with
  | zero => simp only [Nat.add_zero, runChain]; cases runChain T again drop slide out0 K x <;> rfl
  | succ K' ih =>
    rw [← Nat.add_assoc, runChain, ih]
    cases runChain T again drop slide out0 K x <;> rfl

theorem runChain_trans {K K' : Nat} {x y z : ChainCfg P R V M}
    (h1 : runChain T again drop slide out0 K x = some y)
    (h2 : runChain T again drop slide out0 K' y = some z) :
    runChain T again drop slide out0 (K + K') x = some z := by
  rw [runChain_add, h1]; exact h2

theorem runChain_stop {K K' : Nat} {x : ChainCfg P R V M} {c c' : CPU R V M}
    (h1 : runChain T again drop slide out0 K x = some (.stop c))
    (h2 : runChain T again drop slide out0 K' x = some (.stop c')) : c = c' := by
  have hs : ∀ n (c : CPU R V M), runChain T again drop slide out0 n (.stop c) = some (.stop c) := by
    intro n c
    induction n with
    | zero => rfl
    | succ n ih => rw [runChain, ih]; rfl
  rcases Nat.le_total K K' with h | h
  · obtain ⟨d, rfl⟩ := Nat.exists_eq_add_of_le h
    rw [runChain_add, h1, Option.bind_some, hs] at h2
    cases h2; rfl
  · obtain ⟨d, rfl⟩ := Nat.exists_eq_add_of_le h
    rw [runChain_add, h2, Option.bind_some, hs] at h1
    cases h1; rfl

theorem chain_unit {u : Compiled P R V M} {v : Bool} {c : CPU R V M} (k : Nat) : ∀ x : SCfg R V M,
    runSsa u.lifter u.plan drop slide u.graph k x = some (.done v c) →
    ∃ K, runChain T again drop slide out0 K (.run u x) = some (.run u (.done v c)) := by
  induction k with
  | zero => intro x h; cases h; exact ⟨0, rfl⟩
  | succ k ih =>
    intro x h
    cases x with
    | done v' c' =>
      rw [runSsa] at h
      simp only [stepSsa, Option.bind_some] at h
      exact ih _ h
    | «at» q b e =>
      rw [runSsa] at h
      obtain ⟨y, h1, h2⟩ := Option.bind_eq_some_iff.1 h
      obtain ⟨K, hK⟩ := ih y h2
      refine ⟨1 + K, runChain_trans (y := .run u y) ?_ hK⟩
      simp only [runChain, Option.bind_some, stepChain, h1, Option.map_some]

/-- C61: if the guest machine returns from a function, the dispatcher, used as tail function, does so too: the
lifted functions it runs have no undefined behaviour, it comes to an end, and the CPU struct then holds the
state of the guest machine behind the return.  The dispatcher has a function for the address of every
instruction that the guest machine can execute. -/
theorem C61_returns_partial
    (hT : ∀ a u, T a = some u → u.InSync G code slide rel drop a ∧
      ∃ ids, RetGraph u.lifter.toSLifter code ret u.graph ids)
    (hcov : ∀ i m m', code i.start = some (i.len, i.payload) → G.pc m = i.start + slide →
      G.step i m = some m' → (T i.start).isSome)
    {N : Nat} {m m' : MS} (hr : G.Returns code slide ret N m m') (c : CPU R V M)
    (hc : rel m c.slot c.mem) (hcpc : c.pc = some (G.pc m)) :
    ∃ K c', runChain T id drop slide out0 K (.out c) = some (.stop c') ∧ rel m' c'.slot c'.mem ∧
      c'.pc = some (G.pc m') := by
  induction N using Nat.strongRecOn generalizing m c with
  | ind N ih =>
    obtain ⟨i, m0, hi, hpc, hst⟩ : ∃ i m0, code i.start = some (i.len, i.payload) ∧
        G.pc m = i.start + slide ∧ G.step i m = some m0 := by
      cases hr with
      | ret h1 h2 h3 h4 => exact ⟨_, _, h1, h2, h4⟩
      | step h1 h2 h3 h4 h5 => exact ⟨_, _, h1, h2, h4⟩
    obtain ⟨u, hu⟩ := Option.isSome_iff_exists.1 (hcov i m m0 hi hpc hst)
    obtain ⟨hsync, ids, hg⟩ := hT _ u hu
    have hbegin : runChain T id drop slide out0 1 (.out c) = some (.run u (ssaStart (out0 c) c)) := by
      have : G.pc m - slide = i.start := by rw [hpc, BitVec.add_sub_cancel]
      simp only [runChain, Option.bind_some, stepChain, hcpc, this, hu]
    rcases hsync m c c (out0 c) (out0 c) (N + 3) hpc hc hcpc hc hcpc with
      ⟨k', hk', n, m1, q, -, b, e, -, h1, hw, h2, -, h3, -, bb, h4, h5⟩ |
      ⟨n, m1, x, -, h1, h2, -, h3, -, -, hw, h4⟩
    · exfalso
      rcases walk_returns hg hr hw with ⟨hl, -⟩ | ⟨hids, -, n', -, hr'⟩
      · cases hl
      · rcases hids _ rfl with h | h
        · cases h
        · obtain ⟨bb', g1, g2, g3, -⟩ := hg.genuine b h
          rw [h4] at g1; cases g1
          exact stuck_returns g2 g3 h5 hr'
    · rcases walk_returns hg hr hw with ⟨hl, rfl, rfl⟩ | ⟨hids, hl, n', rfl, hr'⟩
      · cases x with
        | «at» q b e => cases hl
        | done v c1 =>
          cases hl
          obtain ⟨K, hK⟩ := chain_unit (T := T) (again := id) (out0 := out0) _ _ h2
          refine ⟨1 + K + 1, c1, runChain_trans (runChain_trans hbegin hK) ?_, h3.1, h3.2⟩
          rfl
      · have hn' : 1 ≤ n' := (returns_run hr').1
        cases x with
        | «at» q b e =>
          exfalso
          cases b with
          | entry => have : n + n' + 3 = 0 := h4; omega
          | exit => have : n + n' + 3 ≤ n + 2 := h4.1; omega
          | «at» a => have : n + n' + 3 ≤ n + 1 := h4; omega
        | done v c1 =>
          cases v with
          | false => exact absurd rfl hl
          | true =>
            obtain ⟨K, hK⟩ := chain_unit (T := T) (again := id) (out0 := out0) _ _ h2
            have h4 : 1 ≤ n := h4
            obtain ⟨K2, c2, h5, h6, h7⟩ := ih n' (by omega) hr' c1 h3.1 h3.2
            refine ⟨1 + K + 1 + K2, c2, runChain_trans (runChain_trans (runChain_trans hbegin hK) ?_) h5, h6, h7⟩
            rfl

end

/-! ### Nested calls -/

/-- The function `g` on the CPU struct does what `f` does to the guest machine. -/
def Does (rel : MS → (R → V) → M → Prop) (pc : MS → BitVec 64) (g : CPU R V M → Option (CPU R V M))
    (f : MS → Option MS) : Prop :=
  ∀ m m' c, rel m c.slot c.mem → c.pc = some (pc m) → f m = some m' →
    ∃ c', g c = some c' ∧ rel m' c'.slot c'.mem ∧ c'.pc = some (pc m')

/-- C61: the dispatcher as call function.  Lifted functions call the dispatcher both for calls of guest functions and
as tail function.  If a guest function, with the functions that it calls, nested at most `j` deep, returns in
a state, the dispatcher returns with this state in the CPU struct. -/
theorem C61_nested_partial [DecidableEq R]
    {T : (CPU R V M → Option (CPU R V M)) → Addr → Option (Compiled P R V M)}
    {G : (MS → Option MS) → Guest P MS} {pc : MS → BitVec 64} {code : Decoder P} {slide : BitVec 64}
    {rel : MS → (R → V) → M → Prop} {drop : R → V → Bool} {out0 : CPU R V M → Id → R → V}
    {ret : Inst P → Bool} (hpc : ∀ f, (G f).pc = pc)
    (hT : ∀ g f, Does rel pc g f → ∀ a u, T g a = some u → u.InSync (G f) code slide rel drop a ∧
      ∃ ids, RetGraph u.lifter.toSLifter code ret u.graph ids)
    (hcov : ∀ g f i m m', code i.start = some (i.len, i.payload) → pc m = i.start + slide →
      (G f).step i m = some m' → (T g i.start).isSome) (j : Nat) :
    Does rel pc (dispatch T drop slide out0 j) (guestCall G code slide ret j) := by
  induction j with
  | zero => intro m m' c _ _ h; cases h
  | succ j ih =>
    intro m m' c hc hcpc h
    rw [guestCall] at h
    split at h
    next hex =>
      obtain ⟨N, hr⟩ := hex.choose_spec
      cases h
      obtain ⟨K, c', h1, h2, h3⟩ := C61_returns_partial (out0 := out0) (hT _ _ ih)
        (fun i m m' hi hp => hcov _ _ i m m' hi (by rw [← hpc]; exact hp)) hr c hc (by rw [hpc]; exact hcpc)
      have hex' : ∃ c' K, runChain (T (dispatch T drop slide out0 j)) id drop slide out0 K (.out c)
          = some (.stop c') := ⟨c', K, h1⟩
      refine ⟨c', ?_, h2, by rw [hpc] at h3; exact h3⟩
      rw [dispatch, dif_pos hex']
      obtain ⟨K', h4⟩ := hex'.choose_spec
      rw [runChain_stop h4 h1]
    next => cases h

/-- C61: what a call does is what the machine that executes every instruction does: the shortcuts taken for nested
calls can be replaced by the instructions of the called functions. -/
theorem C61_base_partial {G : (MS → Option MS) → Guest P MS} {B : Guest P MS} {code : Decoder P}
    {slide : BitVec 64} {ret : Inst P → Bool}
    (hS : ∀ f, (∀ m m', f m = some m' → ∃ n, B.run code slide n m = some m') → Shortcut (G f) B code slide)
    (j : Nat) : ∀ m m', guestCall G code slide ret j m = some m' →
      ∃ n, 1 ≤ n ∧ B.run code slide n m = some m' := by
  induction j with
  | zero => intro m m' h; cases h
  | succ j ih =>
    intro m m' h
    rw [guestCall] at h
    split at h
    next hex =>
      obtain ⟨N, hr⟩ := hex.choose_spec
      cases h
      obtain ⟨h1, h2⟩ := returns_run hr
      obtain ⟨n, h3, h4⟩ := (hS _ (fun m m' h => by
        obtain ⟨n, -, hn⟩ := ih m m' h
        exact ⟨n, hn⟩)).run N _ _ h2
      exact ⟨n, by omega, h4⟩
    next => cases h

/-- A function whose nested calls are at most `j` deep can also be called with deeper ones. -/
theorem guestCall_mono {G : (MS → Option MS) → Guest P MS} {code : Decoder P} {slide : BitVec 64}
    {ret : Inst P → Bool} (hpc : ∀ f f', (G f).pc = (G f').pc)
    (hG : ∀ f f', (∀ m m', f m = some m' → f' m = some m') → ∀ i m m', (G f).step i m = some m' →
      (G f').step i m = some m') (j : Nat) :
    ∀ m m', guestCall G code slide ret j m = some m' → guestCall G code slide ret (j + 1) m = some m' := by
  induction j with
  | zero => intro m m' h; cases h
  | succ j ih =>
    intro m m' h
    rw [guestCall] at h
    split at h
    next hex =>
      obtain ⟨N, hr⟩ := hex.choose_spec
      cases h
      have hr' : (G (guestCall G code slide ret (j + 1))).Returns code slide ret N m hex.choose := by
        revert hr
        generalize hex.choose = m'
        intro hr
        induction hr with
        | ret h1 h2 h3 h4 => exact .ret h1 (by rw [hpc _ (guestCall G code slide ret j)]; exact h2) h3 (hG _ _ ih _ _ _ h4)
        | step h1 h2 h3 h4 _ ih' =>
          refine .step h1 (by rw [hpc _ (guestCall G code slide ret j)]; exact h2) h3 (hG _ _ ih _ _ _ h4) ?_
          exact ih' ⟨_, _, by assumption⟩
      have hex' : ∃ m' n, (G (guestCall G code slide ret (j + 1))).Returns code slide ret n m m' := ⟨_, _, hr'⟩
      rw [guestCall, dif_pos hex']
      obtain ⟨n, h⟩ := hex'.choose_spec
      rw [returns_det h hr']
    next => cases h

/-! ### Functions lifted from code -/

theorem Compiled.FromCode.inSync [DecidableEq R] {u : Compiled P R V M} {cls : Classifier P} {callFn : Bool}
    {code : Decoder P} {slide : BitVec 64} {side : List (Inst P) → Prop} {a : Addr}
    (H : u.FromCode cls callFn code slide side a) {G : Guest P MS} {rel : MS → (R → V) → M → Prop}
    {undef : V → Prop} {drop : R → V → Bool}
    (hok : ∀ is : List (Inst P), side is → (∀ i ∈ is, code i.start = some (i.len, i.payload)) →
      InstrOK cls callFn u.lifter G slide rel undef is)
    (hdrop : ∀ r v, drop r v = true → undef v) (hL : (∀ r v, drop r v = false) ∨ Blind undef u.lifter) :
    u.InSync G code slide rel drop a := by
  obtain ⟨h, fn, known, regs, fuel, d, h1, h2, h3, h4, h5, h6, h7, h8, rfl, h9⟩ := H
  intro m c c' out0 out0' k hm hc hcpc hc' hcpc'
  have hgen : ∀ i ∈ fn.insts, code i.start = some (i.len, i.payload) := by
    intro i hi
    obtain ⟨c, hc, hd⟩ := C01_genuine h1 i hi
    rw [← h2 c hc]; exact hd
  exact (hok _ h9 hgen).pair h1 h2 h3 h4 h5 h6 h7 hdrop hL h8 m hm c c' hc hcpc hc' hcpc' out0 out0' k

theorem Compiled.FromCode.retGraph [DecidableEq R] {u : Compiled P R V M} {cls : Classifier P} {callFn : Bool}
    {code : Decoder P} {slide : BitVec 64} {side : List (Inst P) → Prop} {a : Addr}
    (H : u.FromCode cls callFn code slide side a) {ret : Inst P → Bool}
    (hret : ∀ i, code i.start = some (i.len, i.payload) → u.lifter.ok i = true →
      (u.lifter.form i = .returned ↔ ret i = true))
    (hfail : ∀ i, u.lifter.ok i = false → u.lifter.form i ≠ .returned) :
    ∃ ids, RetGraph u.lifter.toSLifter code ret u.graph ids := by
  obtain ⟨h, fn, known, regs, fuel, d, h1, h2, h3, h4, h5, h6, h7, h8, rfl, h9⟩ := H
  have hgen : ∀ i ∈ fn.insts, code i.start = some (i.len, i.payload) := by
    intro i hi
    obtain ⟨c, hc, hd⟩ := C01_genuine h1 i hi
    rw [← h2 c hc]; exact hd
  exact ret_graph h1 h2 h4 (fun i hi => hret i (hgen i hi)) (fun i _ => hfail i)

end Verif.Lift
