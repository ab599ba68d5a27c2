import Verif.Lift.Props

/-!
Stores of the constant `undef` are left out (/repo/src/callconv.cc:349-351).  The registers of the
lifted function do not depend on it; only the CPU struct given to external functions and the one
returned may hold older values where otherwise an undefined value would be.
-/

namespace Verif.Lift

set_option linter.unusedSectionVars false
set_option linter.unusedSimpArgs false

open Verif.Decode Verif.IR

variable {P R V M MS : Type} [DecidableEq R]

/-- `c'` is `c` except where `c` is undefined. -/
def Patch (undef : V → Prop) (c c' : CPU R V M) : Prop :=
  c.pc = c'.pc ∧ c.mem = c'.mem ∧ ∀ r, c.slot r = c'.slot r ∨ undef (c.slot r)

/-- The external functions do not depend on undefined registers. -/
def Blind (undef : V → Prop) (L : Lifter P R V M) : Prop :=
  ∀ i g, Item.call g ∈ L.items i → ∀ c c' d, Patch undef c c' → g c = some d → g c' = some d

/-- Same run-time state up to slots with undefined values. -/
def RtPatch (undef : V → Prop) (x x' : Rt R V M) : Prop :=
  x.st = x'.st ∧ x.seg = x'.seg ∧ ∀ r, x.slot r = x'.slot r ∨ undef (x.slot r)

def CfgPatch (undef : V → Prop) : SCfg R V M → SCfg R V M → Prop
  | .at q b e, .at q' b' e' => q = q' ∧ b = b' ∧ e.out = e'.out ∧ e.pc = e'.pc ∧ e.mem = e'.mem ∧
      (b = .entry → e.slot = e'.slot) ∧ ∀ r, e.slot r = e'.slot r ∨ undef (e.slot r)
  | .done v c, .done v' c' => v = v' ∧ Patch undef c c'
  | _, _ => False

variable {undef : V → Prop} {drop : R → V → Bool}

theorem store_patch (hdrop : ∀ r v, drop r v = true → undef v) (sel : R → Bool) (regs slot slot' : R → V)
    (h : ∀ r, slot r = slot' r ∨ undef (slot r)) (r : R) :
    storeAll (fun _ _ => false) sel regs slot r = storeAll drop sel regs slot' r ∨
      undef (storeAll (fun _ _ => false) sel regs slot r) := by
  simp only [storeAll, storeReg]
  by_cases hs : sel r = true
  · simp only [hs, if_true, Bool.false_eq_true, if_false]
    by_cases hd : drop r (regs r) = true
    · exact .inr (hdrop _ _ hd)
    · simp [hd]
  · simp only [hs, if_false]; exact h r

theorem pack_patch (hdrop : ∀ r v, drop r v = true → undef v) {plan : Plan R} {slide : BitVec 64}
    {b : Id} {x x' : Rt R V M} (h : RtPatch undef x x') :
    Patch undef (x.pack plan (fun _ _ => false) slide b) (x'.pack plan drop slide b) := by
  obtain ⟨h1, h2, h3⟩ := h
  refine ⟨by simp only [Rt.pack, h1], by simp only [Rt.pack, h1], ?_⟩
  simp only [Rt.pack, ← h1, ← h2]
  exact store_patch hdrop _ _ _ _ h3

theorem items_patch (hdrop : ∀ r v, drop r v = true → undef v) {plan : Plan R} {slide : BitVec 64}
    {b : Id} (is : List (Item R V M))
    (hb : ∀ g, Item.call g ∈ is → ∀ c c' d, Patch undef c c' → g c = some d → g c' = some d) :
    ∀ {x x' y : Rt R V M}, RtPatch undef x x' → ssaItems plan (fun _ _ => false) slide b is x = some y →
      ∃ y', ssaItems plan drop slide b is x' = some y' ∧ RtPatch undef y y' := by
  induction is with
  | nil => intro x x' y h hx; cases hx; exact ⟨x', rfl, h⟩
  | cons it is ih =>
    intro x x' y h hx
    rw [ssaItems] at hx
    obtain ⟨x1, h1, h2⟩ := Option.bind_eq_some_iff.1 hx
    have : ∃ x1', ssaItem plan drop slide b x' it = some x1' ∧ RtPatch undef x1 x1' := by
      cases it with
      | upd f d =>
        simp only [ssaItem] at h1 ⊢
        obtain ⟨st, hs, rfl⟩ := Option.map_eq_some_iff.1 h1
        rw [← h.1, hs]
        exact ⟨_, rfl, rfl, by simp only [h.2.1], h.2.2⟩
      | call g =>
        simp only [ssaItem] at h1 ⊢
        obtain ⟨c, hc, rfl⟩ := Option.map_eq_some_iff.1 h1
        rw [hb g List.mem_cons_self _ _ c (pack_patch hdrop h) hc]
        exact ⟨_, rfl, rfl, by simp only [h.2.1], fun _ => .inl rfl⟩
    obtain ⟨x1', h1', h3⟩ := this
    obtain ⟨y', hy', h4⟩ := ih (fun g hg => hb g (List.mem_cons_of_mem _ hg)) h3 h2
    exact ⟨y', by simp only [ssaItems, h1', Option.bind_some]; exact hy', h4⟩

theorem body_patch (hdrop : ∀ r v, drop r v = true → undef v) {L : Lifter P R V M}
    (hL : Blind undef L) {plan : Plan R} {slide : BitVec 64} {b : Id} (is : List (Inst P)) :
    ∀ {x x' y : Rt R V M}, RtPatch undef x x' → ssaBody L plan (fun _ _ => false) slide b is x = some y →
      ∃ y', ssaBody L plan drop slide b is x' = some y' ∧ RtPatch undef y y' := by
  induction is with
  | nil => intro x x' y h hx; cases hx; exact ⟨x', rfl, h⟩
  | cons i is ih =>
    intro x x' y h hx
    rw [ssaBody] at hx
    obtain ⟨x1, h1, h2⟩ := Option.bind_eq_some_iff.1 hx
    have hst : RtPatch undef { x with st := { x.st with pc := .const (L.startPc i) } }
        { x' with st := { x'.st with pc := .const (L.startPc i) } } :=
      ⟨by simp only [h.1], h.2.1, h.2.2⟩
    obtain ⟨x1', h1', h3⟩ := items_patch hdrop (L.items i) (hL i) hst h1
    obtain ⟨y', hy', h4⟩ := ih h3 h2
    exact ⟨y', by simp only [ssaBody, h1', Option.bind_some]; exact hy', h4⟩

theorem step_patch (hdrop : ∀ r v, drop r v = true → undef v) {L : Lifter P R V M}
    (hL : Blind undef L) {plan : Plan R} {slide : BitVec 64} {g : Graph P} {ids : List Id}
    (hg : GraphOK L g ids) {x x' y : SCfg R V M} (h : CfgPatch undef x x')
    (hx : stepSsa L plan (fun _ _ => false) slide g x = some y) :
    ∃ y', stepSsa L plan drop slide g x' = some y' ∧ CfgPatch undef y y' := by
  cases x with
  | done v c =>
    cases x' with
    | «at» _ _ _ => exact h.elim
    | done v' c' => cases hx; exact ⟨_, rfl, h⟩
  | «at» q b e =>
    cases x' with
    | done _ _ => exact h.elim
    | «at» q' b' e' =>
      obtain ⟨rfl, rfl, h1, h2, h3, h4, h5⟩ := h
      simp only [stepSsa] at hx
      split at hx
      · cases hx
      next bb hbb =>
        split at hx
        · cases hx
        next regs hregs =>
          split at hx
          · cases hx
          next x1 hx1 =>
            have hregs' : startRegs bb q e' = some regs := by
              rw [← hregs]
              unfold startRegs
              split
              · rfl
              next hc => rw [h4 ((hg.clean b bb hbb).1 hc)]
              · rw [h1]
              · rw [h1]
            have hst : RtPatch undef (⟨⟨regs, e.mem, e.pc⟩, e.slot, startSeg bb⟩ : Rt R V M)
                ⟨⟨regs, e'.mem, e'.pc⟩, e'.slot, startSeg bb⟩ := ⟨by simp only [h2, h3], rfl, h5⟩
            obtain ⟨x1', hx1', hp⟩ := body_patch hdrop hL bb.body hst hx1
            simp only [stepSsa, hbb, hregs', hx1']
            cases ht : bb.term with
            | none =>
              simp only [ht] at hx
              simp only
              split at hx
              · cases hx
              next hrf =>
                rw [if_neg hrf]
                cases hx
                exact ⟨_, rfl, rfl, pack_patch hdrop hp⟩
            | some t =>
              simp only [ht] at hx
              obtain ⟨b1, hb1, rfl⟩ := Option.map_eq_some_iff.1 hx
              simp only [← hp.1, hb1, Option.map_some]
              refine ⟨_, rfl, rfl, rfl, by simp only [h1], rfl, rfl, ?_, ?_⟩
              · rintro rfl
                have : Id.entry ∈ bb.succs := by rw [hg.succs b bb hbb, ht]; exact next_mem hb1
                exact absurd this (hg.noEntry b bb hbb)
              · exact store_patch hdrop _ _ _ _ hp.2.2

theorem run_patch (hdrop : ∀ r v, drop r v = true → undef v) {L : Lifter P R V M}
    (hL : Blind undef L) {plan : Plan R} {slide : BitVec 64} {g : Graph P} {ids : List Id}
    (hg : GraphOK L g ids) (k : Nat) : ∀ {x x' y : SCfg R V M}, CfgPatch undef x x' →
    runSsa L plan (fun _ _ => false) slide g k x = some y →
    ∃ y', runSsa L plan drop slide g k x' = some y' ∧ CfgPatch undef y y' := by
  induction k with
  | zero => intro x x' y h hx; cases hx; exact ⟨x', rfl, h⟩
  | succ k ih =>
    intro x x' y h hx
    rw [runSsa] at hx
    obtain ⟨x1, h1, h2⟩ := Option.bind_eq_some_iff.1 hx
    obtain ⟨x1', h1', h3⟩ := step_patch hdrop hL hg h h1
    obtain ⟨y', hy', h4⟩ := ih h3 h2
    exact ⟨y', by simp only [runSsa, h1', Option.bind_some]; exact hy', h4⟩

theorem start_patch (out0 : Id → R → V) (c : CPU R V M) :
    CfgPatch undef (ssaStart out0 c) (ssaStart out0 c) :=
  ⟨rfl, rfl, rfl, rfl, rfl, fun _ => rfl, fun _ => .inl rfl⟩

theorem CfgPatch.loc {x x' : SCfg R V M} (h : CfgPatch undef x x') : x.loc = x'.loc := by
  cases x with
  | done v c =>
    cases x' with
    | done v' c' => obtain ⟨rfl, -⟩ := h; rfl
    | «at» q b e => exact h.elim
  | «at» q b e =>
    cases x' with
    | done v' c' => exact h.elim
    | «at» q' b' e' => obtain ⟨rfl, rfl, -⟩ := h; rfl

/-- C60 with the omission of stores of undefined values. -/
theorem C60_determined_drop_partial {cls : Classifier P} {callFn : Bool} {code : Decoder P}
    {L : Lifter P R V M} {G : Guest P MS} {slide : BitVec 64} {rel : MS → (R → V) → M → Prop}
    {h : List (Call P)} {fn : Fn P} {g : Graph P} {plan : Plan R}
    (S : Lifting cls callFn code L G slide rel (Refine.eq V M) (fun _ _ => false) h fn g plan)
    (hdrop : ∀ r v, drop r v = true → undef v) (hL : (∀ r v, drop r v = false) ∨ Blind undef L)
    (hrel : ∀ m r r' μ, rel m r μ → (∀ x, r x = r' x ∨ undef (r x)) → rel m r' μ)
    {d : DInstr P} (hd : fn.instrs.head? = some d)
    (m : MS) (hm : G.pc m = d.inst.start + slide) (c c' : CPU R V M) (hc : rel m c.slot c.mem)
    (hcpc : c.pc = some (G.pc m)) (hc' : rel m c'.slot c'.mem) (hcpc' : c'.pc = some (G.pc m))
    (out0 out0' : Id → R → V) (k : Nat) :
    (∃ k' < k, ∃ n m1 q q' a e e', G.run code slide n m = some m1 ∧
      Walk L.toSLifter slide g G m k' n (.at (.at a)) m1 ∧
      runSsa L plan drop slide g k' (ssaStart out0 c) = some (.at q (.at a) e) ∧
      runSsa L plan drop slide g k' (ssaStart out0' c') = some (.at q' (.at a) e') ∧
      InStep g G slide rel m1 (.at q (.at a) e) ∧ InStep g G slide rel m1 (.at q' (.at a) e') ∧
      ∃ bb, g (.at a) = some bb ∧ G.StuckIn code slide bb.body m1) ∨
    ∃ n m1 x x', G.run code slide n m = some m1 ∧
      runSsa L plan drop slide g k (ssaStart out0 c) = some x ∧
      runSsa L plan drop slide g k (ssaStart out0' c') = some x' ∧
      InStep g G slide rel m1 x ∧ InStep g G slide rel m1 x' ∧ x.loc = x'.loc ∧
      Walk L.toSLifter slide g G m k n x.loc m1 ∧ Progress k n x := by
  rcases hL with hL | hL
  · obtain rfl : drop = fun _ _ => false := by funext r v; exact hL r v
    exact C60_determined_partial S hd m hm c c' hc hcpc hc' hcpc' out0 out0' k
  obtain ⟨ids, hg⟩ : ∃ ids, GraphOK L g ids := by
    obtain ⟨known, hl⟩ := S.lift
    obtain ⟨e, bs, g0, -, hf, hs, HG, rfl⟩ := lift_inv S.hist hl
    exact ⟨_, graph_ok hf hs (S.counted.inhibited S.hist) S.counted.edges S.targets HG⟩
  have key : ∀ c out0 k m1 x, runSsa L plan (fun _ _ => false) slide g k (ssaStart out0 c) = some x →
      InStep g G slide rel m1 x → ∃ x', runSsa L plan drop slide g k (ssaStart out0 c) = some x' ∧
        CfgPatch undef x x' ∧ InStep g G slide rel m1 x' := by
    intro c out0 k m1 x hx hin
    obtain ⟨x', hx', hp⟩ := run_patch hdrop hL hg k (start_patch (undef := undef) out0 c) hx
    refine ⟨x', hx', hp, ?_⟩
    cases x with
    | done v c1 =>
      cases x' with
      | «at» _ _ _ => exact hp.elim
      | done v' c2 =>
        obtain ⟨-, h1, h2, h3⟩ := hp
        exact ⟨h2 ▸ hrel _ _ _ _ hin.1 h3, h1 ▸ hin.2⟩
    | «at» q b e =>
      cases x' with
      | done _ _ => exact hp.elim
      | «at» q' b' e' =>
        obtain ⟨rfl, rfl, h1, h2, h3, h4, h5⟩ := hp
        obtain ⟨bb, regs, hbb, hregs, hr, hpc, ha⟩ := hin
        refine ⟨bb, regs, hbb, ?_, h3 ▸ hr, h2 ▸ hpc, ha⟩
        rw [← hregs]
        unfold startRegs
        split
        · rfl
        next hc => rw [h4 ((hg.clean b bb hbb).1 hc)]
        · rw [h1]
        · rw [h1]
  rcases C60_determined_partial S hd m hm c c' hc hcpc hc' hcpc' out0 out0' k with
    ⟨k', hk, n, m1, q, q', a, e, e', h1, hw, h2, h2', h3, h3', h4⟩ | ⟨n, m1, x, x', h1, h2, h2', h3, h3', hl, hw, h4⟩
  · left
    obtain ⟨y, hy, hp, hin⟩ := key c out0 k' m1 _ h2 h3
    obtain ⟨y', hy', hp', hin'⟩ := key c' out0' k' m1 _ h2' h3'
    cases y with
    | done _ _ => exact hp.elim
    | «at» _ _ _ =>
      cases y' with
      | done _ _ => exact hp'.elim
      | «at» _ _ _ =>
        obtain ⟨rfl, rfl, -⟩ := hp
        obtain ⟨rfl, rfl, -⟩ := hp'
        exact ⟨k', hk, n, m1, q, q', a, _, _, h1, hw, hy, hy', hin, hin', h4⟩
  · right
    obtain ⟨y, hy, hp, hin⟩ := key c out0 k m1 x h2 h3
    obtain ⟨y', hy', hp', hin'⟩ := key c' out0' k m1 x' h2' h3'
    refine ⟨n, m1, y, y', h1, hy, hy', hin, hin', by rw [← hp.loc, ← hp'.loc]; exact hl,
      by rw [← hp.loc]; exact hw, ?_⟩
    cases x with
    | done _ _ =>
      cases y with
      | done _ _ => exact h4
      | «at» _ _ _ => exact hp.elim
    | «at» q b e =>
      cases y with
      | done _ _ => exact hp.elim
      | «at» q' b' e' =>
        obtain ⟨rfl, rfl, -⟩ := hp
        cases b <;> exact h4

/-- C09 with the omission of stores of undefined values: the result of `C09_simulation_partial` for a
lifter that keeps all stores carries over to the one that leaves out stores of undefined values, if
the external functions do not depend on undefined registers (`Blind`, not needed if all stores are
kept) and the represented guest state does not either. -/
theorem C09_simulation_drop_partial {cls : Classifier P} {callFn : Bool} {code : Decoder P}
    {L : Lifter P R V M} {G : Guest P MS} {slide : BitVec 64} {rel : MS → (R → V) → M → Prop}
    {h : List (Call P)} {fn : Fn P} {g : Graph P} {plan : Plan R}
    (S : Lifting cls callFn code L G slide rel (Refine.eq V M) (fun _ _ => false) h fn g plan)
    (hdrop : ∀ r v, drop r v = true → undef v) (hL : (∀ r v, drop r v = false) ∨ Blind undef L)
    (hrel : ∀ m r r' μ, rel m r μ → (∀ x, r x = r' x ∨ undef (r x)) → rel m r' μ)
    {d : DInstr P} (hd : fn.instrs.head? = some d)
    (m : MS) (hm : G.pc m = d.inst.start + slide) (c : CPU R V M) (hc : rel m c.slot c.mem)
    (hcpc : c.pc = some (G.pc m)) (out0 : Id → R → V) (k : Nat) :
    (∃ k' < k, ∃ n m1 q a e, G.run code slide n m = some m1 ∧
      runSsa L plan drop slide g k' (ssaStart out0 c) = some (.at q (.at a) e) ∧
      InStep g G slide rel m1 (.at q (.at a) e) ∧
      ∃ bb, g (.at a) = some bb ∧ G.StuckIn code slide bb.body m1) ∨
    ∃ n m1 x, G.run code slide n m = some m1 ∧
      runSsa L plan drop slide g k (ssaStart out0 c) = some x ∧ InStep g G slide rel m1 x ∧
      Progress k n x := by
  rcases C60_determined_drop_partial S hdrop hL hrel hd m hm c c hc hcpc hc hcpc out0 out0 k with
    ⟨k', hk, n, m1, q, -, a, e, -, h1, -, h2, -, h3, -, h4⟩ | ⟨n, m1, x, -, h1, h2, -, h3, -, -, -, h4⟩
  · exact .inl ⟨k', hk, n, m1, q, a, e, h1, h2, h3, h4⟩
  · exact .inr ⟨n, m1, x, h1, h2, h3, h4⟩

end Verif.Lift
