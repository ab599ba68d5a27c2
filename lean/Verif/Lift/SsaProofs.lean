import Verif.Lift.Dataflow
import Verif.Lift.Sim

/-! The SSA form with optimized stores refines the flat execution. -/

namespace Verif.Lift

open Verif.Decode Verif.IR

set_option linter.unusedSimpArgs false
set_option linter.unusedSectionVars false

variable {P R V M : Type}

/-- A refinement order on run-time values: `le a b` if `b` is at least as defined as `a`.  Values in
`undef` are below all others. -/
structure Refine (V M : Type) where
  le : V → V → Prop
  leM : M → M → Prop
  lePc : Pc → Pc → Prop
  leW : Val 64 → Val 64 → Prop
  undef : V → Prop
  refl : ∀ v, le v v
  trans : ∀ a b c, le a b → le b c → le a c
  reflM : ∀ m, leM m m
  reflPc : ∀ p, lePc p p
  bot : ∀ u v, undef u → le u v
  val : ∀ slide p q, lePc p q → leW (p.val slide) (q.val slide)
  value : ∀ a b, leW a b → lePc (.value a) (.value b)
  some : ∀ a b v, leW a b → a = Option.some v → b = Option.some v
  cond : ∀ slide p q c, lePc p q → pcCond slide p = Option.some c → pcCond slide q = Option.some c

/-- Equality as refinement order. -/
def Refine.eq (V M : Type) : Refine V M where
  le := Eq
  leM := Eq
  lePc := Eq
  leW := Eq
  undef := fun _ => False
  refl := fun _ => rfl
  trans := fun _ _ _ => Eq.trans
  reflM := fun _ => rfl
  reflPc := fun _ => rfl
  bot := fun _ _ h => h.elim
  val := by rintro _ _ _ rfl; rfl
  value := by rintro _ _ rfl; rfl
  some := by rintro _ _ _ rfl h; exact h
  cond := by rintro _ _ _ _ rfl h; exact h

def Refine.st (ref : Refine V M) (s t : St R V M) : Prop :=
  (∀ r, ref.le (s.regs r) (t.regs r)) ∧ ref.leM s.mem t.mem ∧ ref.lePc s.pc t.pc

def Refine.cpu (ref : Refine V M) (c d : CPU R V M) : Prop :=
  (∀ r, ref.le (c.slot r) (d.slot r)) ∧ ref.leM c.mem d.mem ∧ ref.leW c.pc d.pc

/-- The code of an item only changes the registers in its dirty set, and more defined inputs give more
defined outputs. -/
def ItemOK (ref : Refine V M) : Item R V M → Prop
  | .upd f d => (∀ s s', f s = some s' → ∀ r ∉ d, s'.regs r = s.regs r) ∧
      ∀ s t s', ref.st s t → f s = some s' → ∃ t', f t = some t' ∧ ref.st s' t'
  | .call g => ∀ c d c', ref.cpu c d → g c = some c' → ∃ d', g d = some d' ∧ ref.cpu c' d'

variable [DecidableEq R]

/-- Blocks on the way of a hoisted store: the store is put at the end of one of them. -/
inductive OnChain (L : Lifter P R V M) (g : Graph P) (F : Flow R) (ids : List Id) (r : R) : Id → Prop
  | first {b p : Id} {bb : BB P} {x : Seg R} : b ∈ ids → g b = some bb →
      packSeg L bb = some x → x.clean = false → r ∉ x.dirty → r ∈ F.pre b →
      hoistNext g F b r = some p → OnChain L g F ids r p
  | next {q p : Id} {qb : BB P} : OnChain L g F ids r q → g q = some qb →
      (endSeg L qb).clean = false → r ∉ (endSeg L qb).dirty → hoistNext g F q r = some p →
      OnChain L g F ids r p

/-- What is needed of a placement of stores. -/
structure PlanOK (L : Lifter P R V M) (g : Graph P) (ids : List Id) (plan : Plan R) : Prop where
  solved : Solved L g plan.flow
  atEnd : ∀ q qb r, OnChain L g plan.flow ids r q → g q = some qb →
    (q, r) ∈ plan.atEnd ∨ ((endSeg L qb).clean = false ∧ r ∉ (endSeg L qb).dirty ∧
      ∃ p, hoistNext g plan.flow q r = some p)
  here : ∀ b bb x r, b ∈ ids → g b = some bb → packSeg L bb = some x → x.clean = false →
    r ∉ x.dirty → r ∈ plan.flow.pre b →
    (b, r) ∈ plan.here ∨ ∃ p, hoistNext g plan.flow b r = some p

theorem plan_ok {L : Lifter P R V M} {g : Graph P} (hg : Linked g) {ids : List Id} {regs : List R}
    (hregs : ∀ r, r ∈ regs) {fuel : Nat} {plan : Plan R}
    (h : optimizePacks L g ids regs fuel = some plan) : PlanOK L g ids plan := by
  unfold optimizePacks at h
  split at h
  · cases h
  next F hF =>
    obtain ⟨ls, hls, rfl⟩ := Option.map_eq_some_iff.1 h
    have hsol := df_solved hg fuel _ F (df_init hg) hF
    have hdest : ∀ b bb x r, b ∈ ids → g b = some bb → packSeg L bb = some x → x.clean = false →
        r ∉ x.dirty → r ∈ F.pre b → ∃ d, (b, r, d) ∈ ls.flatten ∧
          hoistLoop L g F r fuel none b x = some d := by
      intro b bb x r hb hbb hx hc hd hp
      obtain ⟨ds, hds, hds2⟩ := (mapM_mem hls).1 b hb
      simp only [packDests, hbb, hx] at hds2
      have hr : r ∈ packRegs L F regs b bb := by
        simp only [packRegs, hx, hc, Bool.false_eq_true, if_false, List.mem_filter]
        exact ⟨hregs r, by simp [hp, hd]⟩
      obtain ⟨d, hdm, hd2⟩ := (mapM_mem hds2).1 r hr
      obtain ⟨y, hy, rfl⟩ := Option.map_eq_some_iff.1 hd2
      exact ⟨y, List.mem_flatten.2 ⟨ds, hds, hdm⟩, hy⟩
    have hchain : ∀ r q, OnChain L g F ids r q → ∃ qb b n d, g q = some qb ∧ (b, r, d) ∈ ls.flatten ∧
        hoistLoop L g F r n (some q) q (endSeg L qb) = some d := by
      intro r q hq
      induction hq with
      | @first b p bb x hb hbb hx hc hd hp hn =>
        obtain ⟨d, hd1, hd2⟩ := hdest b bb x r hb hbb hx hc hd hp
        obtain ⟨_, pb, -, hpb, -⟩ := hoistNext_spec hn
        cases fuel with
        | zero => cases hd2
        | succ n =>
          rw [hoistLoop] at hd2
          simp only [hc, hd, decide_false, Bool.or_self, Bool.false_eq_true, if_false, hn, hpb] at hd2
          exact ⟨pb, b, n, d, hpb, hd1, hd2⟩
      | @next q p qb _ hqb hc hd hn ih =>
        obtain ⟨qb', b, n, d, h1, h2, h3⟩ := ih
        rw [hqb] at h1; cases h1
        obtain ⟨_, pb, -, hpb, -⟩ := hoistNext_spec hn
        cases n with
        | zero => cases h3
        | succ n =>
          rw [hoistLoop] at h3
          simp only [hc, hd, decide_false, Bool.or_self, Bool.false_eq_true, if_false, hn, hpb] at h3
          exact ⟨pb, b, n, d, hpb, h2, h3⟩
    refine ⟨hsol, ?_, ?_⟩
    · intro q qb r hq hqb
      obtain ⟨qb', b, n, d, h1, h2, h3⟩ := hchain r q hq
      rw [hqb] at h1; cases h1
      have hput : d = some q → (q, r) ∈ atEndOf ls.flatten := by
        rintro rfl
        simp only [atEndOf, List.mem_filterMap]
        exact ⟨(b, r, some q), h2, rfl⟩
      cases n with
      | zero => cases h3
      | succ n =>
        rw [hoistLoop] at h3
        split at h3
        · cases h3; exact .inl (hput rfl)
        next hstop =>
          simp only [Bool.or_eq_true, decide_eq_true_eq, not_or, Bool.not_eq_true] at hstop
          split at h3
          · cases h3; exact .inl (hput rfl)
          next p hp => exact .inr ⟨hstop.1, hstop.2, p, hp⟩
    · intro b bb x r hb hbb hx hc hd hp
      obtain ⟨d, hd1, hd2⟩ := hdest b bb x r hb hbb hx hc hd hp
      cases fuel with
      | zero => cases hd2
      | succ n =>
        rw [hoistLoop] at hd2
        simp only [hc, hd, decide_false, Bool.or_self, Bool.false_eq_true, if_false] at hd2
        split at hd2
        · cases hd2
          left
          simp only [hereOf, List.mem_filterMap]
          exact ⟨(b, r, none), hd1, rfl⟩
        next p hp => exact .inr ⟨p, hp⟩

/-- What is needed of the graph. -/
structure GraphOK (L : Lifter P R V M) (g : Graph P) (ids : List Id) : Prop where
  linked : Linked g
  succs : ∀ b bb, g b = some bb → bb.succs = succsOpt bb.term
  parent : ∀ b bb p, g b = some bb → bb.init = some (.parent p) → bb.preds = [p]
  clean : ∀ b bb, g b = some bb → (bb.init = some .clean ↔ b = .entry)
  inited : ∀ b bb, g b = some bb → bb.init.isSome
  rf : ∀ b bb, g b = some bb → bb.term.isSome → bb.rf = true
  noEntry : ∀ b bb, g b = some bb → .entry ∉ bb.succs
  exit : ∃ bb, g .exit = some bb ∧ bb.body = [] ∧ bb.term = none ∧ bb.rf = false
  ids : ∀ b, (g b).isSome → b ≠ .entry → b ∈ ids

/-- Registers whose slot is up to date at the beginning of `b`. -/
def UpToDate (L : Lifter P R V M) (g : Graph P) (F : Flow R) (ids : List Id) (b : Id) (r : R) : Prop :=
  r ∉ F.pre b ∨ ∃ p, hoistNext g F b r = some p ∧ OnChain L g F ids r p

/-- Invariant within a block. -/
structure Mid (ref : Refine V M) (K : R → Prop) (s : St R V M) (x : Rt R V M) : Prop where
  st : ref.st s x.st
  sync : ∀ r, r ∉ x.seg.dirty → (x.seg.clean = true ∨ K r) → ref.le (s.regs r) (x.slot r)

/-- The register file to be packed is the one that the placement was computed for. -/
def Sel (plan : Plan R) (b : Id) (K : R → Prop) (x : Seg R) : Prop :=
  x.clean = false → ∀ r, r ∉ x.dirty → (b, r) ∈ plan.here ∨ K r

theorem store_le {ref : Refine V M} {drop : R → V → Bool} (hdrop : ∀ r v, drop r v = true → ref.undef v)
    {a new old : V} {r : R} (h : ref.le a new) : ref.le a (storeReg drop r new old) := by
  unfold storeReg
  split
  next hd => exact ref.trans _ _ _ h (ref.bot _ _ (hdrop r _ hd))
  · exact h

theorem pack_le {ref : Refine V M} {drop : R → V → Bool}
    (hdrop : ∀ r v, drop r v = true → ref.undef v) {plan : Plan R} {slide : BitVec 64} {b : Id}
    {K : R → Prop} {s : St R V M} {x : Rt R V M} (hm : Mid ref K s x) (hs : Sel plan b K x.seg) :
    ref.cpu (s.pack slide) (x.pack plan drop slide b) := by
  refine ⟨?_, hm.st.2.1, ref.val slide _ _ hm.st.2.2⟩
  intro r
  simp only [St.pack, Rt.pack, storeAll]
  split
  · exact store_le hdrop (hm.st.1 r)
  next hsel =>
    simp only [packSel, Bool.or_eq_true, decide_eq_true_eq, Bool.and_eq_true, Bool.not_eq_true',
      not_or, not_and] at hsel
    refine hm.sync r hsel.1 ?_
    cases hc : x.seg.clean with
    | true => exact .inl rfl
    | false =>
      rcases hs hc r hsel.1 with h | h
      · exact absurd h (hsel.2 hc)
      · exact .inr h

/-- Static prediction of the first pack, relative to the current position in the block. -/
def Ahead (L : Lifter P R V M) (bb : BB P) (x : Seg R) (rest : List (Item R V M)) : Prop :=
  endSeg L bb = rest.foldl Seg.item x ∧
  (x.clean = false → packSeg L bb = match callSeg x rest with
    | some y => some y
    | none => if bb.term.isNone then some (endSeg L bb) else none)

theorem ahead_start (L : Lifter P R V M) (bb : BB P) :
    Ahead L bb (startSeg bb) (bodyItems L bb.body) := ⟨rfl, fun _ => rfl⟩

theorem ahead_item {L : Lifter P R V M} {bb : BB P} {x : Seg R} {it : Item R V M}
    {rest : List (Item R V M)} (h : Ahead L bb x (it :: rest)) : Ahead L bb (x.item it) rest := by
  refine ⟨h.1, ?_⟩
  cases it with
  | upd f d => intro hc; exact h.2 hc
  | call g => intro hc; cases hc

theorem items_mid {L : Lifter P R V M} {ref : Refine V M} {drop : R → V → Bool}
    (hdrop : ∀ r v, drop r v = true → ref.undef v) {plan : Plan R} {slide : BitVec 64} {b : Id}
    {bb : BB P} {K : R → Prop} (hsel : ∀ x, packSeg L bb = some x → Sel plan b K x)
    (is : List (Item R V M)) : ∀ (rest : List (Item R V M)) (s s' : St R V M) (x : Rt R V M),
      (∀ it ∈ is, ItemOK ref it) → Mid ref K s x → Ahead L bb x.seg (is ++ rest) →
      execItems slide is s = some s' →
      ∃ x', ssaItems plan drop slide b is x = some x' ∧ Mid ref K s' x' ∧ Ahead L bb x'.seg rest := by
  induction is with
  | nil =>
    intro rest s s' x _ hm ha h
    simp only [execItems, Option.some.injEq] at h
    subst h
    exact ⟨x, rfl, hm, ha⟩
  | cons it is ih =>
    intro rest s s' x hok hm ha h
    rw [execItems] at h
    obtain ⟨s1, h1, h2⟩ := Option.bind_eq_some_iff.1 h
    have hit := hok it List.mem_cons_self
    have : ∃ x1, ssaItem plan drop slide b x it = some x1 ∧ Mid ref K s1 x1 ∧
        x1.seg = x.seg.item it := by
      cases it with
      | upd f d =>
        simp only [execItem] at h1
        obtain ⟨t', ht, hst⟩ := hit.2 s x.st s1 hm.st h1
        refine ⟨{ x with st := t', seg := x.seg.item (.upd f d : Item R V M) }, ?_, ⟨hst, ?_⟩, rfl⟩
        · simp only [ssaItem, ht, Option.map_some]
        · intro r hr hc
          simp only [Seg.item, Finset.mem_union, not_or] at hr hc
          rw [hit.1 s s1 h1 r hr.2]
          exact hm.sync r hr.1 hc
      | call g =>
        simp only [execItem] at h1
        obtain ⟨c, hc, rfl⟩ := Option.map_eq_some_iff.1 h1
        have hs : Sel plan b K x.seg := by
          cases hcl : x.seg.clean with
          | true => intro h; rw [hcl] at h; cases h
          | false => exact hsel _ (ha.2 hcl)
        obtain ⟨d, hd, hle⟩ := hit _ _ c (pack_le hdrop (slide := slide) hm hs) hc
        refine ⟨{ st := d.unpack, slot := d.slot, seg := x.seg.item (.call g) }, ?_, ⟨?_, ?_⟩, rfl⟩
        · simp only [ssaItem, hd, Option.map_some]
        · exact ⟨hle.1, hle.2.1, ref.value _ _ hle.2.2⟩
        · intro r _ _; exact hle.1 r
    obtain ⟨x1, hx1, hm1, hseg⟩ := this
    obtain ⟨x', hx', hm', ha'⟩ := ih rest s1 s' x1 (fun y hy => hok y (List.mem_cons_of_mem _ hy)) hm1
      (by rw [hseg]; exact ahead_item ha) h2
    exact ⟨x', by simp only [ssaItems, hx1, Option.bind_some]; exact hx', hm', ha'⟩

theorem body_mid {L : Lifter P R V M} {ref : Refine V M} {drop : R → V → Bool}
    (hdrop : ∀ r v, drop r v = true → ref.undef v) {plan : Plan R} {slide : BitVec 64} {b : Id}
    {bb : BB P} {K : R → Prop} (hsel : ∀ x, packSeg L bb = some x → Sel plan b K x)
    (hok : ∀ i, ∀ it ∈ L.items i, ItemOK ref it)
    (is : List (Inst P)) : ∀ (s s' : St R V M) (x : Rt R V M),
      Mid ref K s x → Ahead L bb x.seg (bodyItems L is) →
      execBody L slide is s = some s' →
      ∃ x', ssaBody L plan drop slide b is x = some x' ∧ Mid ref K s' x' ∧ Ahead L bb x'.seg [] := by
  induction is with
  | nil =>
    intro s s' x hm ha h
    simp only [execBody, Option.some.injEq] at h
    subst h
    exact ⟨x, rfl, hm, ha⟩
  | cons i is ih =>
    intro s s' x hm ha h
    rw [execBody] at h
    obtain ⟨s1, h1, h2⟩ := Option.bind_eq_some_iff.1 h
    have hb : bodyItems L (i :: is) = L.items i ++ bodyItems L is := by simp [bodyItems]
    rw [hb] at ha
    have hm0 : Mid ref K { s with pc := .const (L.startPc i) }
        { x with st := { x.st with pc := .const (L.startPc i) } } :=
      ⟨⟨hm.st.1, hm.st.2.1, ref.reflPc _⟩, hm.sync⟩
    obtain ⟨x1, hx1, hm1, ha1⟩ := items_mid hdrop (slide := slide) hsel (L.items i) (bodyItems L is) _ s1 _ (hok i) hm0 ha h1
    obtain ⟨x', hx', hm', ha'⟩ := ih s1 s' x1 hm1 ha1 h2
    exact ⟨x', by simp only [ssaBody, hx1, Option.bind_some]; exact hx', hm', ha'⟩

/-- Relation between the flat execution and the SSA form on an edge. -/
def EdgeInv (L : Lifter P R V M) (ref : Refine V M) (g : Graph P) (plan : Plan R) (ids : List Id) :
    Cfg R V M → SCfg R V M → Prop
  | .at b s, .at q b' e =>
      b = b' ∧ (plan.flow b).isSome ∧
      ref.leM s.mem e.mem ∧ ref.lePc s.pc e.pc ∧
      ((b = .entry ∧ ∀ r, ref.le (s.regs r) (e.slot r)) ∨
       (b ≠ .entry ∧ (∃ bb, g b = some bb ∧ q ∈ bb.preds) ∧
        (∀ r, ref.le (s.regs r) (e.out q r)) ∧
        ∀ r, (r ∉ plan.flow.post q ∨ OnChain L g plan.flow ids r q) → ref.le (s.regs r) (e.slot r)))
  | .done v c, .done v' c' => v = v' ∧ ref.cpu c c'
  | _, _ => False

theorem ssa_step {L : Lifter P R V M} {ref : Refine V M} {drop : R → V → Bool}
    (hdrop : ∀ r v, drop r v = true → ref.undef v)
    (hok : ∀ i, ∀ it ∈ L.items i, ItemOK ref it) {g : Graph P} {ids : List Id} {plan : Plan R}
    (hg : GraphOK L g ids) (hp : PlanOK L g ids plan) {slide : BitVec 64}
    {c c1 : Cfg R V M} {d : SCfg R V M} (h : EdgeInv L ref g plan ids c d)
    (hs : stepBlock L slide g c = some c1) :
    ∃ d1, stepSsa L plan drop slide g d = some d1 ∧ EdgeInv L ref g plan ids c1 d1 := by
  cases c with
  | done v c =>
    cases d with
    | «at» q b e => exact h.elim
    | done v' c' => cases hs; exact ⟨_, rfl, h⟩
  | «at» b s =>
    cases d with
    | done v' c' => exact h.elim
    | «at» q b' e =>
      obtain ⟨rfl, hvis, hmem, hpc, hedge⟩ := h
      -- the block exists
      have hbb : ∃ bb, g b = some bb := by
        by_cases hx : b = .exit
        · obtain ⟨bb, hbb, -⟩ := hg.exit; subst hx; exact ⟨bb, hbb⟩
        · cases hb : g b with
          | some bb => exact ⟨bb, rfl⟩
          | none => cases b <;> simp_all [stepBlock]
      obtain ⟨bb, hbb⟩ := hbb
      -- registers at the beginning
      have hstart : ∃ regs, startRegs bb q e = some regs ∧ (∀ r, ref.le (s.regs r) (regs r)) ∧
          ∀ r, ((startSeg bb : Seg R).clean = true ∨ UpToDate L g plan.flow ids b r) →
            ref.le (s.regs r) (e.slot r) := by
        rcases hedge with ⟨hbe, hreg⟩ | ⟨hbe, ⟨bb', hbb', hq⟩, hreg, hsync⟩
        · have := (hg.clean b bb hbb).2 hbe
          exact ⟨e.slot, by simp [startRegs, this], hreg, fun r _ => hreg r⟩
        · rw [hbb] at hbb'; cases hbb'
          refine ⟨e.out q, ?_, hreg, ?_⟩
          · unfold startRegs
            have hi := hg.inited b bb hbb
            cases hini : bb.init with
            | none => rw [hini] at hi; cases hi
            | some ini =>
              cases ini with
              | clean => exact absurd ((hg.clean b bb hbb).1 hini) hbe
              | phis => rfl
              | parent p =>
                have := hg.parent b bb p hbb hini
                rw [this] at hq
                simp only [List.mem_singleton] at hq
                subst hq; rfl
          · intro r hr
            rcases hr with hr | hr
            · simp only [startSeg, decide_eq_true_eq] at hr
              exact absurd ((hg.clean b bb hbb).1 hr) hbe
            · apply hsync
              rcases hr with hr | ⟨p, hp1, hp2⟩
              · left
                intro hm
                apply hr
                have := hp.solved.eqn b bb hvis hbb
                simp only [Flow.pre, this, Option.map_some, Option.getD_some, blockSets]
                exact (mem_foldr_union _ _ _).2 ⟨q, hq, hm⟩
              · by_cases hqp : q = p
                · subst hqp; exact .inr hp2
                · left
                  intro hm
                  obtain ⟨b1, _, hb1, -, -, -, -, huniq⟩ := hoistNext_spec hp1
                  rw [hbb] at hb1; cases hb1
                  exact hqp (huniq q hq hm)
      obtain ⟨regs, hregs, hle, hsync⟩ := hstart
      -- selection of stores
      have hsel : ∀ x, packSeg L bb = some x → Sel plan b (UpToDate L g plan.flow ids b) x := by
        intro x hx hc r hr
        by_cases hpre : r ∈ plan.flow.pre b
        · have hne : b ≠ .entry := by
            rintro rfl
            have := (hg.clean _ bb hbb).2 rfl
            -- the entry block starts clean, so every later register file is clean
            have hcl : ∀ (is : List (Item R V M)) (y : Seg R), y.clean = true →
                (∀ z, callSeg y is = some z → z.clean = true) ∧
                (is.foldl Seg.item y).clean = true := by
              intro is
              induction is with
              | nil => intro y hy; exact ⟨fun z hz => (by cases hz), hy⟩
              | cons it is ih =>
                intro y hy
                cases it with
                | upd f d => exact ih (y.item (.upd f d : Item R V M)) hy
                | call g =>
                  refine ⟨fun z hz => (by cases hz; exact hy), ?_⟩
                  exact (ih (y.item (.call g : Item R V M)) rfl).2
            have hst : (startSeg bb : Seg R).clean = true := by simp [startSeg, this]
            have h2 := hcl (bodyItems L bb.body) (startSeg bb) hst
            unfold packSeg at hx
            split at hx
            next y hy => cases hx; rw [h2.1 _ hy] at hc; cases hc
            · split at hx
              · cases hx
                have h3 : (endSeg L bb).clean = true := h2.2
                rw [h3] at hc; cases hc
              · cases hx
          have hbi := hg.ids b (by rw [hbb]; rfl) hne
          rcases hp.here b bb x r hbi hbb hx hc hr hpre with h | ⟨p, h⟩
          · exact .inl h
          · exact .inr (.inr ⟨p, h, .first hbi hbb hx hc hr hpre h⟩)
        · exact .inr (.inl hpre)
      have hmid : Mid ref (UpToDate L g plan.flow ids b) s
          ⟨⟨regs, e.mem, e.pc⟩, e.slot, startSeg bb⟩ :=
        ⟨⟨hle, hmem, hpc⟩, fun r _ hr => hsync r hr⟩
      have finish : ∀ s', execBody L slide bb.body s = some s' →
          ∃ x', ssaBody L plan drop slide b bb.body ⟨⟨regs, e.mem, e.pc⟩, e.slot, startSeg bb⟩
            = some x' ∧ Mid ref (UpToDate L g plan.flow ids b) s' x' ∧ Ahead L bb x'.seg [] :=
        fun s' hb => body_mid hdrop hsel hok bb.body s s' _ hmid (ahead_start L bb) hb
      have hpack : ∀ s' x', bb.term = none → Mid ref (UpToDate L g plan.flow ids b) s' x' →
          Ahead L bb x'.seg [] → ref.cpu (s'.pack slide) (x'.pack plan drop slide b) := by
        intro s' x' ht hm ha
        refine pack_le hdrop hm ?_
        intro hc
        have h1 := ha.2 hc
        simp only [callSeg, ht, Option.isNone_none, if_true, ha.1, List.foldl_nil] at h1
        exact hsel _ h1 hc
      by_cases hx : b = .exit
      · subst hx
        obtain ⟨bb', hb', hbody, hterm, hrf⟩ := hg.exit
        rw [hbb] at hb'; cases hb'
        simp only [stepBlock, Option.some.injEq] at hs
        obtain ⟨x', hx', hm', ha'⟩ := finish s (by rw [hbody]; rfl)
        refine ⟨.done true (x'.pack plan drop slide .exit), ?_, ?_⟩
        · simp only [stepSsa, hbb, hregs, hx', hterm, hrf]
          rfl
        · subst hs
          exact ⟨rfl, hpack s x' hterm hm' ha'⟩
      · have hs' : (match execBody L slide bb.body s with
            | none => none
            | some s => match bb.term with
              | none => if bb.rf then none else some (Cfg.done false (s.pack slide))
              | some t => (t.next slide s.pc).map (fun b => .at b s)) = some c1 := by
          rw [← hs]
          cases b with
          | exit => exact absurd rfl hx
          | entry =>
            simp only [stepBlock, hbb]
            cases execBody L slide bb.body s with
            | none => rfl
            | some s1 => cases bb.term <;> rfl
          | «at» a =>
            simp only [stepBlock, hbb]
            cases execBody L slide bb.body s with
            | none => rfl
            | some s1 => cases bb.term <;> rfl
        cases hb : execBody L slide bb.body s with
        | none => rw [hb] at hs'; cases hs'
        | some s' =>
          rw [hb] at hs'
          obtain ⟨x', hx', hm', ha'⟩ := finish s' hb
          cases ht : bb.term with
          | none =>
            rw [ht] at hs'
            simp only at hs'
            split at hs'
            · cases hs'
            next hrf =>
              cases hs'
              refine ⟨.done false (x'.pack plan drop slide b), ?_, rfl, hpack s' x' ht hm' ha'⟩
              simp only [stepSsa, hbb, hregs, hx', ht, if_neg hrf, decide_eq_false hx]
          | some t =>
            rw [ht] at hs'
            simp only at hs'
            obtain ⟨b1, hb1, rfl⟩ := Option.map_eq_some_iff.1 hs'
            have hb1' : t.next slide x'.st.pc = some b1 := by
              cases t with
              | br t => exact hb1
              | cond t1 t2 =>
                simp only [Term.next] at hb1 ⊢
                cases hpcc : pcCond slide s'.pc with
                | none => rw [hpcc] at hb1; cases hb1
                | some v => rw [hpcc] at hb1; rw [ref.cond slide _ _ v hm'.st.2.2 hpcc]; exact hb1
            have hsucc : b1 ∈ bb.succs := by
              rw [hg.succs b bb hbb, ht]; exact next_mem hb1
            refine ⟨.at b b1
              { out := fun y => if y = b then x'.st.regs else e.out y
                pc := x'.st.pc
                slot := storeAll drop (fun r => decide ((b, r) ∈ plan.atEnd)) x'.st.regs x'.slot
                mem := x'.st.mem },
              by simp only [stepSsa, hbb, hregs, hx', ht, hb1', Option.map_some], ?_⟩
            refine ⟨rfl, hp.solved.succ b bb b1 hvis hbb hsucc, hm'.st.2.1, hm'.st.2.2, .inr ⟨?_, ?_, ?_, ?_⟩⟩
            · rintro rfl; exact hg.noEntry b bb hbb hsucc
            · obtain ⟨cb, h1, h2⟩ := hg.linked.fwd b bb b1 hbb hsucc
              exact ⟨cb, h1, h2⟩
            · intro r; simp only [if_true]; exact hm'.st.1 r
            · intro r hr
              simp only [storeAll]
              split
              · exact store_le hdrop (hm'.st.1 r)
              next hne =>
                simp only [decide_eq_true_eq] at hne
                have hend : x'.seg = endSeg L bb := ha'.1.symm
                rcases hr with hr | hr
                · have heq := hp.solved.eqn b bb hvis hbb
                  have hrf := hg.rf b bb hbb (by rw [ht]; rfl)
                  simp only [Flow.post, heq, Option.map_some, Option.getD_some, blockSets, hrf,
                    if_true] at hr
                  split at hr
                  next hcl => exact hm'.sync r (by rw [hend]; exact hr) (.inl (by rw [hend]; exact hcl))
                  next hcl =>
                    simp only [Finset.mem_union, not_or] at hr
                    refine hm'.sync r (by rw [hend]; exact hr.2) (.inr (.inl ?_))
                    simp only [Flow.pre, heq, Option.map_some, Option.getD_some, blockSets]
                    exact hr.1
                · rcases hp.atEnd b bb r hr hbb with h | ⟨h1, h2, p, h3⟩
                  · exact absurd h hne
                  · exact hm'.sync r (by rw [hend]; exact h2) (.inr (.inr ⟨p, h3, .next hr hbb h1 h2 h3⟩))

theorem ssa_run {L : Lifter P R V M} {ref : Refine V M} {drop : R → V → Bool}
    (hdrop : ∀ r v, drop r v = true → ref.undef v)
    (hok : ∀ i, ∀ it ∈ L.items i, ItemOK ref it) {g : Graph P} {ids : List Id} {plan : Plan R}
    (hg : GraphOK L g ids) (hp : PlanOK L g ids plan) {slide : BitVec 64} (k : Nat) :
    ∀ {c c1 : Cfg R V M} {d : SCfg R V M}, EdgeInv L ref g plan ids c d →
    runBlocks L slide g k c = some c1 →
    ∃ d1, runSsa L plan drop slide g k d = some d1 ∧ EdgeInv L ref g plan ids c1 d1 := by
  induction k with
  | zero => intro c c1 d h hs; cases hs; exact ⟨d, rfl, h⟩
  | succ k ih =>
    intro c c1 d h hs
    rw [runBlocks] at hs
    obtain ⟨c2, h1, h2⟩ := Option.bind_eq_some_iff.1 hs
    obtain ⟨d2, hd2, he⟩ := ssa_step hdrop hok hg hp h h1
    obtain ⟨d1, hd1, he1⟩ := ih he h2
    exact ⟨d1, by simp only [runSsa, hd2, Option.bind_some]; exact hd1, he1⟩

theorem ssa_start_inv {L : Lifter P R V M} {ref : Refine V M} {g : Graph P} {ids : List Id}
    {plan : Plan R} (hp : PlanOK L g ids plan) (out0 : Id → R → V) (c : CPU R V M) :
    EdgeInv L ref g plan ids (.at .entry c.unpack) (ssaStart out0 c) :=
  ⟨rfl, hp.solved.entry, ref.reflM _, ref.reflPc _, .inl ⟨rfl, fun _ => ref.refl _⟩⟩

/-! ### Late loads -/

/-- A register of a clean register file that has not been written still equals its slot. -/
def Loadable (x : Rt R V M) : Prop :=
  x.seg.clean = true → ∀ r, r ∉ x.seg.dirty → x.slot r = x.st.regs r

theorem loadable_items {ref : Refine V M} {plan : Plan R} {drop : R → V → Bool} {slide : BitVec 64}
    {b : Id} (is : List (Item R V M)) : ∀ (x x' : Rt R V M), (∀ it ∈ is, ItemOK ref it) → Loadable x →
      ssaItems plan drop slide b is x = some x' → Loadable x' ∧ x'.seg = is.foldl Seg.item x.seg := by
  induction is with
  | nil => intro x x' _ hx h; cases h; exact ⟨hx, rfl⟩
  | cons it is ih =>
    intro x x' hok hx h
    rw [ssaItems] at h
    obtain ⟨x1, h1, h2⟩ := Option.bind_eq_some_iff.1 h
    have hit := hok it List.mem_cons_self
    have key : Loadable x1 ∧ x1.seg = x.seg.item it := by
      cases it with
      | upd f d =>
        obtain ⟨t, ht, rfl⟩ := Option.map_eq_some_iff.1 h1
        refine ⟨?_, rfl⟩
        intro hc r hr
        simp only [Seg.item, Finset.mem_union, not_or] at hc hr
        show x.slot r = t.regs r
        rw [hit.1 x.st t ht r hr.2]
        exact hx hc r hr.1
      | call g =>
        obtain ⟨c, -, rfl⟩ := Option.map_eq_some_iff.1 h1
        exact ⟨fun _ _ _ => rfl, rfl⟩
    obtain ⟨h3, h4⟩ := ih x1 x' (fun y hy => hok y (List.mem_cons_of_mem _ hy)) key.1 h2
    exact ⟨h3, by rw [h4, key.2]; rfl⟩

theorem loadable_body {L : Lifter P R V M} {ref : Refine V M} {plan : Plan R} {drop : R → V → Bool}
    {slide : BitVec 64} {b : Id} (hok : ∀ i, ∀ it ∈ L.items i, ItemOK ref it) (is : List (Inst P)) :
    ∀ (x x' : Rt R V M), Loadable x → ssaBody L plan drop slide b is x = some x' →
      Loadable x' ∧ x'.seg = (bodyItems L is).foldl Seg.item x.seg := by
  induction is with
  | nil => intro x x' hx h; cases h; exact ⟨hx, rfl⟩
  | cons i is ih =>
    intro x x' hx h
    rw [ssaBody] at h
    obtain ⟨x1, h1, h2⟩ := Option.bind_eq_some_iff.1 h
    obtain ⟨h3, h4⟩ := loadable_items (L.items i) _ x1 (hok i)
      (show Loadable { x with st := { x.st with pc := .const (L.startPc i) } } from hx) h1
    obtain ⟨h5, h6⟩ := ih x1 x' h3 h2
    refine ⟨h5, ?_⟩
    rw [h6, h4]
    simp [bodyItems, List.foldl_append]

/-- Loads of clean registers may be emitted late: when a block with a clean register file is left,
also behind the hoisted stores at its end, the slot of a register that has not been written since the
CPU struct was loaded has the value that the SSA form uses for it.  (`loadable_items` says the same for
every place in the block.) -/
theorem late_load {L : Lifter P R V M} {ref : Refine V M} {plan : Plan R} {drop : R → V → Bool}
    {slide : BitVec 64} (hok : ∀ i, ∀ it ∈ L.items i, ItemOK ref it) {g : Graph P} {q b b' : Id}
    {bb : BB P} {e e' : Env R V M} (hb : g b = some bb)
    (h : stepSsa L plan drop slide g (.at q b e) = some (.at b b' e'))
    (hc : (endSeg L bb).clean = true) (r : R) (hr : r ∉ (endSeg L bb).dirty) :
    e'.slot r = e'.out b r := by
  simp only [stepSsa, hb] at h
  split at h
  · cases h
  next regs hregs =>
    split at h
    · cases h
    next x hx =>
      have hstart : Loadable (⟨⟨regs, e.mem, e.pc⟩, e.slot, startSeg bb⟩ : Rt R V M) := by
        intro hcl r _
        simp only [startSeg, decide_eq_true_eq] at hcl
        simp only [startRegs, hcl, Option.some.injEq] at hregs
        rw [← hregs]
      obtain ⟨h1, h2⟩ := loadable_body hok bb.body _ x hstart hx
      have hseg : x.seg = endSeg L bb := h2
      have hsl := h1 (by rw [hseg]; exact hc) r (by rw [hseg]; exact hr)
      split at h
      · split at h <;> cases h
      · obtain ⟨c, -, hcc⟩ := Option.map_eq_some_iff.1 h
        cases hcc
        simp only [storeAll, storeReg, if_true]
        split
        · split
          · exact hsl
          · rfl
        · exact hsl

end Verif.Lift
