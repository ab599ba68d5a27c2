import Verif.Lift.Defined

/-!
Property theorems about whole lifted functions: C07, C09, C10, C14, C15, C17, C39 and the graph half
of C08.  They hold for every classification, decoder, instruction lifter, external function, CPU
state and number of executed blocks.
-/

namespace Verif.Lift

open Verif.Decode Verif.IR

set_option linter.unusedSimpArgs false
set_option linter.unusedSectionVars false

variable {P R V M MS : Type}

/-! ### C07 -/

/-- Where the program counter of a register file points, if this is one of the addresses known when
the function was generated. -/
def knownPc (slide : BitVec 64) : Pc → Option Addr
  | .value _ => none
  | .const a => some a
  | .cond c a b => c.map (fun c => if c = 1#1 then a else b)
  | .check v a => v.bind (fun v => if v = a + slide then some a else none)

/-- Is the branch condition defined? -/
def condDefined : Pc → Bool
  | .cond c _ _ => c.isSome
  | .check v _ => v.isSome
  | _ => true

open Classical in
/-- C07: a lifted block whose code leaves a known next address `a` continues with the block for `a`
iff `a` is non-zero and was decoded as the start of a block; if the next address is not known, or if
the block ends in a call that is not inlined, the function exits.  `bb.body.getLast?` is the last
instruction that got code; `formOf pc = L.form i` and the condition on `L.fold` say that the lifter's
own knowledge about the mode of the program counter and about constant conditions is right. -/
theorem C07_branch_resolution {cls : Classifier P} {h : List (Call P)} {fn : Fn P}
    (H : Hist cls h fn) {known : Bool} {L : SLifter P} {g : Graph P} (hl : lift known L fn = .ok g)
    {a : Addr} (ha : fn.BlockStart a) :
    ∃ bb d, g (.at a) = some bb ∧ d ∈ fn.instrs ∧ bb.body.getLast? = some d.inst ∧
      ∀ (slide : BitVec 64) (pc : Pc), formOf pc = L.form d.inst → condDefined pc = true →
        (∀ b, L.fold d.inst = some b → pcCond slide pc = some (BitVec.ofBool b)) →
        ∃ t, bb.term = some t ∧ t.next slide pc = some
          (match knownPc slide pc with
           | none => .exit
           | some c => if d.inhibit = false ∧ c ≠ 0 ∧ fn.BlockStart c then .at c else .exit) := by
  obtain ⟨e, bs, g0, -, hf, hs, HG, rfl⟩ := lift_inv H hl
  obtain ⟨b, hb, rfl⟩ := run_of_start hf hs ha
  obtain ⟨-, bb, hbb, hB⟩ := HG.built b hb
  refine ⟨bb, lastOf L b.1 b.2, by rw [sealExit_ne (by simp)]; exact hbb,
    run_mem hf hb _ (lastOf_mem L b.1 b.2), ?_, ?_⟩
  · rw [hB.body, List.getLast?_map, List.getLast?_eq_some_getLast (lifted_ne_nil L b.1 b.2)]
    rfl
  · intro slide pc hform hdef hfold
    rw [hB.term, termOf_countEntry]
    generalize lastOf L b.1 b.2 = d at *
    have hbit : ∀ c : BitVec 1, c = BitVec.ofBool true ∨ c = BitVec.ofBool false := by decide
    have hpt : ∀ a1 a2, termOf L fn d = some (if d.inhibit then .br .exit else pcTerm fn (L.fold d.inst) a1 a2) →
        (∃ c, pcCond slide pc = some c) →
        ∃ t, termOf L fn d = some t ∧ t.next slide pc = some
          (if d.inhibit = true then .exit
           else if pcCond slide pc = some 1#1 then target fn a1 else target fn a2) := by
      intro a1 a2 ht ⟨c, hc⟩
      refine ⟨_, ht, ?_⟩
      cases hi : d.inhibit with
      | true => rfl
      | false =>
        simp only [Bool.false_eq_true, if_false, pcTerm]
        cases hfd : L.fold d.inst with
        | some v =>
          have := hfold v hfd
          cases v <;> simp [this, Term.next]
        | none =>
          simp only
          split
          next heq => simp [Term.next, heq]
          · rw [hc]
            simp only [Term.next, hc, Option.some.injEq]
    cases pc with
    | value v =>
      simp only [formOf] at hform
      exact ⟨.br .exit, by simp only [termOf, ← hform], rfl⟩
    | const c =>
      simp only [formOf] at hform
      refine ⟨if d.inhibit then .br .exit else .br (target fn c), by simp only [termOf, ← hform], ?_⟩
      simp only [knownPc]
      cases d.inhibit with
      | true => simp [Term.next]
      | false => simp only [Bool.false_eq_true, if_false, Term.next, true_and]; rfl
    | cond c a1 a2 =>
      simp only [formOf] at hform
      simp only [condDefined] at hdef
      obtain ⟨c, rfl⟩ := Option.isSome_iff_exists.1 hdef
      obtain ⟨t, ht, hn⟩ := hpt a1 a2 (by simp only [termOf, ← hform]) ⟨c, rfl⟩
      refine ⟨t, ht, ?_⟩
      rw [hn]
      simp only [knownPc, pcCond, Option.map_some, Option.some.injEq]
      cases d.inhibit with
      | true => simp
      | false =>
        simp only [Bool.false_eq_true, if_false, true_and]
        split <;> rfl
    | check v c =>
      simp only [formOf] at hform
      simp only [condDefined] at hdef
      obtain ⟨v, rfl⟩ := Option.isSome_iff_exists.1 hdef
      obtain ⟨t, ht, hn⟩ := hpt c 0 (by simp only [termOf, ← hform]) ⟨_, rfl⟩
      refine ⟨t, ht, ?_⟩
      rw [hn]
      simp only [knownPc, pcCond, addrPCBase, icmp, Option.bind_some, target_zero]
      by_cases hv : v = c + slide
      · subst hv
        cases d.inhibit with
        | true => simp
        | false => simp [Pred.eval, target, IR.cmp, IR.bin]
      · cases d.inhibit with
        | true => simp [hv]
        | false => simp [beq_eq_false_iff_ne.2 hv, if_neg hv, Pred.eval, IR.cmp, IR.bin]

/-! ### C08, the graph -/

/-- C08 (second half): in the lifted function a block never has more predecessors than were counted
while decoding (for the function entry plus the number of times the function was lifted, including
this time), so the reservation
`predecessors.size() <= max_preds` is respected.  Missing: histories for which the decoder counts fewer
predecessors than there are edges (`C08_decode_block_counterexample`). -/
theorem C08_graph_preds_partial {cls : Classifier P} {h : List (Call P)} {fn : Fn P} {callFn : Bool}
    {n : Nat} (HN : HistN cls h n fn) (hall : Counted cls callFn h fn)
    {known : Bool} {L : SLifter P} {g : Graph P} (hl : lift known L fn = .ok g)
    (hknown : ∀ i ∈ fn.insts, TargetsKnown cls callFn L i)
    {a : Addr} {bb : BB P} (ha : g (.at a) = some bb) :
    bb.preds.Nodup ∧ ∃ m, bb.maxPreds = some m ∧ bb.preds.length ≤ m ∧
      (fn.edgeCount cls callFn a + if fn.entry? = some a then 1 else 0) ≤ m ∧
      m ≤ fn.edgeCount cls callFn a + if fn.entry? = some a then n + 1 else 0 := by
  have H : Hist cls h fn := ⟨n, HN⟩
  obtain ⟨e, bs, g0, ⟨d, hd, hde, -⟩, hf, hs, HG, rfl⟩ := lift_inv H hl
  rw [sealExit_ne (by simp)] at ha
  have h1 := preds_le hf hs (hall.inhibited H) hknown HG ha
  obtain ⟨-, -, hbs, h4⟩ := HG.valid _ _ ha
  have h5 := C08_preds_le callFn HN hall.same a
  have h6 := hall.edges a hbs
  have h7 : fn.entry? = some e := by
    simp only [Fn.entry?, Fn.insts, List.head?_map, hd, Option.map_some, hde]
  rw [predsOf_countEntry] at h4
  refine ⟨HG.edges.nodup _ _ ha, _, h4, Nat.le_trans h1 (by omega), ?_⟩
  rw [h7] at h5 ⊢
  by_cases hae : a = e
  · subst hae; simp only [if_true] at h5 ⊢; omega
  · have hne : ¬ some e = some a := by simpa [eq_comm] using hae
    simp only [if_neg hne, if_neg hae] at h5 ⊢; omega

/-! ### C14, C15: SSA form -/

variable [DecidableEq R]

/-- The SSA form is at the same place as the flat execution, and a read of any register at the
beginning of the block gives (at least) the value the register has on the executed path. -/
def SameState (ref : Refine V M) (g : Graph P) : Cfg R V M → SCfg R V M → Prop
  | .at b s, .at q b' e => b = b' ∧ ∃ bb regs, g b = some bb ∧ startRegs bb q e = some regs ∧
      ref.st s ⟨regs, e.mem, e.pc⟩
  | .done v c, .done v' c' => v = v' ∧ ref.cpu c c'
  | _, _ => False

theorem edge_same {L : Lifter P R V M} {ref : Refine V M} {g : Graph P} {ids : List Id}
    {plan : Plan R} (hg : GraphOK L g ids) {c : Cfg R V M}
    {d : SCfg R V M} (h : EdgeInv L ref g plan ids c d) : SameState ref g c d := by
  cases c with
  | done v c =>
    cases d with
    | «at» q b e => exact h
    | done v' c' => exact h
  | «at» b s =>
    cases d with
    | done v c => exact h
    | «at» q b' e =>
      obtain ⟨rfl, hvis, hmem, hpc, hedge⟩ := h
      refine ⟨rfl, ?_⟩
      rcases hedge with ⟨rfl, hreg⟩ | ⟨hbe, ⟨bb, hbb, hq⟩, hreg, hsync⟩
      · obtain ⟨bb, hbb⟩ := Option.isSome_iff_exists.1 hg.linked.entry
        have := (hg.clean .entry bb hbb).2 rfl
        exact ⟨bb, e.slot, hbb, by simp [startRegs, this], hreg, hmem, hpc⟩
      · refine ⟨bb, e.out q, hbb, ?_, hreg, hmem, hpc⟩
        unfold startRegs
        have hi := hg.inited b bb hbb
        cases hini : bb.init with
        | none => rw [hini] at hi; cases hi
        | some ini =>
          cases ini with
          | clean => exact absurd ((hg.clean b bb hbb).1 hini) hbe
          | phis => rfl
          | parent p =>
            have := hg.parent b bb p hbb hini
            rw [this] at hq
            simp only [List.mem_singleton] at hq
            subst hq; rfl

/-- C14 and C15 for functions whose control-flow edges were all counted while decoding (those decoded
with `ll_func_decode_cfg`, `counted_cfg`, with a single `ll_func_decode_block`,
`C08_counted_one_block`, and others, `C08_counted_block`): the SSA form with optimized
stores follows the flat execution, in which registers simply travel along the executed path and every
register is stored at every call and return.  At the beginning of every block each register reads as
the last value written on the path (C14); when the function returns, the CPU struct has the guest
registers (C15).  "At least as defined" (`ref`) is equality for `Refine.eq`.

Missing for the full claim: functions decoded so that edges are missed
(`RV64.C09_decode_block_counterexample`), and lifters with direct branches the decoder does not know about
(`TargetsKnown`). -/
theorem C14_ssa_partial {cls : Classifier P} {h : List (Call P)} {fn : Fn P} {callFn : Bool}
    (H : Hist cls h fn) (hall : Counted cls callFn h fn)
    {known : Bool} {L : Lifter P R V M} {g : Graph P} (hl : lift known L.toSLifter fn = .ok g)
    (hknown : ∀ i ∈ fn.insts, TargetsKnown cls callFn L.toSLifter i)
    {ref : Refine V M} (hok : ∀ i, ∀ it ∈ L.items i, ItemOK ref it)
    {drop : R → V → Bool} (hdrop : ∀ r v, drop r v = true → ref.undef v)
    {regs : List R} (hregs : ∀ r, r ∈ regs) {fuel : Nat} {plan : Plan R}
    (hplan : optimizePacks L g (packIds fn) regs fuel = some plan)
    (slide : BitVec 64) (out0 : Id → R → V) (c : CPU R V M) (k : Nat) (cfg : Cfg R V M)
    (hrun : runBlocks L slide g k (.at .entry c.unpack) = some cfg) :
    ∃ cfg', runSsa L plan drop slide g k (ssaStart out0 c) = some cfg' ∧ SameState ref g cfg cfg' := by
  obtain ⟨e, bs, g0, -, hf, hs, HG, rfl⟩ := lift_inv H hl
  have hinh := hall.inhibited H
  have hg := graph_ok hf hs hinh hall.edges hknown HG
  have hp := plan_ok hg.linked hregs hplan
  obtain ⟨d1, h1, h2⟩ := ssa_run hdrop hok hg hp k (ssa_start_inv hp out0 c) hrun
  exact ⟨d1, h1, edge_same hg h2⟩

/-- C15: the placement of stores terminates for every graph that lifting produces. -/
theorem C15_packs_terminate [Fintype R] {cls : Classifier P} {h : List (Call P)} {fn : Fn P}
    (H : Hist cls h fn) {known : Bool} {L : Lifter P R V M} {g : Graph P}
    (hl : lift known L.toSLifter fn = .ok g) (regs : List R) :
    ∃ N, ∀ fuel ≥ N, ∃ plan, optimizePacks L g (packIds fn) regs fuel = some plan := by
  obtain ⟨e, bs, g0, -, hf, hs, HG, rfl⟩ := lift_inv H hl
  refine packs_terminate (seal_linked HG) (Insert.insert .entry (packIds fn).toFinset) ?_ _ _
  intro b hb
  cases b with
  | entry => simp
  | exit => simp [packIds]
  | «at» a =>
    rw [sealExit_ne (by simp)] at hb
    obtain ⟨bb, hbb⟩ := Option.isSome_iff_exists.1 hb
    have := mem_packIds (HG.valid _ _ hbb).2.2.1
    rw [Finset.mem_insert, List.mem_toFinset]
    exact .inr this

/-- A lifter that in addition records, in a log kept next to the memory, every CPU struct passed to
an external function. -/
def Item.logged : Item R V M → Item R V (M × List (CPU R V M))
  | .upd f d => .upd (fun s => (f ⟨s.regs, s.mem.1, s.pc⟩).map
      (fun t => ⟨t.regs, (t.mem, s.mem.2), t.pc⟩)) d
  | .call g => .call (fun c => (g ⟨c.slot, c.pc, c.mem.1⟩).map
      (fun c' => ⟨c'.slot, c'.pc, (c'.mem, ⟨c.slot, c.pc, c.mem.1⟩ :: c.mem.2)⟩))

def Lifter.logged (L : Lifter P R V M) : Lifter P R V (M × List (CPU R V M)) :=
  { L with items := fun i => (L.items i).map Item.logged }

theorem logged_ok {it : Item R V M} (h : ItemOK (Refine.eq V M) it) :
    ItemOK (Refine.eq V (M × List (CPU R V M))) it.logged := by
  have heq : ∀ {M : Type} (s t : St R V M), (Refine.eq V M).st s t → s = t := by
    rintro M ⟨r, m, p⟩ ⟨r', m', p'⟩ ⟨h1, h2, h3⟩
    simp only [Refine.eq] at h1 h2 h3
    obtain rfl : r = r' := funext h1
    subst h2; subst h3; rfl
  have hceq : ∀ {M : Type} (s t : CPU R V M), (Refine.eq V M).cpu s t → s = t := by
    rintro M ⟨r, p, m⟩ ⟨r', p', m'⟩ ⟨h1, h2, h3⟩
    simp only [Refine.eq] at h1 h2 h3
    obtain rfl : r = r' := funext h1
    subst h2; subst h3; rfl
  have hself : ∀ {M : Type} (s : St R V M), (Refine.eq V M).st s s :=
    fun s => ⟨fun _ => rfl, rfl, rfl⟩
  have hcself : ∀ {M : Type} (s : CPU R V M), (Refine.eq V M).cpu s s :=
    fun s => ⟨fun _ => rfl, rfl, rfl⟩
  cases it with
  | upd f d =>
    refine ⟨?_, ?_⟩
    · intro s s' hf r hr
      obtain ⟨t, ht, rfl⟩ := Option.map_eq_some_iff.1 hf
      exact h.1 _ _ ht r hr
    · intro s t s' hst hf
      obtain rfl := heq _ _ hst
      exact ⟨s', hf, hself _⟩
  | call g =>
    intro c d c' hcd hg
    obtain rfl := hceq _ _ hcd
    exact ⟨c', hg, hcself _⟩

/-- C15: whenever the CPU struct is observable, it holds the guest registers.  The flat execution
stores every register at every call and return; the optimized code returns the same CPU struct, and
the CPU structs seen by all external functions called so far (the logs `e.mem.2`) are the same too.
Scope as for `C14_ssa_partial`. -/
theorem C15_observable_partial {cls : Classifier P} {h : List (Call P)} {fn : Fn P} {callFn : Bool}
    (H : Hist cls h fn) (hall : Counted cls callFn h fn)
    {known : Bool} {L : Lifter P R V M} {g : Graph P} (hl : lift known L.toSLifter fn = .ok g)
    (hknown : ∀ i ∈ fn.insts, TargetsKnown cls callFn L.toSLifter i)
    (hdirty : ∀ i, ∀ f d, Item.upd f d ∈ L.items i → ∀ s s', f s = some s' → ∀ r ∉ d,
      s'.regs r = s.regs r)
    {regs : List R} (hregs : ∀ r, r ∈ regs) {fuel : Nat} {plan : Plan R}
    (hplan : optimizePacks L.logged g (packIds fn) regs fuel = some plan)
    (slide : BitVec 64) (out0 : Id → R → V) (c : CPU R V (M × List (CPU R V M))) (k : Nat) :
    (∀ v c', runBlocks L.logged slide g k (.at .entry c.unpack) = some (.done v c') →
      runSsa L.logged plan (fun _ _ => false) slide g k (ssaStart out0 c) = some (.done v c')) ∧
    (∀ b s, runBlocks L.logged slide g k (.at .entry c.unpack) = some (.at b s) →
      ∃ q e, runSsa L.logged plan (fun _ _ => false) slide g k (ssaStart out0 c) = some (.at q b e) ∧
        e.mem.2 = s.mem.2) := by
  have hok : ∀ i, ∀ it ∈ L.logged.items i, ItemOK (Refine.eq V (M × List (CPU R V M))) it := by
    intro i it hit
    obtain ⟨it0, h0, rfl⟩ := List.mem_map.1 hit
    apply logged_ok
    cases it0 with
    | upd f d =>
      refine ⟨hdirty i f d h0, ?_⟩
      rintro ⟨r, m, p⟩ ⟨r', m', p'⟩ s' ⟨h1, h2, h3⟩ hf
      simp only [Refine.eq] at h1 h2 h3
      obtain rfl : r = r' := funext h1
      subst h2; subst h3
      exact ⟨s', hf, fun _ => rfl, rfl, rfl⟩
    | call g =>
      rintro ⟨r, p, m⟩ ⟨r', p', m'⟩ c' ⟨h1, h2, h3⟩ hf
      simp only [Refine.eq] at h1 h2 h3
      obtain rfl : r = r' := funext h1
      subst h2; subst h3
      exact ⟨c', hf, fun _ => rfl, rfl, rfl⟩
  have key := fun cfg hrun => C14_ssa_partial (L := L.logged) (drop := fun _ _ => false) H hall
    (g := g) (known := known) hl hknown hok (by intro r v h; cases h) hregs hplan slide out0 c k cfg hrun
  constructor
  · intro v c' hrun
    obtain ⟨cfg', h1, h2⟩ := key _ hrun
    cases cfg' with
    | «at» q b e => exact h2.elim
    | done v' d =>
      obtain ⟨rfl, h3, h4, h5⟩ := h2
      rcases c' with ⟨s1, p1, m1⟩
      rcases d with ⟨s2, p2, m2⟩
      simp only [Refine.eq] at h3 h4 h5
      obtain rfl : s1 = s2 := funext h3
      subst h4; subst h5
      exact h1
  · intro b s hrun
    obtain ⟨cfg', h1, h2⟩ := key _ hrun
    cases cfg' with
    | done v' d => exact h2.elim
    | «at» q b' e =>
      obtain ⟨rfl, bb, rg, -, -, -, h4, -⟩ := h2
      refine ⟨q, e, h1, ?_⟩
      have h4 : s.mem = e.mem := h4
      rw [h4]

/-! ### C17 -/

/-- Registers that no instruction of the function writes and no external function changes. -/
def Untouched (L : Lifter P R V M) (is : List (Inst P)) (r : R) : Prop :=
  ∀ i ∈ is, ∀ it ∈ L.items i, match it with
    | .upd f _ => ∀ s s', f s = some s' → s'.regs r = s.regs r
    | .call g => ∀ c c', g c = some c' → c'.slot r = c.slot r

theorem untouched_items {slide : BitVec 64} {r : R} (is : List (Item R V M)) :
    ∀ (s s' : St R V M), (∀ it ∈ is, match it with
      | .upd f _ => ∀ s s', f s = some s' → s'.regs r = s.regs r
      | .call g => ∀ c c', g c = some c' → c'.slot r = c.slot r) →
    execItems slide is s = some s' → s'.regs r = s.regs r := by
  induction is with
  | nil => intro s s' _ h; cases h; rfl
  | cons it is ih =>
    intro s s' hu h
    rw [execItems] at h
    obtain ⟨s1, h1, h2⟩ := Option.bind_eq_some_iff.1 h
    rw [ih s1 s' (fun x hx => hu x (List.mem_cons_of_mem _ hx)) h2]
    have hit := hu it List.mem_cons_self
    cases it with
    | upd f d => exact hit _ _ h1
    | call g =>
      simp only [execItem] at h1
      obtain ⟨c, hc, rfl⟩ := Option.map_eq_some_iff.1 h1
      exact hit _ _ hc

theorem untouched_body {L : Lifter P R V M} {slide : BitVec 64} {r : R} (is : List (Inst P)) :
    ∀ (s s' : St R V M), Untouched L is r → execBody L slide is s = some s' →
      s'.regs r = s.regs r := by
  induction is with
  | nil => intro s s' _ h; cases h; rfl
  | cons i is ih =>
    intro s s' hu h
    rw [execBody] at h
    obtain ⟨s1, h1, h2⟩ := Option.bind_eq_some_iff.1 h
    rw [ih s1 s' (fun x hx => hu x (List.mem_cons_of_mem _ hx)) h2]
    exact untouched_items (slide := slide) (L.items i) { s with pc := .const (L.startPc i) } s1
      (hu i List.mem_cons_self) h1

/-- Value of a register wherever execution stands. -/
def Cfg.reg (r : R) : Cfg R V M → V
  | .at _ s => s.regs r
  | .done _ c => c.slot r

theorem untouched_step {L : Lifter P R V M} {slide : BitVec 64} {r : R} {g : Graph P}
    (hu : ∀ b bb, g b = some bb → Untouched L bb.body r) {c c' : Cfg R V M}
    (h : stepBlock L slide g c = some c') : c'.reg r = c.reg r := by
  cases c with
  | done v c => cases h; rfl
  | «at» b s =>
    by_cases hb : b = .exit
    · subst hb; cases h; rfl
    · have : ∀ bb, g b = some bb → ∀ s', execBody L slide bb.body s = some s' → s'.regs r = s.regs r :=
        fun bb hbb s' => untouched_body _ _ _ (hu b bb hbb)
      cases b with
      | exit => exact absurd rfl hb
      | entry =>
        rw [stepBlock] at h
        · split at h
          · cases h
          next bb hbb =>
            split at h
            · cases h
            next s' hs =>
              have := this bb hbb s' hs
              split at h
              · split at h
                · cases h
                · cases h; exact this
              · obtain ⟨b', -, rfl⟩ := Option.map_eq_some_iff.1 h
                exact this
        · simp
      | «at» a =>
        rw [stepBlock] at h
        · split at h
          · cases h
          next bb hbb =>
            split at h
            · cases h
            next s' hs =>
              have := this bb hbb s' hs
              split at h
              · split at h
                · cases h
                · cases h; exact this
              · obtain ⟨b', -, rfl⟩ := Option.map_eq_some_iff.1 h
                exact this
        · simp

theorem untouched_run {L : Lifter P R V M} {slide : BitVec 64} {r : R} {g : Graph P}
    (hu : ∀ b bb, g b = some bb → Untouched L bb.body r) (k : Nat) : ∀ {c c' : Cfg R V M},
    runBlocks L slide g k c = some c' → c'.reg r = c.reg r := by
  induction k with
  | zero => intro c c' h; cases h; rfl
  | succ k ih =>
    intro c c' h
    rw [runBlocks] at h
    obtain ⟨c1, h1, h2⟩ := Option.bind_eq_some_iff.1 h
    rw [ih h2, untouched_step hu h1]

theorem body_insts {cls : Classifier P} {h : List (Call P)} {fn : Fn P}
    (H : Hist cls h fn) {known : Bool} {L : SLifter P} {g : Graph P} (hl : lift known L fn = .ok g)
    {b : Id} {bb : BB P} (hb : g b = some bb) : ∀ i ∈ bb.body, i ∈ fn.insts := by
  obtain ⟨e, bs, g0, -, hf, hs, HG, rfl⟩ := lift_inv H hl
  obtain ⟨bb0, h0, -, -, -, hbody, -⟩ := seal_get hb
  rw [hbody]
  cases b with
  | entry => rw [HG.entryB] at h0; cases h0; intro i hi; cases hi
  | exit => obtain ⟨pr, hx⟩ := HG.exitB; rw [hx] at h0; cases h0; intro i hi; cases hi
  | «at» a =>
    obtain ⟨-, -, hbs, -⟩ := HG.valid _ _ h0
    obtain ⟨b, hbm, rfl⟩ := run_of_start hf hs hbs
    obtain ⟨-, bb', hbb', hB⟩ := HG.built b hbm
    rw [h0] at hbb'; cases hbb'
    rw [hB.body]
    intro i hi
    obtain ⟨d, hd, rfl⟩ := List.mem_map.1 hi
    have hsub : ∀ (l : List (DInstr P)), ∀ x ∈ lifted L l, x ∈ l := by
      intro l
      induction l with
      | nil => intro x hx; exact hx
      | cons y l ih =>
        intro x hx
        rw [lifted] at hx
        split at hx
        · rcases List.mem_cons.1 hx with rfl | hx
          · exact List.mem_cons_self
          · exact List.mem_cons_of_mem _ (ih x hx)
        · rcases List.mem_cons.1 hx with rfl | hx
          · exact List.mem_cons_self
          · cases hx
    exact List.mem_map.2 ⟨d, run_mem hf hbm d (hsub _ d hd), rfl⟩

/-- C17: a register that is not touched by any decoded instruction has the same value in the CPU
struct when the lifted function returns as it had when it was called, on every path.  (Stated for the
flat execution; `C15_observable_partial` transfers it to the optimized SSA form.) -/
theorem C17_untouched {cls : Classifier P} {h : List (Call P)} {fn : Fn P}
    (H : Hist cls h fn) {known : Bool} {L : Lifter P R V M} {g : Graph P}
    (hl : lift known L.toSLifter fn = .ok g) {r : R} (hu : Untouched L fn.insts r)
    (slide : BitVec 64) (c c' : CPU R V M) (v : Bool) (k : Nat)
    (hrun : runBlocks L slide g k (.at .entry c.unpack) = some (.done v c')) : c'.slot r = c.slot r :=
  untouched_run (fun _ _ hb i hi => hu i (body_insts H hl hb i hi)) k hrun

/-! ### C09, C10: simulation of the guest machine -/

/-- Everything needed to speak about a lifted function: how it was decoded from `code`, that it could
be lifted, where the stores were placed, and that the code of the single instructions is right. -/
structure Lifting (cls : Classifier P) (callFn : Bool) (code : Decoder P) (L : Lifter P R V M)
    (G : Guest P MS) (slide : BitVec 64) (rel : MS → (R → V) → M → Prop) (ref : Refine V M)
    (drop : R → V → Bool) (h : List (Call P)) (fn : Fn P) (g : Graph P) (plan : Plan R) : Prop where
  hist : Hist cls h fn
  calls : ∀ c ∈ h, c.dec = code
  counted : Counted cls callFn h fn
  lift : ∃ known, lift known L.toSLifter fn = .ok g
  plan : ∃ regs fuel, (∀ r, r ∈ regs) ∧ optimizePacks L g (packIds fn) regs fuel = some plan
  correct : ∀ i ∈ fn.insts, Correct L G slide rel i
  fold : ∀ c, FoldOK L slide g c
  plain : ∀ i ∈ fn.insts, PlainFalls cls L.toSLifter G slide i
  targets : ∀ i ∈ fn.insts, TargetsKnown cls callFn L.toSLifter i
  items : ∀ i, ∀ it ∈ L.items i, ItemOK ref it
  drop : ∀ r v, drop r v = true → ref.undef v
  rel : ∀ m r r' μ μ', rel m r μ → (∀ x, ref.le (r x) (r' x)) → ref.leM μ μ' → rel m r' μ'

/-- The lifted function has the state of the guest machine: inside, at the beginning of the block for
the guest's program counter; or returned, with the CPU struct containing the guest state. -/
def InStep (g : Graph P) (G : Guest P MS) (slide : BitVec 64) (rel : MS → (R → V) → M → Prop)
    (m : MS) : SCfg R V M → Prop
  | .at q b e => ∃ bb regs, g b = some bb ∧ startRegs bb q e = some regs ∧ rel m regs e.mem ∧
      e.pc.val slide = some (G.pc m) ∧ ∀ a, b = .at a → G.pc m = a + slide
  | .done _ c => rel m c.slot c.mem ∧ c.pc = some (G.pc m)

/-- How many guest instructions have been executed at least when the lifted function has executed `k`
blocks, of which the first is the entry block: one for every other block, and at least one when
the function returns. -/
def Progress (k n : Nat) : SCfg R V M → Prop
  | .at _ .entry _ => k = 0
  | .at _ (.at _) _ => k ≤ n + 1
  | .at _ .exit _ => k ≤ n + 2 ∧ 1 ≤ n
  | .done _ _ => 1 ≤ n

/-- Where the lifted function stands. -/
def SCfg.loc : SCfg R V M → Loc
  | .at _ b _ => .at b
  | .done v _ => .done v

theorem SameState.loc {ref : Refine V M} {g : Graph P} {cfg : Cfg R V M} {x : SCfg R V M}
    (h : SameState ref g cfg x) : cfg.loc = x.loc := by
  cases cfg with
  | done v c =>
    cases x with
    | done v' c' => obtain ⟨rfl, -⟩ := h; rfl
    | «at» q b e => exact h.elim
  | «at» b s =>
    cases x with
    | done v' c' => exact h.elim
    | «at» q b' e => obtain ⟨rfl, -⟩ := h; rfl

/-- C60: the guest state determines what the lifted function does.  The CPU structs `c` and `c'` hold the same
state `m` of a guest machine whose program counter is at the entry address; they may differ in everything
that this state does not say, such as undefined flags.  After any number `k` of executed blocks, either
the guest machine has run into an instruction of a block that the lifted function was executing in both
cases and whose result the architecture does not define, or neither execution has had undefined behaviour,
both are at the beginning of the same block or have returned in the same way, and both are in step with the
guest machine after the same number `n` of instructions; this number grows with `k` as long as the function
has not returned, and is not zero when it has. -/
theorem C60_determined_partial {cls : Classifier P} {callFn : Bool} {code : Decoder P}
    {L : Lifter P R V M} {G : Guest P MS} {slide : BitVec 64} {rel : MS → (R → V) → M → Prop}
    {ref : Refine V M} {drop : R → V → Bool} {h : List (Call P)} {fn : Fn P} {g : Graph P}
    {plan : Plan R} (S : Lifting cls callFn code L G slide rel ref drop h fn g plan)
    {d : DInstr P} (hd : fn.instrs.head? = some d)
    (m : MS) (hm : G.pc m = d.inst.start + slide) (c c' : CPU R V M) (hc : rel m c.slot c.mem)
    (hcpc : c.pc = some (G.pc m)) (hc' : rel m c'.slot c'.mem) (hcpc' : c'.pc = some (G.pc m))
    (out0 out0' : Id → R → V) (k : Nat) :
    (∃ k' < k, ∃ n m1 q q' a e e', G.run code slide n m = some m1 ∧
      Walk L.toSLifter slide g G m k' n (.at (.at a)) m1 ∧
      runSsa L plan drop slide g k' (ssaStart out0 c) = some (.at q (.at a) e) ∧
      runSsa L plan drop slide g k' (ssaStart out0' c') = some (.at q' (.at a) e') ∧
      InStep g G slide rel m1 (.at q (.at a) e) ∧ InStep g G slide rel m1 (.at q' (.at a) e') ∧
      ∃ bb, g (.at a) = some bb ∧ G.StuckIn code slide bb.body m1) ∨
    ∃ n m1 x x', G.run code slide n m = some m1 ∧
      runSsa L plan drop slide g k (ssaStart out0 c) = some x ∧
      runSsa L plan drop slide g k (ssaStart out0' c') = some x' ∧
      InStep g G slide rel m1 x ∧ InStep g G slide rel m1 x' ∧ x.loc = x'.loc ∧
      Walk L.toSLifter slide g G m k n x.loc m1 ∧ Progress k n x := by
  obtain ⟨known, hl⟩ := S.lift
  obtain ⟨regs, fuel, hregs, hplan⟩ := S.plan
  obtain ⟨e, bs, g0, ⟨d', hd', hde, hok⟩, hf, hs, HG, rfl⟩ := lift_inv S.hist hl
  rw [hd] at hd'; cases hd'
  subst hde
  have hfirst : ∀ x ∈ fn.instrs, x.inst.start = d.inst.start → L.ok x.inst = true := by
    intro x hx hxs
    have hnd := wf_nodup (wf_hist S.hist)
    have hdm : d ∈ fn.instrs := List.mem_of_head? hd
    have : x = d := by
      refine List.inj_on_of_nodup_map (f := fun d : DInstr P => d.inst.start) ?_ hx hdm hxs
      simpa [Fn.insts, Function.comp_def] using hnd
    rw [this]; exact hok
  have hgen : ∀ i ∈ fn.insts, code i.start = some (i.len, i.payload) := by
    intro i hi
    obtain ⟨c, hc, hd⟩ := C01_genuine S.hist i hi
    rw [← S.calls c hc]; exact hd
  have hset : Setup cls L G code slide rel fn := ⟨wf_hist S.hist, hgen, S.correct, S.plain⟩
  have hinit : ∀ c : CPU R V M, rel m c.slot c.mem → c.pc = some (G.pc m) →
      SimCfg fn d.inst.start G slide rel m (.at .entry c.unpack) := by
    intro c hc hcpc
    refine ⟨⟨hc, ?_⟩, hm⟩
    rw [CPU.unpack, hcpc]
    exact Pc.val_value slide (G.pc m)
  have htrans : ∀ c out0 k n m1 cfg, runBlocks L slide (sealExit g0) k (.at .entry c.unpack) = some cfg →
      G.run code slide n m = some m1 → SimCfg fn d.inst.start G slide rel m1 cfg →
      ∃ x, runSsa L plan drop slide (sealExit g0) k (ssaStart out0 c) = some x ∧
        SameState ref (sealExit g0) cfg x ∧ InStep (sealExit g0) G slide rel m1 x := by
    intro c out0 k n m1 cfg hrun hn hsim
    obtain ⟨x, hx, hsame⟩ := C14_ssa_partial S.hist S.counted
      hl S.targets S.items S.drop hregs hplan slide out0 c k cfg hrun
    refine ⟨x, hx, hsame, ?_⟩
    cases cfg with
    | done v c1 =>
      cases x with
      | «at» q b e => exact hsame.elim
      | done v' c2 =>
        obtain ⟨rfl, h1, h2, h3⟩ := hsame
        exact ⟨S.rel _ _ _ _ _ hsim.1 h1 h2, ref.some _ _ _ h3 hsim.2⟩
    | «at» b s =>
      cases x with
      | done v' c2 => exact hsame.elim
      | «at» q b' e =>
        obtain ⟨rfl, bb, rg, hbb, hst, h1, h2, h3⟩ := hsame
        have hag : Agrees G slide rel m1 s := by
          cases b with
          | entry => exact hsim.1
          | exit => exact hsim
          | «at» a => exact hsim.1
        refine ⟨bb, rg, hbb, hst, S.rel _ _ _ _ _ hag.1 h1 h2,
          ref.some _ _ _ (ref.val slide _ _ h3) hag.2, ?_⟩
        rintro a rfl
        exact hsim.2.1
  rcases flat_pair hset hf hs (entry_ok HG) HG (hinit c hc hcpc) (hinit c' hc' hcpc') (S.fold c) (S.fold c')
      hfirst k with
    ⟨k', hk, n, m1, a, s1, s1', h1, hw, h2, h2', h3, h3', h4⟩ |
      ⟨n, m1, c1, c1', h1, h2, h2', h3, h3', hloc, hw, h4, h5, h6, h7, h8⟩
  · left
    obtain ⟨x, hx, hsame, hin⟩ := htrans c out0 k' n m1 _ h2 h1 h3
    obtain ⟨x', hx', hsame', hin'⟩ := htrans c' out0' k' n m1 _ h2' h1 h3'
    cases x with
    | done v c => exact hsame.elim
    | «at» q b e =>
      cases x' with
      | done v c => exact hsame'.elim
      | «at» q' b' e' =>
        obtain ⟨rfl, -⟩ := hsame
        obtain ⟨rfl, -⟩ := hsame'
        exact ⟨k', hk, n, m1, q, q', a, e, e', h1, hw, hx, hx', hin, hin', h4⟩
  · right
    obtain ⟨x, hx, hsame, hin⟩ := htrans c out0 k n m1 _ h2 h1 h3
    obtain ⟨x', hx', hsame', hin'⟩ := htrans c' out0' k n m1 _ h2' h1 h3'
    refine ⟨n, m1, x, x', h1, hx, hx', hin, hin', ?_, ?_, ?_⟩
    · rw [← hsame.loc, ← hsame'.loc]; exact hloc
    · rw [← hsame.loc]; exact hw
    cases c1 with
    | done v c =>
      cases x with
      | «at» q b e => exact hsame.elim
      | done v' c' =>
        refine h7 ?_
        rcases k with - | - | k
        · cases h2
        · obtain ⟨s, hs⟩ := h6 rfl; cases hs
        · omega
    | «at» b s =>
      cases x with
      | done v' c' => exact hsame.elim
      | «at» q b' e =>
        obtain ⟨rfl, -⟩ := hsame
        cases b with
        | entry => exact h5 s rfl
        | «at» a => exact h4 a s rfl
        | exit =>
          refine ⟨h8 s rfl, h7 ?_⟩
          rcases k with - | - | k
          · cases h2
          · obtain ⟨s, hs⟩ := h6 rfl; cases hs
          · omega

/-- C09: simulation.  The CPU struct `c` holds the state `m` of a guest machine whose program counter
is at the entry address.  After any number `k` of executed blocks, either the guest machine has run
into an instruction of a block that the lifted function was executing and whose result the
architecture does not define, or the
lifted function has not had undefined behaviour and is in step with the guest machine after some
number `n` of instructions; this number grows with `k` as long as the function has not returned, and is
not zero when it has. -/
theorem C09_simulation_partial {cls : Classifier P} {callFn : Bool} {code : Decoder P}
    {L : Lifter P R V M} {G : Guest P MS} {slide : BitVec 64} {rel : MS → (R → V) → M → Prop}
    {ref : Refine V M} {drop : R → V → Bool} {h : List (Call P)} {fn : Fn P} {g : Graph P}
    {plan : Plan R} (S : Lifting cls callFn code L G slide rel ref drop h fn g plan)
    {d : DInstr P} (hd : fn.instrs.head? = some d)
    (m : MS) (hm : G.pc m = d.inst.start + slide) (c : CPU R V M) (hc : rel m c.slot c.mem)
    (hcpc : c.pc = some (G.pc m)) (out0 : Id → R → V) (k : Nat) :
    (∃ k' < k, ∃ n m1 q a e, G.run code slide n m = some m1 ∧
      runSsa L plan drop slide g k' (ssaStart out0 c) = some (.at q (.at a) e) ∧
      InStep g G slide rel m1 (.at q (.at a) e) ∧
      ∃ bb, g (.at a) = some bb ∧ G.StuckIn code slide bb.body m1) ∨
    ∃ n m1 x, G.run code slide n m = some m1 ∧
      runSsa L plan drop slide g k (ssaStart out0 c) = some x ∧ InStep g G slide rel m1 x ∧
      Progress k n x := by
  rcases C60_determined_partial S hd m hm c c hc hcpc hc hcpc out0 out0 k with
    ⟨k', hk, n, m1, q, -, a, e, -, h1, -, h2, -, h3, -, h4⟩ | ⟨n, m1, x, -, h1, h2, -, h3, -, -, -, h4⟩
  · exact .inl ⟨k', hk, n, m1, q, a, e, h1, h2, h3, h4⟩
  · exact .inr ⟨n, m1, x, h1, h2, h3, h4⟩

/-- A function that has returned stays so. -/
theorem runSsa_done {L : Lifter P R V M} {plan : Plan R} {drop : R → V → Bool} {slide : BitVec 64}
    {g : Graph P} {k : Nat} {x : SCfg R V M} {v : Bool} {c : CPU R V M}
    (h : runSsa L plan drop slide g k x = some (.done v c)) (j : Nat) :
    runSsa L plan drop slide g (k + j) x = some (.done v c) := by
  induction k generalizing x with
  | zero =>
    cases h
    rw [Nat.zero_add]
    induction j with
    | zero => rfl
    | succ j ih => simp only [runSsa, stepSsa, Option.bind_some]; exact ih
  | succ k ih =>
    rw [Nat.add_right_comm]
    simp only [runSsa] at h ⊢
    cases hs : stepSsa L plan drop slide g x with
    | none => rw [hs] at h; cases h
    | some y =>
      rw [hs] at h
      simp only [Option.bind_some] at h ⊢
      exact ih h

/-- C09/C10 for a guest machine that never gets stuck at an instruction of the function: the lifted function never has undefined
behaviour; when it returns, the CPU struct holds exactly the state the guest machine has after some
number of instructions, at least one, with the program counter of the next guest instruction; and if it does not
return, it keeps executing guest instructions without bound. -/
theorem C09_total_partial {cls : Classifier P} {callFn : Bool} {code : Decoder P}
    {L : Lifter P R V M} {G : Guest P MS} {slide : BitVec 64} {rel : MS → (R → V) → M → Prop}
    {ref : Refine V M} {drop : R → V → Bool} {h : List (Call P)} {fn : Fn P} {g : Graph P}
    {plan : Plan R} (S : Lifting cls callFn code L G slide rel ref drop h fn g plan)
    {d : DInstr P} (hd : fn.instrs.head? = some d)
    (m : MS) (hm : G.pc m = d.inst.start + slide) (c : CPU R V M) (hc : rel m c.slot c.mem)
    (hcpc : c.pc = some (G.pc m)) (out0 : Id → R → V)
    (hlive : ∀ n m1 i, G.run code slide n m = some m1 → i ∈ fn.insts →
      G.pc m1 = i.start + slide → G.step i m1 ≠ none) :
    (∀ k, runSsa L plan drop slide g k (ssaStart out0 c) ≠ none) ∧
    (∀ k v c', runSsa L plan drop slide g k (ssaStart out0 c) = some (.done v c') →
      ∃ n m1, 1 ≤ n ∧ G.run code slide n m = some m1 ∧ rel m1 c'.slot c'.mem ∧
        c'.pc = some (G.pc m1)) ∧
    (∀ k q a e, runSsa L plan drop slide g k (ssaStart out0 c) = some (.at q (.at a) e) →
      ∃ n m1, k ≤ n + 1 ∧ G.run code slide n m = some m1 ∧ G.pc m1 = a + slide) := by
  have key : ∀ k, ∃ n m1 x, G.run code slide n m = some m1 ∧
      runSsa L plan drop slide g k (ssaStart out0 c) = some x ∧ InStep g G slide rel m1 x ∧
      Progress k n x := by
    intro k
    rcases C09_simulation_partial S hd m hm c hc hcpc out0 k with
      ⟨k', -, n, m1, q, a, e, h1, -, -, bb, hbb, j, m2, i, hi, -, h2, h3, h4⟩ | h
    · refine absurd h4 (hlive (n + j) m2 i (by rw [run_add, h1]; exact h2) ?_ h3)
      obtain ⟨known, hl⟩ := S.lift
      exact body_insts S.hist hl hbb i (List.mem_of_getElem? hi)
    · exact h
  refine ⟨?_, ?_, ?_⟩
  · intro k hk
    obtain ⟨n, m1, x, -, h2, -⟩ := key k
    rw [hk] at h2; cases h2
  · intro k v c' hk
    obtain ⟨n, m1, x, h1, h2, h3, h4⟩ := key k
    rw [hk] at h2; cases h2
    exact ⟨n, m1, h4, h1, h3.1, h3.2⟩
  · intro k q a e hk
    obtain ⟨n, m1, x, h1, h2, h3, h4⟩ := key k
    rw [hk] at h2; cases h2
    obtain ⟨-, -, -, -, -, -, h5⟩ := h3
    exact ⟨n, m1, h4, h1, h5 a rfl⟩

/-- C10: whenever the lifted function returns, the guest machine got stuck at an instruction of the
function, or the program counter stored in the CPU struct is the guest's program counter and the struct
holds the guest's state. -/
theorem C10_exit_pc_partial {cls : Classifier P} {callFn : Bool} {code : Decoder P}
    {L : Lifter P R V M} {G : Guest P MS} {slide : BitVec 64} {rel : MS → (R → V) → M → Prop}
    {ref : Refine V M} {drop : R → V → Bool} {h : List (Call P)} {fn : Fn P} {g : Graph P}
    {plan : Plan R} (S : Lifting cls callFn code L G slide rel ref drop h fn g plan)
    {d : DInstr P} (hd : fn.instrs.head? = some d)
    (m : MS) (hm : G.pc m = d.inst.start + slide) (c : CPU R V M) (hc : rel m c.slot c.mem)
    (hcpc : c.pc = some (G.pc m)) (out0 : Id → R → V) (k : Nat) (v : Bool) (c' : CPU R V M)
    (hret : runSsa L plan drop slide g k (ssaStart out0 c) = some (.done v c')) :
    (∃ n m1 i, i ∈ fn.insts ∧ G.run code slide n m = some m1 ∧ G.pc m1 = i.start + slide ∧
      G.step i m1 = none) ∨
    ∃ n m1, G.run code slide n m = some m1 ∧ c'.pc = some (G.pc m1) ∧ rel m1 c'.slot c'.mem := by
  rcases C09_simulation_partial S hd m hm c hc hcpc out0 k with
    ⟨k', -, n, m1, q, a, e, h1, -, -, bb, hbb, j, m2, i, hi, -, h2, h3, h4⟩ | ⟨n, m1, x, h1, h2, h3, -⟩
  · left
    obtain ⟨known, hl⟩ := S.lift
    exact ⟨n + j, m2, i, body_insts S.hist hl hbb i (List.mem_of_getElem? hi),
      by rw [run_add, h1]; exact h2, h3, h4⟩
  · right
    rw [hret] at h2; cases h2
    exact ⟨n, m1, h1, h3.2, h3.1⟩

/-! ### C39 -/

/-- C39: `ll_func_lift` returns NULL exactly if nothing was decoded, the architecture is not
supported, or the first instruction cannot be lifted; it never has undefined behaviour. -/
theorem C39_null_iff_partial {cls : Classifier P} {h : List (Call P)} {fn : Fn P} (H : Hist cls h fn)
    (known : Bool) {L : SLifter P} (hL : Liftable cls L fn) :
    lift known L fn ≠ .ub ∧
    (lift known L fn = .null ↔ fn.instrs = [] ∨ known = false ∨
      ∃ d, fn.instrs.head? = some d ∧ L.ok d.inst = false) := by
  have h1 := lift_defined H known hL
  obtain ⟨h2, h3, h4⟩ := lift_null (L := L) H known
  refine ⟨h1, h2, ?_⟩
  rintro (h | h | h)
  · exact h3 (.inl h)
  · exact h3 (.inr h)
  · rcases h4 h with h | h
    · exact h
    · exact absurd h h1

end Verif.Lift
