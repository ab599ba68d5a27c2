import Verif.Lift.CfgDecoded
import Verif.Lift.FillPhisProps

/-!
C67: what is done with the finished function before it is returned, /repo/src/function.cc:233-240: blocks that cannot
be reached are removed, and with `ll_config_enable_verify_ir` the function is checked.

LLVM's verifier checks much more than is modelled here.  Only what depends on the control-flow graph is: blocks and
terminators, PHI nodes and that every value is computed before it is used.
-/

namespace Verif.Lift

open Verif.Decode Verif.IR

variable {P R V M : Type}

/-! ### Model -/

/-- A way through the graph from the entry block to `b`; the list has the blocks left on the way, the last one first. -/
inductive Path (g : Graph P) : Id → List Id → Prop where
  | start : Path g .entry []
  | edge {q b : Id} {l : List Id} : Path g q l → HasEdge g q b → Path g b (q :: l)

/-- `b` can be reached from the entry block. -/
def Reachable (g : Graph P) (b : Id) : Prop := ∃ l, Path g b l

open Classical in
/-- `EliminateUnreachableBlocks`, /repo/src/function.cc:233-235: blocks that cannot be reached are removed, and with
them their edges (and the incoming values of PHI nodes that belong to these edges). -/
noncomputable def eliminate (g : Graph P) : Graph P := fun b =>
  if Reachable g b then (g b).map (fun bb => { bb with preds := bb.preds.filter (fun q => decide (Reachable g q)) })
  else none

/-- Every way from the entry block to `b` leads through `d` before. -/
def Dominates (g : Graph P) (d b : Id) : Prop := ∀ l, Path g b l → d ∈ l

/-- The conditions of LLVM's verifier on the control-flow graph and on the registers taken over from another block. -/
structure WellFormed (g : Graph P) : Prop where
  /-- There is an entry block, and no branch to it. -/
  entry : (g .entry).isSome ∧ ∀ q, ¬ HasEdge g q .entry
  /-- Branches lead to blocks of the function. -/
  targets : ∀ q b, HasEdge g q b → (g b).isSome
  /-- Every block ends with a branch or a return: its register file is gone (`ForceReturn`, exit block). -/
  ends : ∀ b bb, g b = some bb → bb.term.isSome ∨ (bb.init.isSome ∧ bb.rf = false)
  /-- The predecessors known to the generator, for which PHI nodes have values, are those from which there are branches. -/
  preds : ∀ b bb, g b = some bb → bb.preds.Nodup ∧ ∀ q, q ∈ bb.preds ↔ HasEdge g q b
  /-- Values are computed before they are used: a block that uses the registers of another block comes after it. -/
  uses : ∀ b bb p, g b = some bb → bb.init = some (.parent p) → Dominates g p b

open Classical in
/-- The result of lifting, /repo/src/function.cc:233-242; `none` is the null pointer. -/
noncomputable def finish (verify : Bool) (g : Graph P) : Option (Graph P) :=
  if verify = true ∧ ¬ WellFormed (eliminate g) then none else some (eliminate g)

/-! ### Removing blocks -/

theorem elim_get {g : Graph P} {b : Id} {bb' : BB P} (h : eliminate g b = some bb') :
    Reachable g b ∧ ∃ bb, g b = some bb ∧ bb'.init = bb.init ∧ bb'.term = bb.term ∧ bb'.rf = bb.rf ∧ bb'.body = bb.body ∧
      ∀ q, q ∈ bb'.preds ↔ q ∈ bb.preds ∧ Reachable g q := by
  classical
  unfold eliminate at h
  split at h
  next hr =>
    obtain ⟨bb, h0, rfl⟩ := Option.map_eq_some_iff.1 h
    exact ⟨hr, bb, h0, rfl, rfl, rfl, rfl, fun q => by simp [List.mem_filter]⟩
  · cases h

theorem elim_some {g : Graph P} {b : Id} (hr : Reachable g b) :
    eliminate g b = (g b).map (fun bb => { bb with preds := bb.preds.filter (fun q => @decide (Reachable g q) (Classical.propDecidable _)) }) := by
  unfold eliminate; rw [if_pos hr]

theorem elim_edge {g : Graph P} (q b : Id) : HasEdge (eliminate g) q b ↔ Reachable g q ∧ HasEdge g q b := by
  constructor
  · rintro ⟨qb, t, h1, h2, h3⟩
    obtain ⟨hr, bb, h4, -, h5, -⟩ := elim_get h1
    exact ⟨hr, bb, t, h4, by rw [← h5, h2], h3⟩
  · rintro ⟨hr, qb, t, h1, h2, h3⟩
    have h := elim_some hr
    rw [h1] at h
    exact ⟨_, t, h, h2, h3⟩

theorem elim_path {g : Graph P} (b : Id) (l : List Id) : Path (eliminate g) b l ↔ Path g b l := by
  constructor
  · intro h
    induction h with
    | start => exact .start
    | edge _ he ih => exact .edge ih ((elim_edge _ _).1 he).2
  · intro h
    induction h with
    | start => exact .start
    | edge hp he ih => exact .edge ih ((elim_edge _ _).2 ⟨⟨_, hp⟩, he⟩)

theorem elim_dom {g : Graph P} (d b : Id) : Dominates (eliminate g) d b ↔ Dominates g d b := by
  unfold Dominates; simp only [elim_path]

theorem next_edge {g : Graph P} {q b : Id} {bb : BB P} {t : Term} {slide : BitVec 64} {pc : Pc} (hq : g q = some bb)
    (ht : bb.term = some t) (h : t.next slide pc = some b) : HasEdge g q b := by
  refine ⟨bb, t, hq, ht, ?_⟩
  cases t with
  | br c => cases h; exact .inl rfl
  | cond c d =>
    simp only [Term.next] at h
    split at h
    · cases h
    · split at h
      · cases h; exact .inr ⟨d, .inl rfl⟩
      · cases h; exact .inr ⟨c, .inr rfl⟩

theorem step_elim (L : Lifter P R V M) (slide : BitVec 64) (g : Graph P) (b : Id) (s : St R V M) (hr : Reachable g b) :
    stepBlock L slide (eliminate g) (.at b s) = stepBlock L slide g (.at b s) ∧
    ∀ b' s', stepBlock L slide g (.at b s) = some (.at b' s') → Reachable g b' := by
  by_cases hx : b = .exit
  · subst hx; exact ⟨rfl, fun _ _ h => by simp [stepBlock] at h⟩
  have he := elim_some hr
  constructor
  · cases b with
    | exit => exact absurd rfl hx
    | entry => simp only [stepBlock, he]; cases g .entry <;> rfl
    | «at» a => simp only [stepBlock, he]; cases g (.at a) <;> rfl
  · intro b' s' h
    have h' : (match g b with
        | none => none
        | some bb =>
          match execBody L slide bb.body s with
          | none => none
          | some s =>
            match bb.term with
            | none => if bb.rf then none else some (Cfg.done false (s.pack slide))
            | some t => (t.next slide s.pc).map (fun b => Cfg.at b s)) = some (.at b' s') := by
      cases b with
      | exit => exact absurd rfl hx
      | entry => exact h
      | «at» a => exact h
    split at h'
    · cases h'
    next bb hb =>
      split at h'
      · cases h'
      · split at h'
        · split at h' <;> cases h'
        next t ht =>
          obtain ⟨c, h1, h2⟩ := Option.map_eq_some_iff.1 h'
          cases h2
          obtain ⟨l, hl⟩ := hr
          exact ⟨_, .edge hl (next_edge hb ht h1)⟩

variable [DecidableEq R]

theorem ssa_elim (L : Lifter P R V M) (plan : Plan R) (drop : R → V → Bool) (slide : BitVec 64) (g : Graph P) (q b : Id)
    (e : Env R V M) (hr : Reachable g b) :
    stepSsa L plan drop slide (eliminate g) (.at q b e) = stepSsa L plan drop slide g (.at q b e) ∧
    ∀ q' b' e', stepSsa L plan drop slide g (.at q b e) = some (.at q' b' e') → Reachable g b' := by
  have he := elim_some hr
  constructor
  · simp only [stepSsa, he]; cases g b <;> rfl
  · intro q' b' e' h
    simp only [stepSsa] at h
    split at h
    · cases h
    next bb hb =>
      split at h
      · cases h
      · split at h
        · cases h
        · split at h
          · split at h <;> cases h
          next t ht =>
            obtain ⟨c, h1, h2⟩ := Option.map_eq_some_iff.1 h
            cases h2
            obtain ⟨l, hl⟩ := hr
            exact ⟨_, .edge hl (next_edge hb ht h1)⟩

omit [DecidableEq R] in
/-- C67: removing blocks changes nothing, for every graph and instruction lifter: the function does the same with every
CPU struct and memory, step by step (in the semantics in which all registers travel along the edges). -/
theorem C67_same (L : Lifter P R V M) (slide : BitVec 64) (g : Graph P) (s : St R V M) (k : Nat) :
    runBlocks L slide (eliminate g) k (.at .entry s) = runBlocks L slide g k (.at .entry s) := by
  suffices h : ∀ k b s, Reachable g b → runBlocks L slide (eliminate g) k (.at b s) = runBlocks L slide g k (.at b s) from
    h k _ _ ⟨_, .start⟩
  intro k
  induction k with
  | zero => intro b s _; rfl
  | succ k ih =>
    intro b s hr
    obtain ⟨h1, h2⟩ := step_elim L slide g b s hr
    simp only [runBlocks, h1]
    cases hs : stepBlock L slide g (.at b s) with
    | none => rfl
    | some c =>
      cases c with
      | «at» b' s' => exact ih b' s' (h2 _ _ hs)
      | done v c =>
        simp only [Option.bind_some]
        clear ih hs
        induction k with
        | zero => rfl
        | succ k ih => simp only [runBlocks, stepBlock, Option.bind_some]; exact ih

/-- C67: the same for the code in SSA form, with stores to the CPU struct placed and left out in any way. -/
theorem C67_same_ssa (L : Lifter P R V M) (plan : Plan R) (drop : R → V → Bool) (slide : BitVec 64) (g : Graph P)
    (out0 : Id → R → V) (c : CPU R V M) (k : Nat) :
    runSsa L plan drop slide (eliminate g) k (ssaStart out0 c) = runSsa L plan drop slide g k (ssaStart out0 c) := by
  suffices h : ∀ k q b e, Reachable g b →
      runSsa L plan drop slide (eliminate g) k (.at q b e) = runSsa L plan drop slide g k (.at q b e) from
    h k _ _ _ ⟨_, .start⟩
  intro k
  induction k with
  | zero => intro q b e _; rfl
  | succ k ih =>
    intro q b e hr
    obtain ⟨h1, h2⟩ := ssa_elim L plan drop slide g q b e hr
    simp only [runSsa, h1]
    cases hs : stepSsa L plan drop slide g (.at q b e) with
    | none => rfl
    | some c =>
      cases c with
      | «at» q' b' e' => exact ih q' b' e' (h2 _ _ _ hs)
      | done v c =>
        simp only [Option.bind_some]
        clear ih hs
        induction k with
        | zero => rfl
        | succ k ih => simp only [runSsa, stepSsa, Option.bind_some]; exact ih

/-! ### The function is well-formed -/

omit [DecidableEq R] in
/-- C67: no dead blocks are left. -/
theorem C67_alive (g : Graph P) (b : Id) (h : (eliminate g b).isSome) : Reachable (eliminate g) b := by
  obtain ⟨bb, hb⟩ := Option.isSome_iff_exists.1 h
  obtain ⟨⟨l, hl⟩, -⟩ := elim_get hb
  exact ⟨l, (elim_path _ _).2 hl⟩

omit [DecidableEq R] in
/-- All that C67 needs of the finished graph. -/
theorem wellformed_of {L : Lifter P R V M} {g : Graph P} {ids : List Id} (H : GraphOK L g ids)
    (hnd : ∀ b bb, g b = some bb → bb.preds.Nodup)
    (hends : ∀ b bb, g b = some bb → bb.term.isSome ∨ bb.rf = false) : WellFormed (eliminate g) := by
  have hpe : ∀ b bb q, g b = some bb → (q ∈ bb.preds ↔ HasEdge g q b) := by
    intro b bb q hb
    rw [hasEdge_iff H.succs]
    constructor
    · exact H.linked.bwd _ _ _ hb
    · rintro ⟨qb, hqb, hq⟩
      obtain ⟨cb, hcb, hm⟩ := H.linked.fwd _ _ _ hqb hq
      rw [hb] at hcb; cases hcb; exact hm
  constructor
  · refine ⟨?_, ?_⟩
    · obtain ⟨bb, hb⟩ := Option.isSome_iff_exists.1 H.linked.entry
      rw [elim_some ⟨_, .start⟩, hb]; rfl
    · intro q hq
      obtain ⟨qb, hqb, hm⟩ := (hasEdge_iff H.succs _ _).1 ((elim_edge _ _).1 hq).2
      exact H.noEntry _ _ hqb hm
  · intro q b hq
    obtain ⟨⟨l, hl⟩, he⟩ := (elim_edge _ _).1 hq
    obtain ⟨qb, hqb, hm⟩ := (hasEdge_iff H.succs _ _).1 he
    obtain ⟨cb, hcb, -⟩ := H.linked.fwd _ _ _ hqb hm
    rw [elim_some ⟨_, .edge hl he⟩, hcb]; rfl
  · intro b bb' hb
    obtain ⟨-, bb, h0, h1, h2, h3, -⟩ := elim_get hb
    rw [h1, h2, h3]
    exact (hends b bb h0).imp id fun h => ⟨H.inited b bb h0, h⟩
  · intro b bb' hb
    have hb' := hb
    obtain ⟨hr, bb, h0, -, -, -, -, h4⟩ := elim_get hb
    refine ⟨?_, fun q => ?_⟩
    · classical
      rw [elim_some hr, h0] at hb'
      cases hb'
      exact (hnd b bb h0).filter _
    · rw [h4, elim_edge, hpe b bb q h0, and_comm]
  · intro b bb' p hb hp
    obtain ⟨hr, bb, h0, h1, -⟩ := elim_get hb
    rw [elim_dom]
    rw [h1] at hp
    have hpr := H.parent b bb p h0 hp
    intro l hl
    cases hl with
    | start => rw [(H.clean _ _ h0).2 rfl] at hp; cases hp
    | edge hq he =>
      have := (hpe b bb _ h0).2 he
      rw [hpr] at this
      rw [List.mem_singleton.1 this]; exact List.mem_cons_self ..

omit [DecidableEq R] in
/-- C67, for functions for which all edges were counted when decoding (as with `ll_func_decode_cfg`, see below): the
function that lifting returns is well-formed, so that it is returned with and without verification. -/
theorem C67_wellformed {cls : Classifier P} {h : List (Call P)} {fn : Fn P} {callFn : Bool}
    (H : Hist cls h fn) (hall : DecodedWithCfg callFn h)
    {known : Bool} {L : Lifter P R V M} {g : Graph P} (hl : lift known L.toSLifter fn = .ok g)
    (hknown : ∀ i ∈ fn.insts, TargetsKnown cls callFn L.toSLifter i) :
    WellFormed (eliminate g) ∧ ∀ verify, finish verify g = some (eliminate g) := by
  have hw : WellFormed (eliminate g) := by
    obtain ⟨e, bs, g0, -, hf, hs, HG, rfl⟩ := lift_inv H hl
    have hc := counted_cfg H hall
    refine wellformed_of (graph_ok (L := L) hf hs (hc.inhibited H) hc.edges hknown HG) ?_ ?_
    · intro b bb hb
      obtain ⟨bb0, h0, hp, -⟩ := seal_get hb
      rw [hp]; exact HG.edges.nodup _ _ h0
    · intro b bb hb
      cases b with
      | entry => rw [sealExit_ne (by simp), HG.entryB] at hb; cases hb; exact .inl rfl
      | exit =>
        obtain ⟨pr, hx⟩ := HG.exitB
        simp only [sealExit, Graph.modify, hx, if_true, Option.map_some, Option.some.injEq] at hb
        rw [← hb]; exact .inr rfl
      | «at» a =>
        rw [sealExit_ne (by simp)] at hb
        obtain ⟨-, -, hbs, -⟩ := HG.valid _ _ hb
        obtain ⟨r, hr, rfl⟩ := run_of_start hf hs hbs
        obtain ⟨-, bb', hbb', hB⟩ := HG.built r hr
        rw [hb] at hbb'; cases hbb'
        rw [hB.term, hB.rf]
        unfold termOf
        split <;> simp [*]
  exact ⟨hw, fun v => by unfold finish; rw [if_neg (fun h => h.2 hw)]⟩

/-! ### Values are computed before they are used -/

/-- The value of register `r` that block `b` starts with is computed in block `d`: by the load in the entry block, by a
PHI node, by an instruction (`as` has the writes), or by the last load from the CPU struct in the only predecessor. -/
inductive DefIn (L : Lifter P R V M) (g : Graph P) (st : PhiSt R) (as : List (PhiAcc R)) (r : R) : Id → Id → Prop where
  | load {b : Id} {bb : BB P} : g b = some bb → bb.init = some .clean → DefIn L g st as r b b
  | phi {b : Id} : r ∈ (st b).phis.map PhiNode.reg → DefIn L g st as r b b
  | write {b : Id} : PhiAcc.write b r ∈ as → DefIn L g st as r b b
  | reload {b p : Id} {bb : BB P} : g b = some bb → bb.init = some (.parent p) → cleanEnd L g p = true →
      DefIn L g st as r b p
  | parent {b p d : Id} {bb : BB P} : g b = some bb → bb.init = some (.parent p) → DefIn L g st as r p d →
      DefIn L g st as r b d

theorem defIn_dom {L : Lifter P R V M} {g : Graph P} {st : PhiSt R} {as : List (PhiAcc R)} {r : R} {b d : Id}
    (hw : WellFormed (eliminate g)) (h : DefIn L g st as r b d) : d = b ∨ Dominates (eliminate g) d b := by
  have hdom : ∀ b bb p, g b = some bb → bb.init = some (.parent p) → Dominates g p b := by
    intro b bb p hb hp
    by_cases hr : Reachable g b
    · have he := elim_some hr
      rw [hb] at he
      rw [← elim_dom]
      exact hw.uses b _ p he hp
    · exact fun l hl => absurd ⟨l, hl⟩ hr
  have hsuf : ∀ {b l}, Path g b l → ∀ p ∈ l, ∃ l', Path g p l' ∧ ∀ x ∈ l', x ∈ l := by
    intro b l hl
    induction hl with
    | start => intro p hp; cases hp
    | edge hq he ih =>
      intro p hp
      rcases List.mem_cons.1 hp with rfl | hp
      · exact ⟨_, hq, fun x hx => List.mem_cons_of_mem _ hx⟩
      · obtain ⟨l', h1, h2⟩ := ih p hp
        exact ⟨l', h1, fun x hx => List.mem_cons_of_mem _ (h2 x hx)⟩
  simp only [elim_dom]
  induction h with
  | load => exact .inl rfl
  | phi => exact .inl rfl
  | write => exact .inl rfl
  | reload hb hp _ => exact .inr (hdom _ _ _ hb hp)
  | parent hb hp _ ih =>
    refine .inr ?_
    have h1 := hdom _ _ _ hb hp
    rcases ih with rfl | ih
    · exact h1
    · intro l hl
      obtain ⟨l', h2, h3⟩ := hsuf hl _ (h1 l hl)
      exact h3 _ (ih l' h2)

/-- C67: values.  Whatever registers the generated code reads and writes, in whatever order (`as`): for every register
that a block reads from the register file it starts with there is a block in which the value is computed, and all such
blocks are the block itself or come before it on every way through the function; after blocks are removed every PHI node
has one value for every edge into its block, and that value is computed in the predecessor or in a block that
comes before it on every way. -/
theorem C67_values [Fintype R] {cls : Classifier P} {h : List (Call P)} {fn : Fn P} {callFn : Bool}
    (H : Hist cls h fn) (hall : DecodedWithCfg callFn h)
    {known : Bool} {L : Lifter P R V M} {g : Graph P} (hl : lift known L.toSLifter fn = .ok g)
    (hknown : ∀ i ∈ fn.insts, TargetsKnown cls callFn L.toSLifter i)
    (as : List (PhiAcc R)) (has : ∀ b r, PhiAcc.read b r ∈ as → (g b).isSome)
    (ids : List Id) (hids : ∀ b, (g b).isSome → b ≠ .entry → b ∈ ids)
    (k : Nat) (hk : ids.length * Fintype.card R + 2 ≤ k) :
    ∃ st st', runAccs L g (fn.instrs.length + 2) (phiInit g) as = some st ∧
      fillLoop L g (fn.instrs.length + 2) ids k st = some st' ∧
      (∀ b r, PhiAcc.read b r ∈ as → ∃ d, DefIn L g st' as r b d) ∧
      (∀ b r d, DefIn L g st' as r b d → d = b ∨ Dominates (eliminate g) d b) ∧
      ∀ b, (eliminate g b).isSome → ∀ phi ∈ (st' b).phis, ∃ incoming : List Id,
        incoming.Nodup ∧ (∀ q, q ∈ incoming ↔ q ∈ phi.incoming ∧ (eliminate g q).isSome) ∧
        (∀ q, q ∈ incoming ↔ HasEdge (eliminate g) q b) ∧
        ∀ q ∈ incoming, cleanEnd L g q = true ∨ ∃ d, DefIn L g st' as phi.reg q d := by
  obtain ⟨hw, -⟩ := C67_wellformed H hall hl hknown
  obtain ⟨e, bs, g0, -, hf, hs, HG, hg, hR⟩ := lift_inv_with H hl Ranked
    (fun g k r h => by simp at h)
    (fun e hw bs r g g1 b g' _ HG hnew _ h1 h2 hI => ranked_step hw HG hnew h1 h2 hI)
  have hfo := files_ok hf hs HG hR
  rw [← hg] at hfo
  obtain ⟨st, st', h1, h2, h3⟩ := C50_phi_nodes H hl as has ids hids k hk
  obtain ⟨st2, st2', h1', h2', h4, h5⟩ := C50_reads_defined H hl as has ids hids k hk
  rw [h1] at h1'; cases h1'
  rw [h2] at h2'; cases h2'
  have hdef : ∀ n b r, rankOf bs b < n → (st' b).has r = true → ∃ d, DefIn L g st' as r b d := by
    intro n
    induction n with
    | zero => intro b r h; omega
    | succ n ih =>
      intro b r hn hh
      rcases h5 b r hh with ⟨bb, hb, hi⟩ | hm | hm | ⟨bb, p, hb, hp, ha⟩
      · exact ⟨b, .load hb hi⟩
      · exact ⟨b, .phi hm⟩
      · exact ⟨b, .write hm⟩
      · obtain ⟨-, hrk⟩ := hfo.parent b bb p hb hp
        rcases ha with ha | ha
        · exact ⟨p, .reload hb hp ha⟩
        · obtain ⟨d, hd⟩ := ih p r (by omega) ha
          exact ⟨d, .parent hb hp hd⟩
  refine ⟨st, st', h1, h2, fun b r hm => hdef _ b r (Nat.lt_succ_self _) (h4 b r hm),
    fun b r d hd => defIn_dom hw hd, ?_⟩
  intro b hb phi hphi
  classical
  obtain ⟨-, h6⟩ := h3 b
  obtain ⟨h7, h8, h9⟩ := h6 phi hphi
  refine ⟨phi.incoming.filter (fun q => (eliminate g q).isSome), h7.filter _, fun q => by simp [List.mem_filter], ?_, ?_⟩
  · intro q
    rw [List.mem_filter, h8, elim_edge, and_comm]
    constructor
    · rintro ⟨ha, he⟩
      obtain ⟨x, hx⟩ := Option.isSome_iff_exists.1 ha
      exact ⟨(elim_get hx).1, he⟩
    · rintro ⟨hr, he⟩
      refine ⟨?_, he⟩
      obtain ⟨qb, t, hq, -⟩ := he
      show (eliminate g q).isSome = true
      rw [elim_some hr, hq]; rfl
  · intro q hq
    rcases h9 q (List.mem_filter.1 hq).1 with h | h
    · exact .inl h
    · exact .inr (hdef _ q _ (Nat.lt_succ_self _) h)

end Verif.Lift

namespace Verif.Lift

open Verif.Decode Verif.IR

variable {P R V M : Type}

/-- In a lifted function a block is only entered from its predecessors (any way of decoding). -/
theorem edge_preds {cls : Classifier P} {h : List (Call P)} {fn : Fn P} (H : Hist cls h fn) {known : Bool}
    {L : SLifter P} {g : Graph P} (hl : lift known L fn = .ok g) {q b : Id} {bb : BB P} (hb : g b = some bb)
    (he : HasEdge g q b) : q ∈ bb.preds := by
  obtain ⟨e, bs, g0, -, hf, hs, HG, rfl⟩ := lift_inv H hl
  have hsucc : ∀ b bb, sealExit g0 b = some bb → bb.succs = succsOpt bb.term := by
    intro b bb hb
    obtain ⟨bb0, h0, -, hs, ht, -⟩ := seal_get hb
    rw [hs, ht, HG.edges.succs _ _ h0]
  obtain ⟨qb, hqb, hq⟩ := (hasEdge_iff hsucc _ _).1 he
  obtain ⟨cb, hcb, hm⟩ := (seal_linked HG).fwd _ _ _ hqb hq
  rw [hb] at hcb; cases hcb; exact hm

end Verif.Lift

namespace Verif.Lift.RV64

open Verif.Decode Verif.IR Verif.RV64

/-- C67 for RV64: any number of `ll_func_decode_cfg` calls, any code, any call and system call functions (with a call
function, JAL must not have a destination other than `x0` and the link registers, `C09_jal_counterexample`). -/
theorem C67_rv64 {h : List (Call Frv)} {fn : Fn Frv} (H : Hist rvClassify h fn) (env : Env)
    (hall : DecodedWithCfg env.callFn.isSome h) (hdec : ∀ i ∈ fn.insts, Decoded i.payload)
    (hj : env.callFn = none ∨ ∀ i ∈ fn.insts, ¬ OddJal i.payload)
    {known : Bool} {slide : BitVec 64} {fold : Inst Frv → Option Bool} {g : Graph Frv}
    (hl : lift known (rvLifterC env slide fold).toSLifter fn = .ok g) :
    WellFormed (eliminate g) ∧ ∀ verify, finish verify g = some (eliminate g) :=
  C67_wellformed H hall hl (fun i hi => rvC_targets env slide fold i (hdec i hi) (hj.imp id fun h => h i hi))

/-- The hypotheses are met by the loop with a call function and a system call. -/
example (slide : BitVec 64) : ∃ g, lift true (rvLifterC ccEnv slide noFold).toSLifter ccFn = .ok g ∧
    WellFormed (eliminate g) := by
  obtain ⟨g, hg⟩ := cc_lifts slide
  exact ⟨g, hg, (C67_rv64 ccFn_hist ccEnv (by intro c hc; rw [List.mem_singleton.1 hc]; exact ⟨rfl, rfl⟩)
    (by rw [ccFn_insts]; decide) (.inr (by rw [ccFn_insts]; decide)) hg).1⟩

/-- All hypotheses of `C67_values` are met by this function, if its first block reads `x2` and the entry block `x1`. -/
example (slide : BitVec 64) : ∃ g, lift true (rvLifterC ccEnv slide noFold).toSLifter ccFn = .ok g ∧
    DecodedWithCfg ccEnv.callFn.isSome [ccCall] ∧
    (∀ i ∈ ccFn.insts, TargetsKnown rvClassify ccEnv.callFn.isSome (rvLifterC ccEnv slide noFold).toSLifter i) ∧
    (∀ b r, PhiAcc.read b r ∈ ([.read .entry (.inl 1), .read (.at 0x1000#64) (.inl 2)] : List (PhiAcc RvReg)) → (g b).isSome) ∧
    ∀ b, (g b).isSome → b ≠ .entry → b ∈ packIds ccFn := by
  obtain ⟨g, hg⟩ := cc_lifts slide
  have hd : ∀ i ∈ ccFn.insts, Decoded i.payload := by rw [ccFn_insts]; decide
  have hj : ∀ i ∈ ccFn.insts, ¬ OddJal i.payload := by rw [ccFn_insts]; decide
  have hst : (ccFn.instrs.head?.map (fun d => d.inst.start)) = some 0x1000#64 := by decide +kernel
  obtain ⟨e, bs, g0, he, hf, hs, HG, rfl⟩ := lift_inv ccFn_hist hg
  refine ⟨_, hg, by intro c hc; rw [List.mem_singleton.1 hc]; exact ⟨rfl, rfl⟩,
    fun i hi => rvC_targets ccEnv slide noFold i (hd i hi) (.inr (hj i hi)), ?_, ?_⟩
  · intro b r hm
    simp only [List.mem_cons, PhiAcc.read.injEq, List.not_mem_nil, or_false] at hm
    rcases hm with ⟨rfl, -⟩ | ⟨rfl, -⟩
    · rw [sealExit_ne (by simp), HG.entryB]; rfl
    · have hl := seal_linked HG
      have : e = 0x1000#64 := by
        obtain ⟨d, hd, rfl, -⟩ := he
        rw [hd] at hst; exact Option.some.inj hst
      subst this
      obtain ⟨cb, hcb, -⟩ := hl.fwd .entry _ (.at 0x1000#64) (by rw [sealExit_ne (by simp), HG.entryB]) (by simp)
      rw [hcb]; rfl
  · intro b hb hne
    cases b with
    | entry => exact absurd rfl hne
    | exit => simp [packIds]
    | «at» a =>
      rw [sealExit_ne (by simp)] at hb
      obtain ⟨bb, hbb⟩ := Option.isSome_iff_exists.1 hb
      exact mem_packIds (HG.valid _ _ hbb).2.2.1

/-- ```
1000: beq  x1, x0, 1010
1004: addi x2, x0, 5
1008: jal  x0, 1018
1010: addi x2, x0, 7
1014: beq  x5, x0, 2000
1018: add  x3, x2, x0
101c: jalr x0, 0(x1)
``` -/
def meetCode : Decoder Frv := fun a =>
  if a = 0x1000#64 then some (4, ⟨.beq, 0, 1, 0, 0x10, 0, 7⟩)
  else if a = 0x1004#64 then some (4, ⟨.addi, 2, 0, 0, 5, 0, 7⟩)
  else if a = 0x1008#64 then some (4, ⟨.jal, 0, regInv, 0, 0x10, 0, 7⟩)
  else if a = 0x1010#64 then some (4, ⟨.addi, 2, 0, 0, 7, 0, 7⟩)
  else if a = 0x1014#64 then some (4, ⟨.beq, 0, 5, 0, 0xfec, 0, 7⟩)
  else if a = 0x1018#64 then some (4, ⟨.add, 3, 2, 0, 0, 0, 7⟩)
  else if a = 0x101c#64 then some (4, ⟨.jalr, 0, 1, 0, 0, 0, 7⟩)
  else none

/-- The init, predecessors and terminator of a block of the lifted function. -/
def blockOf (fold : Inst Frv → Option Bool) (fn : Option (Fn Frv)) (b : Id) :
    Option (Option Init × List Id × Option Term) :=
  fn.bind fun fn => match lift true (rvLifterC {} 0#64 fold).toSLifter fn with
    | .ok g => (g b).map (fun bb => (bb.init, bb.preds, bb.term))
    | _ => none

theorem blockOf_get {fold : Inst Frv → Option Bool} {fn : Fn Frv} {b : Id} {i : Option Init} {p : List Id}
    {t : Option Term} (h : blockOf fold (some fn) b = some (i, p, t)) :
    ∃ g, lift true (rvLifterC {} 0#64 fold).toSLifter fn = .ok g ∧
      ∃ bb, g b = some bb ∧ bb.init = i ∧ bb.preds = p ∧ bb.term = t := by
  simp only [blockOf, Option.bind_some] at h
  split at h
  next g hg =>
    obtain ⟨bb, hb, he⟩ := Option.map_eq_some_iff.1 h
    simp only [Prod.mk.injEq] at he
    exact ⟨g, hg, bb, hb, he.1, he.2.1, he.2.2⟩
  · cases h

def meetFn : Option (Fn Frv) := runFn rvClassify 80 ⟨meetCode, 0x1000#64, .all, false⟩ (Fn.init _)

/-- The IR builder finds the condition of the first branch to be true. -/
def meetFold : Inst Frv → Option Bool := fun i => if i.start = 0x1000#64 then some true else none

/-- Blocks are removed: the code is decoded with `ll_func_decode_cfg`, and the first branch is found to be always taken.
Then the block at 1004 is generated, but it is not part of the function returned; the block at 1018 has one
predecessor less. -/
example : ∃ fn g, Hist rvClassify [⟨meetCode, 0x1000#64, .all, false⟩] fn ∧
    lift true (rvLifterC {} 0#64 meetFold).toSLifter fn = .ok g ∧
    (g (.at 0x1004#64)).isSome ∧ eliminate g (.at 0x1004#64) = none ∧
    (∃ bb, g (.at 0x1018#64) = some bb ∧ bb.preds.length = 2) ∧
    (∃ bb, eliminate g (.at 0x1018#64) = some bb ∧ bb.preds = [.at 0x1010#64]) ∧
    finish true g = some (eliminate g) := by
  have hs : meetFn.isSome = true := by decide +kernel
  obtain ⟨fn, hfn⟩ := Option.isSome_iff_exists.1 hs
  have H : Hist rvClassify [⟨meetCode, 0x1000#64, .all, false⟩] fn := .call _ .init (runFn_returns hfn)
  have e1 : blockOf meetFold meetFn .entry = some (some .clean, [], some (.br (.at 0x1000#64))) := by decide +kernel
  have e2 : blockOf meetFold meetFn (.at 0x1000#64) =
    some (some (.parent .entry), [.entry], some (.br (.at 0x1010#64))) := by decide +kernel
  have e3 : blockOf meetFold meetFn (.at 0x1004#64) = some (some .phis, [], some (.br (.at 0x1018#64))) := by decide +kernel
  have e4 : blockOf meetFold meetFn (.at 0x1010#64) = some (some (.parent (.at 0x1000#64)), [.at 0x1000#64],
    some (.cond (.exit) (.at 0x1018#64))) := by decide +kernel
  have e5 : blockOf meetFold meetFn (.at 0x1018#64) = some (some .phis, [.at 0x1004#64, .at 0x1010#64],
    some (.br .exit)) := by decide +kernel
  rw [hfn] at e1 e2 e3 e4 e5
  obtain ⟨g, hg, b1, f1, -, -, t1⟩ := blockOf_get e1
  obtain ⟨g', hg', b2, f2, -, -, t2⟩ := blockOf_get e2
  rw [hg] at hg'; cases hg'
  obtain ⟨g', hg', b3, f3, -, p3, t3⟩ := blockOf_get e3
  rw [hg] at hg'; cases hg'
  obtain ⟨g', hg', b4, f4, -, p4, t4⟩ := blockOf_get e4
  rw [hg] at hg'; cases hg'
  obtain ⟨g', hg', b5, f5, -, p5, t5⟩ := blockOf_get e5
  rw [hg] at hg'; cases hg'
  have r2 : Reachable g (.at 0x1000#64) := ⟨_, .edge .start ⟨b1, _, f1, t1, .inl rfl⟩⟩
  have r4 : Reachable g (.at 0x1010#64) := by
    obtain ⟨l, hl⟩ := r2
    exact ⟨_, .edge hl ⟨b2, _, f2, t2, .inl rfl⟩⟩
  have r5 : Reachable g (.at 0x1018#64) := by
    obtain ⟨l, hl⟩ := r4
    exact ⟨_, .edge hl ⟨b4, _, f4, t4, .inr ⟨_, .inr rfl⟩⟩⟩
  have r3 : ¬ Reachable g (.at 0x1004#64) := by
    rintro ⟨l, hl⟩
    cases hl with
    | edge hq he =>
      have := edge_preds H hg f3 he
      rw [p3] at this; cases this
  have hi : ∀ i ∈ fn.insts, Decoded i.payload := by
    have : (meetFn.map fun fn => fn.insts.all fun i => decide (Decoded i.payload)) = some true := by decide +kernel
    rw [hfn] at this
    simpa using this
  refine ⟨fn, g, H, hg, by rw [f3]; rfl, ?_, ⟨b5, f5, by rw [p5]; rfl⟩, ?_,
    (C67_rv64 H {} (by intro c hc; rw [List.mem_singleton.1 hc]; exact ⟨rfl, rfl⟩) hi (.inl rfl) hg).2 true⟩
  · unfold eliminate; rw [if_neg r3]
  · have := elim_some r5
    rw [f5] at this
    refine ⟨_, this, ?_⟩
    simp [p5, r3, r4]

/-- Four calls of `ll_func_decode_block`. -/
def meetCalls : List (Call Frv) :=
  [⟨meetCode, 0x1010#64, .block, false⟩, ⟨meetCode, 0x1018#64, .block, false⟩,
   ⟨meetCode, 0x1004#64, .block, false⟩, ⟨meetCode, 0x1000#64, .block, false⟩]

def meetFnB : Option (Fn Frv) :=
  (((runFn rvClassify 20 ⟨meetCode, 0x1000#64, .block, false⟩ (Fn.init _)).bind
   (runFn rvClassify 20 ⟨meetCode, 0x1004#64, .block, false⟩)).bind
   (runFn rvClassify 20 ⟨meetCode, 0x1018#64, .block, false⟩)).bind
   (runFn rvClassify 20 ⟨meetCode, 0x1010#64, .block, false⟩)

/-- **C67 is false for functions decoded with `ll_func_decode_block`**: the block at 1018 uses the registers of the block
at 1004, although it is also reached from 1010 without having been there.  The function returned is not valid; with
verification enabled, lifting fails. -/
theorem C67_decode_block_counterexample : ∃ fn g, Hist rvClassify meetCalls fn ∧
    lift true (rvLifterC {} 0#64 noFold).toSLifter fn = .ok g ∧
    (∃ bb, eliminate g (.at 0x1018#64) = some bb ∧ bb.init = some (.parent (.at 0x1004#64))) ∧
    Path (eliminate g) (.at 0x1018#64) [.at 0x1010#64, .at 0x1000#64, .entry] ∧
    finish true g = none ∧ finish false g = some (eliminate g) := by
  have hs : meetFnB.isSome = true := by decide +kernel
  obtain ⟨fn, hfn⟩ := Option.isSome_iff_exists.1 hs
  have H : Hist rvClassify meetCalls fn := by
    obtain ⟨f3, h13, h4⟩ := Option.bind_eq_some_iff.1 hfn
    obtain ⟨f2, h12, h3⟩ := Option.bind_eq_some_iff.1 h13
    obtain ⟨f1, h1, h2⟩ := Option.bind_eq_some_iff.1 h12
    exact .call _ (.call _ (.call _ (.call _ .init (runFn_returns h1)) (runFn_returns h2)) (runFn_returns h3))
      (runFn_returns h4)
  have e1 : blockOf noFold meetFnB .entry = some (some .clean, [], some (.br (.at 0x1000#64))) := by decide +kernel
  have e2 : blockOf noFold meetFnB (.at 0x1000#64) =
    some (some (.parent .entry), [.entry], some (.cond (.at 0x1010#64) (.at 0x1004#64))) := by decide +kernel
  have e4 : blockOf noFold meetFnB (.at 0x1010#64) = some (some (.parent (.at 0x1000#64)), [.at 0x1000#64],
    some (.cond .exit (.at 0x1018#64))) := by decide +kernel
  have e5 : blockOf noFold meetFnB (.at 0x1018#64) = some (some (.parent (.at 0x1004#64)), [.at 0x1004#64, .at 0x1010#64],
    some (.br .exit)) := by decide +kernel
  rw [hfn] at e1 e2 e4 e5
  obtain ⟨g, hg, b1, f1, -, -, t1⟩ := blockOf_get e1
  obtain ⟨g', hg', b2, f2, -, -, t2⟩ := blockOf_get e2
  rw [hg] at hg'; cases hg'
  obtain ⟨g', hg', b4, f4, -, p4, t4⟩ := blockOf_get e4
  rw [hg] at hg'; cases hg'
  obtain ⟨g', hg', b5, f5, i5, p5, t5⟩ := blockOf_get e5
  rw [hg] at hg'; cases hg'
  have hp : Path g (.at 0x1018#64) [.at 0x1010#64, .at 0x1000#64, .entry] :=
    .edge (.edge (.edge .start ⟨b1, _, f1, t1, .inl rfl⟩) ⟨b2, _, f2, t2, .inr ⟨_, .inl rfl⟩⟩)
      ⟨b4, _, f4, t4, .inr ⟨_, .inr rfl⟩⟩
  have he := elim_some ⟨_, hp⟩
  rw [f5] at he
  have hp' := (elim_path _ _).2 hp
  refine ⟨fn, g, H, hg, ⟨_, he, i5⟩, hp', ?_, ?_⟩
  · unfold finish
    refine if_pos ⟨rfl, fun hw => ?_⟩
    have := hw.uses _ _ _ he i5 _ hp'
    simp at this
  · unfold finish
    exact if_neg (fun h => by cases h.1)

end Verif.Lift.RV64

namespace Verif.Lift.A64

open Verif.Decode Verif.IR Verif.A64

/-- C67 for AArch64: any number of `ll_func_decode_cfg` calls, any code, any call and system call functions. -/
theorem C67_a64 (exc : Inst Instr → Bool) {h : List (Call Instr)} {fn : Fn Instr} (H : Hist (aClassify exc) h fn) (env : Env)
    (hall : DecodedWithCfg env.callFn.isSome h)
    {known : Bool} {slide : BitVec 64} {fold : Inst Instr → Option Bool} {g : Graph Instr}
    (hl : lift known (aLifter env slide fold).toSLifter fn = .ok g) :
    WellFormed (eliminate g) ∧ ∀ verify, finish verify g = some (eliminate g) :=
  C67_wellformed H hall hl (fun i _ => a_targets exc env slide fold i)

/-- The hypotheses are met by a loop with a call. -/
example (slide : BitVec 64) : ∃ g, lift true (aLifter loopEnv slide noFold).toSLifter loopFn = .ok g ∧
    WellFormed (eliminate g) := by
  obtain ⟨g, hg⟩ := loop_lifts slide
  exact ⟨g, hg, (C67_a64 noExc loopFn_hist loopEnv (by intro c hc; rw [List.mem_singleton.1 hc]; exact ⟨rfl, rfl⟩) hg).1⟩

end Verif.Lift.A64

namespace Verif.Lift.X86

open Verif.Decode Verif.IR Verif.X86

/-- C67 for x86-64: any number of `ll_func_decode_cfg` calls, any code, any call and system call functions (a system call
function must be set if there are SYSCALL instructions, `C09_syscall_counterexample`). -/
theorem C67_x86 (exc : Inst Instr → Bool) {h : List (Call Instr)} {fn : Fn Instr} (H : Hist (xClassify exc) h fn) (env : Env)
    (hall : DecodedWithCfg env.callFn.isSome h) (hsys : env.sysFn = none → ∀ i ∈ fn.insts, i.payload ≠ .syscall)
    {known : Bool} {slide : BitVec 64} {fold : Inst Instr → Option Bool} {g : Graph Instr}
    (hl : lift known (xLifter env slide fold).toSLifter fn = .ok g) :
    WellFormed (eliminate g) ∧ ∀ verify, finish verify g = some (eliminate g) :=
  C67_wellformed H hall hl (fun i hi => x_targets exc env slide fold i (fun h => hsys h i hi))

/-- The hypotheses are met by a loop with a call. -/
example (slide : BitVec 64) : ∃ g, lift true (xLifter loopEnv slide noFold).toSLifter loopFn = .ok g ∧
    WellFormed (eliminate g) := by
  obtain ⟨g, hg⟩ := loop_lifts slide
  exact ⟨g, hg, (C67_x86 noExc loopFn_hist loopEnv (by intro c hc; rw [List.mem_singleton.1 hc]; exact ⟨rfl, rfl⟩)
    (fun _ => by rw [loopFn_insts]; decide) hg).1⟩

end Verif.Lift.X86
