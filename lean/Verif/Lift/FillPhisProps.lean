import Verif.Lift.FillPhisProofs
import Verif.Lift.Preds
import Verif.RegFile.Runs

/-!
Property theorems about PHI nodes (C50): in every lifted function each PHI node has
exactly one incoming value for each edge into its block.
-/

namespace Verif.Lift

open Verif.Decode Verif.IR

set_option linter.unusedSimpArgs false
set_option linter.unusedSectionVars false

variable {P R V M : Type}

/-- Parents are lifted before the blocks that use their register files. -/
def Ranked (bs : List (Run P)) (g : Graph P) : Prop :=
  ∀ (k : Nat) (r : Run P), bs[k]? = some r → ∀ bb p, g (.at r.1.inst.start) = some bb →
    bb.init = some (.parent p) →
    p = .entry ∨ ∃ (j : Nat) (r' : Run P), j < k ∧ bs[j]? = some r' ∧ p = .at r'.1.inst.start

/-- A block that is a predecessor has been lifted. -/
theorem pred_lifted {L : SLifter P} {fn : Fn P} {e : Addr} {bs : List (Run P)} {g : Graph P}
    (H : GInv L fn e bs g) {c : Id} {cb : BB P} {p : Id} (hc : g c = some cb) (hp : p ∈ cb.preds) :
    p = .entry ∨ ∃ (j : Nat) (r' : Run P), j < bs.length ∧ bs[j]? = some r' ∧ p = .at r'.1.inst.start := by
  obtain ⟨pb, hpb, hs⟩ := H.edges.bwd _ _ _ hc hp
  cases p with
  | entry => exact .inl rfl
  | exit =>
    obtain ⟨pr, hx⟩ := H.exitB
    rw [hx] at hpb; cases hpb
    simp at hs
  | «at» a =>
    right
    by_cases hn : ∀ b ∈ bs, b.1.inst.start ≠ a
    · have := H.fresh a pb hpb hn
      rw [H.edges.succs _ _ hpb, this.2.2.1] at hs
      simp [succsOpt] at hs
    · have : ∃ b ∈ bs, b.1.inst.start = a := by
        by_contra h
        exact hn (fun b hb he => h ⟨b, hb, he⟩)
      obtain ⟨r', hr', rfl⟩ := this
      obtain ⟨j, hj⟩ := List.getElem?_of_mem hr'
      refine ⟨j, r', ?_, hj, rfl⟩
      rcases Nat.lt_or_ge j bs.length with h | h
      · exact h
      · rw [List.getElem?_eq_none h] at hj; cases hj

theorem ranked_step {cls : Classifier P} {L : SLifter P} {fn : Fn P} (hw : WF cls fn) {e : Addr}
    {bs : List (Run P)} {g g1 g' : Graph P} {b : Id} {r : Run P} (H : GInv L fn e bs g)
    (hnew : ∀ x ∈ bs, x.1.inst.start ≠ r.1.inst.start)
    (h1 : enter fn g r.1.inst.start = some (g1, b)) (h2 : liftRun L fn g1 b r.1 r.2 = some g')
    (hI : Ranked bs g) : Ranked (bs ++ [r]) g' := by
  have hterm : ∀ bb, g (.at r.1.inst.start) = some bb → bb.term = none :=
    fun bb hbb => (H.fresh _ bb hbb hnew).2.2.1
  obtain ⟨ha0, hares, has, hinner, bb0, hbb0, hrf0, hg'⟩ := block_eq hw H.valid h1 h2 hterm
  intro k x hk bb p hbb hp
  by_cases hkl : k < bs.length
  · rw [List.getElem?_append_left hkl] at hk
    have hne : Id.at x.1.inst.start ≠ Id.at r.1.inst.start := by
      intro h
      exact hnew x (List.mem_of_getElem? hk) (Id.at.inj h)
    have hold : ∃ ob, g (.at x.1.inst.start) = some ob ∧ ob.init = bb.init := by
      rw [block_other hg' hne] at hbb
      obtain ⟨ob, ho, rfl⟩ := Option.map_eq_some_iff.1 hbb
      obtain ⟨-, ob', hob', -⟩ := H.built x (List.mem_of_getElem? hk)
      refine ⟨ob', hob', ?_⟩
      have h3 : ensure fn g (.at r.1.inst.start) (.at x.1.inst.start) = some ob' := ensure_some hob'
      have h4 : ensure fn (ensure fn g (.at r.1.inst.start)) (.at x.1.inst.start)
          (.at x.1.inst.start) = some ob' := ensure_some h3
      split at ho
      · rw [h4] at ho; cases ho; rfl
      · rw [h3] at ho; cases ho; rfl
    obtain ⟨ob, hob, hoi⟩ := hold
    rcases hI k x hk ob p hob (hoi.trans hp) with h | ⟨j, r', h3, h4, h5⟩
    · exact .inl h
    · refine .inr ⟨j, r', h3, ?_, h5⟩
      rw [List.getElem?_append_left (by omega)]; exact h4
  · have hke : k = bs.length := by
      have : k < (bs ++ [r]).length := by
        rcases Nat.lt_or_ge k (bs ++ [r]).length with h | h
        · exact h
        · rw [List.getElem?_eq_none h] at hk; cases hk
      simp at this; omega
    subst hke
    rw [List.getElem?_append_right (Nat.le_refl _)] at hk
    simp only [Nat.sub_self, List.getElem?_cons_zero, Option.some.injEq] at hk
    subst hk
    have hb0t : bb0.term = none := by
      rcases ensure_self hbb0 with h | ⟨-, c, -, rfl⟩
      · exact hterm bb0 h
      · rfl
    have hself := block_at (by exact hb0t) hg'
    rw [hself] at hbb; cases hbb
    have hpm : p ∈ bb0.preds := by
      simp only [BB.initPhis, Bool.false_or, Option.some.injEq] at hp
      split at hp
      next q hq =>
        split at hp
        · cases hp; simp [hq]
        · cases hp
      · cases hp
    rcases ensure_self hbb0 with h | ⟨-, c, -, rfl⟩
    · rcases pred_lifted H h hpm with h | ⟨j, r', h3, h4, h5⟩
      · exact .inl h
      · refine .inr ⟨j, r', h3, ?_, h5⟩
        rw [List.getElem?_append_left h3]; exact h4
    · simp at hpm

/-- The order of lifting as a rank. -/
def rankOf (bs : List (Run P)) : Id → Nat
  | .entry => 0
  | .at a => 1 + bs.findIdx (fun r => decide (r.1.inst.start = a))
  | .exit => 1 + bs.length

theorem rankOf_le {bs : List (Run P)} {j : Nat} {r : Run P} (h : bs[j]? = some r) :
    rankOf bs (.at r.1.inst.start) ≤ 1 + j := by
  have hj : j < bs.length := by
    rcases Nat.lt_or_ge j bs.length with h' | h'
    · exact h'
    · rw [List.getElem?_eq_none h'] at h; cases h
  have hr : bs[j] = r := by rw [List.getElem?_eq_getElem hj] at h; exact Option.some.inj h
  simp only [rankOf]
  have : ¬ j < bs.findIdx (fun x => decide (x.1.inst.start = r.1.inst.start)) := by
    intro hlt
    have := List.not_of_lt_findIdx hlt
    simp only [decide_eq_false_iff_not] at this
    exact this (by rw [hr])
  omega

theorem flat_length (bs : List (Run P)) : bs.length ≤ (flat bs).length := by
  induction bs with
  | nil => simp
  | cons b bs ih =>
    have : flat (b :: bs) = (b.1 :: b.2) ++ flat bs := rfl
    rw [this]; simp only [List.length_cons, List.length_append]; omega

theorem files_ok {L : SLifter P} {fn : Fn P} {e : Addr} {bs : List (Run P)} {g0 : Graph P}
    (hf : flat bs = fn.instrs) (hs : Shape bs) (H : GInv L (countEntry fn e) e bs g0)
    (hr : Ranked bs g0) : FilesOK (sealExit g0) (rankOf bs) (fn.instrs.length + 2) := by
  have hlen := flat_length bs
  rw [hf] at hlen
  have hfind : ∀ a bb, g0 (.at a) = some bb → ∃ r, bs[bs.findIdx (fun r => decide (r.1.inst.start = a))]? = some r ∧
      r.1.inst.start = a := by
    intro a bb h
    obtain ⟨-, -, hbs, -⟩ := H.valid _ _ h
    obtain ⟨b, hb, hba⟩ := run_of_start hf hs hbs
    have hlt : bs.findIdx (fun r => decide (r.1.inst.start = a)) < bs.length :=
      List.findIdx_lt_length_of_exists ⟨b, hb, by simp [hba]⟩
    refine ⟨bs[bs.findIdx (fun r => decide (r.1.inst.start = a))], List.getElem?_eq_getElem hlt, ?_⟩
    have := List.findIdx_getElem (w := hlt)
    simpa using this
  obtain ⟨pr, hexit⟩ := H.exitB
  have hexit' : sealExit g0 .exit =
      some { BB.initPhis true ({ maxPreds := none, preds := pr } : BB P) with rf := false } := by
    simp [sealExit, Graph.modify, hexit]
  refine ⟨?_, ?_, ?_, ?_⟩
  · intro b hb
    cases b with
    | entry => simp [rankOf]
    | exit => simp only [rankOf]; omega
    | «at» a =>
      have := List.findIdx_le_length (xs := bs) (p := fun r => decide (r.1.inst.start = a))
      simp only [rankOf]; omega
  · intro b bb hb
    cases b with
    | entry => rw [sealExit_ne (by simp), H.entryB] at hb; cases hb; rfl
    | exit => rw [hexit'] at hb; cases hb; rfl
    | «at» a =>
      rw [sealExit_ne (by simp)] at hb
      obtain ⟨r, hr1, hr2⟩ := hfind a bb hb
      obtain ⟨-, bb', hbb', hB⟩ := H.built r (List.mem_of_getElem? hr1)
      rw [hr2, hb] at hbb'; cases hbb'
      exact hB.init
  · intro b bb p hb hp
    have hsome : ∀ q, q = .entry ∨ (∃ (j : Nat) (r' : Run P), j < bs.length ∧ bs[j]? = some r' ∧ q = .at r'.1.inst.start) →
        (sealExit g0 q).isSome := by
      rintro q (rfl | ⟨j, r', -, h3, rfl⟩)
      · rw [sealExit_ne (by simp), H.entryB]; rfl
      · obtain ⟨-, bb', hbb', -⟩ := H.built r' (List.mem_of_getElem? h3)
        rw [sealExit_ne (by simp), hbb']; rfl
    cases b with
    | entry => rw [sealExit_ne (by simp), H.entryB] at hb; cases hb; cases hp
    | exit =>
      rw [hexit'] at hb; cases hb
      have hpm : p ∈ pr := by
        simp only [BB.initPhis, Bool.true_or, if_true, Option.some.injEq] at hp
        split at hp
        · cases hp; simp
        · cases hp
      have := pred_lifted H hexit hpm
      refine ⟨hsome p this, ?_⟩
      rcases this with rfl | ⟨j, r', h2, h3, rfl⟩
      · simp [rankOf]
      · have := rankOf_le h3
        simp only [rankOf] at this ⊢; omega
    | «at» a =>
      rw [sealExit_ne (by simp)] at hb
      obtain ⟨r, hr1, hr2⟩ := hfind a bb hb
      have hb' := hb
      rw [← hr2] at hb'
      have := hr _ r hr1 bb p hb' hp
      have hkl : bs.findIdx (fun r => decide (r.1.inst.start = a)) ≤ bs.length :=
        List.findIdx_le_length
      refine ⟨hsome p ?_, ?_⟩
      · rcases this with h | ⟨j, r', h2, h3, h4⟩
        · exact .inl h
        · exact .inr ⟨j, r', by omega, h3, h4⟩
      · rcases this with rfl | ⟨j, r', h2, h3, rfl⟩
        · simp only [rankOf]; omega
        · have := rankOf_le h3
          simp only [rankOf] at this ⊢; omega
  · intro b bb q hb hq
    obtain ⟨bb0, h0, hp, -⟩ := seal_get hb
    rw [hp] at hq
    obtain ⟨qb, h1, -⟩ := H.edges.bwd _ _ _ h0 hq
    obtain ⟨qb', h2, -⟩ := seal_some h1
    rw [h2]; rfl

/-- There is an edge from `q` to `b`: the terminator of `q` can transfer control to `b`. -/
def HasEdge (g : Graph P) (q b : Id) : Prop :=
  ∃ qb t, g q = some qb ∧ qb.term = some t ∧ (t = .br b ∨ ∃ c, t = .cond b c ∨ t = .cond c b)

theorem hasEdge_iff {g : Graph P} (h : ∀ b bb, g b = some bb → bb.succs = succsOpt bb.term) (q b : Id) :
    HasEdge g q b ↔ ∃ qb, g q = some qb ∧ b ∈ qb.succs := by
  constructor
  · rintro ⟨qb, t, h1, h2, h3⟩
    refine ⟨qb, h1, ?_⟩
    rw [h q qb h1, h2]
    rcases h3 with rfl | ⟨c, rfl | rfl⟩ <;> simp [succsOpt, succsOf]
  · rintro ⟨qb, h1, h2⟩
    rw [h q qb h1] at h2
    cases ht : qb.term with
    | none => rw [ht] at h2; simp [succsOpt] at h2
    | some t =>
      rw [ht] at h2
      refine ⟨qb, t, h1, ht, ?_⟩
      cases t with
      | br c => simp [succsOpt, succsOf] at h2; left; rw [h2]
      | cond c d =>
        right
        simp only [succsOpt, succsOf, Option.map_some, Option.getD_some] at h2
        simp only [List.mem_cons, List.not_mem_nil, or_false] at h2
        rcases h2 with rfl | rfl
        · exact ⟨d, .inl rfl⟩
        · exact ⟨c, .inr rfl⟩

variable [DecidableEq R]

/-- C50, for every function that lifting returns (any way of decoding): whatever registers
the generated code reads and writes, in whatever order (`as`), no read fails, and the loop that fills
the PHI nodes ends, for every order `ids` in which it visits the blocks; it never appends to a list
while going through it.  Afterwards a block has at most one PHI node per register, and every PHI node
has exactly one incoming value for every edge into its block, of a register that has a value at the
end of that predecessor. -/
theorem C50_phi_nodes [Fintype R] {cls : Classifier P} {h : List (Call P)} {fn : Fn P}
    (H : Hist cls h fn) {known : Bool} {L : Lifter P R V M} {g : Graph P}
    (hl : lift known L.toSLifter fn = .ok g)
    (as : List (PhiAcc R)) (has : ∀ b r, PhiAcc.read b r ∈ as → (g b).isSome)
    (ids : List Id) (hids : ∀ b, (g b).isSome → b ≠ .entry → b ∈ ids)
    (k : Nat) (hk : ids.length * Fintype.card R + 2 ≤ k) :
    ∃ st st', runAccs L g (fn.instrs.length + 2) (phiInit g) as = some st ∧
      fillLoop L g (fn.instrs.length + 2) ids k st = some st' ∧
      ∀ b, ((st' b).phis.map PhiNode.reg).Nodup ∧ ∀ phi ∈ (st' b).phis,
        phi.incoming.Nodup ∧ (∀ q, q ∈ phi.incoming ↔ HasEdge g q b) ∧
        ∀ q ∈ phi.incoming, Avail L g st' q phi.reg := by
  obtain ⟨e, bs, g0, -, hf, hs, HG, rfl, hR⟩ := lift_inv_with H hl Ranked
    (fun g k r h => by simp at h)
    (fun e hw bs r g g1 b g' _ HG hnew _ h1 h2 hI => ranked_step hw HG hnew h1 h2 hI)
  have hfo := files_ok hf hs HG hR
  obtain ⟨st, h1, h2⟩ := runAccs_ok (L := L) hfo as (phiInv_init L (sealExit g0)) has
  have hentry : ∀ b bb, sealExit g0 b = some bb → bb.init = some .phis → b ∈ ids := by
    intro b bb hb hi
    refine hids b (by rw [hb]; rfl) ?_
    rintro rfl
    rw [sealExit_ne (by simp), HG.entryB] at hb
    cases hb; cases hi
  obtain ⟨st', h3, h4, h5⟩ := fillLoop_ok hfo hentry k h2 (by omega)
  refine ⟨st, st', h1, h3, ?_⟩
  intro b
  refine ⟨h4.str.uniq b, ?_⟩
  intro phi hphi
  obtain ⟨bb, hb, hi⟩ := h4.str.dom b (List.ne_nil_of_mem hphi)
  obtain ⟨i, hi'⟩ := List.getElem?_of_mem hphi
  have hp := h5 b (hentry b bb hb hi)
  obtain ⟨h6, h7⟩ := (h4.stat b).full i phi bb hi' (by rw [hp]; simp) hb
  obtain ⟨bb0, hb0, hpr, -⟩ := seal_get hb
  have hlk := seal_linked HG
  have hsucc : ∀ b bb, sealExit g0 b = some bb → bb.succs = succsOpt bb.term := by
    intro b bb hb
    obtain ⟨bb0, h0, -, hs, ht, -⟩ := seal_get hb
    rw [hs, ht, HG.edges.succs _ _ h0]
  refine ⟨?_, ?_, ?_⟩
  · rw [h6, hpr]; exact HG.edges.nodup _ _ hb0
  · intro q
    rw [h6, hasEdge_iff hsucc]
    constructor
    · intro hq; exact hlk.bwd _ _ _ hb hq
    · rintro ⟨qb, hqb, hq⟩
      obtain ⟨cb, hcb, hm⟩ := hlk.fwd _ _ _ hqb hq
      rw [hb] at hcb; cases hcb; exact hm
  · rw [h6]; exact h7

/-- C50: nothing is made up.  After the PHI nodes are filled, every register that the code of a block
reads from the register file the block starts with was loaded from the CPU struct there (entry block),
is a PHI node of the block, was written, or is the value at the end of the only predecessor; and a
register that is an incoming value of a PHI node has such a source in turn, unless that predecessor
ends with a register file loaded from the CPU struct. -/
theorem C50_reads_defined [Fintype R] {cls : Classifier P} {h : List (Call P)} {fn : Fn P}
    (H : Hist cls h fn) {known : Bool} {L : Lifter P R V M} {g : Graph P}
    (hl : lift known L.toSLifter fn = .ok g)
    (as : List (PhiAcc R)) (has : ∀ b r, PhiAcc.read b r ∈ as → (g b).isSome)
    (ids : List Id) (hids : ∀ b, (g b).isSome → b ≠ .entry → b ∈ ids)
    (k : Nat) (hk : ids.length * Fintype.card R + 2 ≤ k) :
    ∃ st st', runAccs L g (fn.instrs.length + 2) (phiInit g) as = some st ∧
      fillLoop L g (fn.instrs.length + 2) ids k st = some st' ∧
      (∀ b r, PhiAcc.read b r ∈ as → (st' b).has r = true) ∧
      ∀ b r, (st' b).has r = true →
        (∃ bb, g b = some bb ∧ bb.init = some .clean) ∨ r ∈ (st' b).phis.map PhiNode.reg ∨
        PhiAcc.write b r ∈ as ∨
        ∃ bb p, g b = some bb ∧ bb.init = some (.parent p) ∧
          (cleanEnd L g p = true ∨ (st' p).has r = true) := by
  obtain ⟨st, st', h1, h2, -⟩ := C50_phi_nodes H hl as has ids hids k hk
  obtain ⟨k1, k2⟩ := keeps_runAccs (W := fun b r => PhiAcc.write b r ∈ as) as (fun _ _ h => h) h1
  have k3 := keeps_fillLoop (W := fun b r => PhiAcc.write b r ∈ as) k h2
  exact ⟨st, st', h1, h2, fun b r hm => k3.mono b r (k2 b r hm),
    k3.src (k1.src (sourced_init L g _))⟩

end Verif.Lift
