import Verif.Lift.Final
import Verif.Lift.SsaProofs
import Verif.Lift.Spec
import Verif.Decode.Props

/-! Predecessor counts of the decoder bound the number of edges in the control-flow graph, so a block
that takes over the register file of a predecessor has no other predecessor. -/

namespace Verif.Lift

open Verif.Decode Verif.IR

set_option linter.unusedSimpArgs false
set_option linter.unusedSectionVars false

variable {P R V M : Type}

theorem numSucc_pos {cls : Classifier P} {callFn : Bool} {i : Inst P} {a : Addr}
    (h : StaticSucc cls callFn i a) : 1 ≤ numSucc cls callFn a i := by
  unfold numSucc
  rcases h with h | h
  · rw [if_pos h]; omega
  · rw [if_pos h]; omega

/-- Direct targets of the terminator after `d` are targets of the program counter. -/
theorem termOf_target {L : SLifter P} {fn : Fn P} {d : DInstr P} {c : Addr}
    (h : Id.at c ∈ succsOpt (termOf L fn d)) :
    d.inhibit = false ∧ c ≠ 0 ∧ c ∈ (L.form d.inst).targets := by
  have ht : ∀ a, Id.at c = target fn a → c ≠ 0 ∧ c = a := by
    intro a ha
    unfold target at ha
    split at ha
    next hx => cases ha; exact ⟨hx.1, rfl⟩
    · cases ha
  unfold termOf at h
  cases hf : L.form d.inst with
  | returned => rw [hf] at h; cases h
  | value => rw [hf] at h; simp [succsOpt, succsOf] at h
  | const a =>
    rw [hf] at h
    simp only [succsOpt, Option.map_some, Option.getD_some] at h
    cases hi : d.inhibit with
    | true => rw [hi] at h; simp [succsOf] at h
    | false =>
      rw [hi] at h
      simp only [Bool.false_eq_true, if_false, succsOf, List.mem_singleton] at h
      obtain ⟨h1, rfl⟩ := ht a h
      exact ⟨rfl, h1, by simp [Form.targets]⟩
  | cond a b =>
    rw [hf] at h
    simp only [succsOpt, Option.map_some, Option.getD_some] at h
    cases hi : d.inhibit with
    | true => rw [hi] at h; simp [succsOf] at h
    | false =>
      rw [hi] at h
      simp only [Bool.false_eq_true, if_false] at h
      rcases pcTerm_succs fn _ a b _ h with h | h
      · obtain ⟨h1, rfl⟩ := ht a h; exact ⟨rfl, h1, by simp [Form.targets]⟩
      · obtain ⟨h1, rfl⟩ := ht b h; exact ⟨rfl, h1, by simp [Form.targets]⟩
  | check a =>
    rw [hf] at h
    simp only [succsOpt, Option.map_some, Option.getD_some] at h
    cases hi : d.inhibit with
    | true => rw [hi] at h; simp [succsOf] at h
    | false =>
      rw [hi] at h
      simp only [Bool.false_eq_true, if_false] at h
      rcases pcTerm_succs fn _ a 0 _ h with h | h
      · obtain ⟨h1, rfl⟩ := ht a h; exact ⟨rfl, h1, by simp [Form.targets]⟩
      · obtain ⟨h1, rfl⟩ := ht 0 h; exact absurd rfl h1

theorem sum_mem_le {α : Type} (f : α → Nat) (l : List α) {x : α} (h : x ∈ l) : f x ≤ (l.map f).sum := by
  induction l with
  | nil => cases h
  | cons y l ih =>
    simp only [List.map_cons, List.sum_cons]
    rcases List.mem_cons.1 h with rfl | h
    · omega
    · have := ih h; omega

theorem count_runs (L : SLifter P) (f : Inst P → Nat) (bs : List (Run P)) :
    (bs.filter (fun b => decide (1 ≤ f (lastOf L b.1 b.2).inst))).length
      ≤ ((flat bs).map (fun d => f d.inst)).sum := by
  induction bs with
  | nil => simp [flat]
  | cons b bs ih =>
    have h1 : ((flat (b :: bs)).map (fun d => f d.inst)).sum
        = ((b.1 :: b.2).map (fun d => f d.inst)).sum + ((flat bs).map (fun d => f d.inst)).sum := by
      simp only [flat, List.flatMap_cons, List.map_append, List.sum_append]
    have h2 := sum_mem_le (fun d : DInstr P => f d.inst) _ (lastOf_mem L b.1 b.2)
    rw [h1, List.filter_cons]
    split
    next hd =>
      simp only [decide_eq_true_eq] at hd
      simp only [List.length_cons]; omega
    · omega

/-- The number of predecessors of a block is at most the number of static edges, plus one for the
function entry. -/
theorem preds_le {cls : Classifier P} {L : SLifter P} {fn : Fn P} {e : Addr} {bs : List (Run P)}
    {g0 : Graph P} {callFn : Bool} (hf : flat bs = fn.instrs) (hs : Shape bs)
    (hinh : Inhibited cls callFn fn.instrs)
    (hknown : ∀ i ∈ fn.insts, TargetsKnown cls callFn L i)
    (H : GInv L (countEntry fn e) e bs g0) {c : Addr} {bb : BB P} (hc : g0 (.at c) = some bb) :
    bb.preds.length ≤ fn.edgeCount cls callFn c + if c = e then 1 else 0 := by
  have hsub : bb.preds ⊆ (if c = e then [Id.entry] else []) ++
      (bs.filter (fun b => decide (1 ≤ numSucc cls callFn c (lastOf L b.1 b.2).inst))).map
        (fun b => Id.at b.1.inst.start) := by
    intro p hp
    obtain ⟨pb, hpb, hsucc⟩ := H.edges.bwd _ _ _ hc hp
    cases p with
    | entry =>
      rw [H.entryB] at hpb; cases hpb
      simp only [List.mem_singleton, Id.at.injEq] at hsucc
      simp [hsucc]
    | exit =>
      obtain ⟨pr, hx⟩ := H.exitB
      rw [hx] at hpb; cases hpb; cases hsucc
    | «at» a =>
      obtain ⟨-, -, hbs, -⟩ := H.valid _ _ hpb
      obtain ⟨b, hb, rfl⟩ := run_of_start hf hs hbs
      obtain ⟨-, bb', hbb', hB⟩ := H.built b hb
      rw [hpb] at hbb'; cases hbb'
      rw [H.edges.succs _ _ hpb, hB.term] at hsucc
      obtain ⟨h1, h2, h3⟩ := termOf_target hsucc
      have hmem : lastOf L b.1 b.2 ∈ fn.instrs := run_mem hf hb _ (lastOf_mem L b.1 b.2)
      have hk := hknown (lastOf L b.1 b.2).inst
        (by simp only [Fn.insts, List.mem_map]; exact ⟨_, hmem, rfl⟩)
      rcases hk with hk | hk
      · have := hinh _ hmem hk
        rw [h1] at this; cases this
      · refine List.mem_append_right _ (List.mem_map.2 ⟨b, List.mem_filter.2 ⟨hb, ?_⟩, rfl⟩)
        simp only [decide_eq_true_eq]
        exact numSucc_pos (hk c h3 h2)
  have hlen := (H.edges.nodup _ _ hc).length_le_of_subset hsub
  have hcount := count_runs L (numSucc cls callFn c) bs
  rw [hf] at hcount
  have hsum : (fn.instrs.map (fun d => numSucc cls callFn c d.inst)).sum
      = fn.edgeCount cls callFn c := by
    simp [Fn.edgeCount, Fn.insts, List.map_map, Function.comp_def]
  rw [hsum] at hcount
  simp only [List.length_append, List.length_map] at hlen
  split at hlen <;> simp_all <;> omega

theorem entry_ok {L : SLifter P} {fn : Fn P} {e : Addr} {bs : List (Run P)}
    {g0 : Graph P} (H : GInv L (countEntry fn e) e bs g0) : e ≠ 0 ∧ fn.BlockStart e := by
  obtain ⟨cb, h1, -⟩ := H.edges.fwd .entry _ (.at e) H.entryB (by simp)
  obtain ⟨h2, -, h3, -⟩ := H.valid _ _ h1
  exact ⟨h2, h3⟩

/-- A block with the register file of a predecessor has no other predecessor. -/
theorem unique_pred {cls : Classifier P} {L : SLifter P} {fn : Fn P} {e : Addr} {bs : List (Run P)}
    {g0 : Graph P} {callFn : Bool} (hf : flat bs = fn.instrs) (hs : Shape bs)
    (hinh : Inhibited cls callFn fn.instrs)
    (hpreds : ∀ a, fn.BlockStart a → fn.edgeCount cls callFn a ≤ fn.predsOf a)
    (hknown : ∀ i ∈ fn.insts, TargetsKnown cls callFn L i)
    (H : GInv L (countEntry fn e) e bs g0) {c : Addr} {bb : BB P} (hc : g0 (.at c) = some bb)
    {p : Id} (hp : bb.init = some (.parent p)) : bb.preds = [p] := by
  obtain ⟨h1, h2⟩ := H.parent _ _ _ hc hp
  have h3 := preds_le hf hs hinh hknown H hc
  obtain ⟨-, -, hbs, h4⟩ := H.valid _ _ hc
  rw [h1, Option.some.injEq, predsOf_countEntry] at h4
  have h5 := hpreds c hbs
  replace h3 : bb.preds.length ≤ 1 := by omega
  match hl : bb.preds, h2, h3 with
  | [q], h2, _ => simp only [List.mem_singleton] at h2; rw [h2]
  | _ :: _ :: _, _, h3 => simp at h3

theorem sealExit_ne {g : Graph P} {b : Id} (h : b ≠ .exit) : sealExit g b = g b := by
  simp [sealExit, Graph.modify, h]

theorem seal_get {g0 : Graph P} {b : Id} {bb : BB P} (h : sealExit g0 b = some bb) :
    ∃ bb0, g0 b = some bb0 ∧ bb.preds = bb0.preds ∧ bb.succs = bb0.succs ∧ bb.term = bb0.term ∧
      bb.body = bb0.body ∧ (b ≠ .exit → bb = bb0) := by
  by_cases hb : b = .exit
  · subst hb
    simp only [sealExit, Graph.modify, if_true] at h
    obtain ⟨bb0, h0, rfl⟩ := Option.map_eq_some_iff.1 h
    exact ⟨bb0, h0, rfl, rfl, rfl, rfl, fun h => absurd rfl h⟩
  · rw [sealExit_ne hb] at h
    exact ⟨bb, h, rfl, rfl, rfl, rfl, fun _ => rfl⟩

theorem seal_some {g0 : Graph P} {b : Id} {bb0 : BB P} (h : g0 b = some bb0) :
    ∃ bb, sealExit g0 b = some bb ∧ bb.preds = bb0.preds ∧ bb.succs = bb0.succs ∧ bb.term = bb0.term := by
  by_cases hb : b = .exit
  · subst hb
    refine ⟨{ BB.initPhis true bb0 with rf := false }, ?_, rfl, rfl, rfl⟩
    simp [sealExit, Graph.modify, h]
  · exact ⟨bb0, by rw [sealExit_ne hb]; exact h, rfl, rfl, rfl⟩

theorem seal_linked {L : SLifter P} {fn : Fn P} {e : Addr} {bs : List (Run P)}
    {g0 : Graph P} (H : GInv L (countEntry fn e) e bs g0) : Linked (sealExit g0) := by
  refine ⟨?_, ?_, ?_⟩
  · rw [sealExit_ne (by simp), H.entryB]; rfl
  · intro b bb c hb hc
    obtain ⟨bb0, h0, -, hs, -⟩ := seal_get hb
    rw [hs] at hc
    obtain ⟨cb, h1, h2⟩ := H.edges.fwd _ _ _ h0 hc
    obtain ⟨cb', h3, h4, -⟩ := seal_some h1
    exact ⟨cb', h3, by rw [h4]; exact h2⟩
  · intro c cb b hc hb
    obtain ⟨cb0, h0, hp, -⟩ := seal_get hc
    rw [hp] at hb
    obtain ⟨bb, h1, h2⟩ := H.edges.bwd _ _ _ h0 hb
    obtain ⟨bb', h3, -, h4, -⟩ := seal_some h1
    exact ⟨bb', h3, by rw [h4]; exact h2⟩

theorem mem_packIds {fn : Fn P} {a : Addr} (h : fn.BlockStart a) : Id.at a ∈ packIds fn := by
  obtain ⟨d, hd, rfl, hn⟩ := h
  refine List.mem_append_left _ (List.mem_map.2 ⟨d, List.mem_filter.2 ⟨hd, hn⟩, rfl⟩)

/-- The finished graph meets the requirements of the SSA proof. -/
theorem graph_ok {cls : Classifier P} {L : Lifter P R V M} {fn : Fn P} {e : Addr}
    {bs : List (Run P)} {g0 : Graph P} {callFn : Bool} (hf : flat bs = fn.instrs) (hs : Shape bs)
    (hinh : Inhibited cls callFn fn.instrs)
    (hpreds : ∀ a, fn.BlockStart a → fn.edgeCount cls callFn a ≤ fn.predsOf a)
    (hknown : ∀ i ∈ fn.insts, TargetsKnown cls callFn L.toSLifter i)
    (H : GInv L.toSLifter (countEntry fn e) e bs g0) : GraphOK L (sealExit g0) (packIds fn) := by
  have hbuilt : ∀ a bb, g0 (.at a) = some bb → ∃ b ∈ bs, Built L.toSLifter (countEntry fn e) b bb := by
    intro a bb h
    obtain ⟨-, -, hbs, -⟩ := H.valid _ _ h
    obtain ⟨b, hb, rfl⟩ := run_of_start hf hs hbs
    obtain ⟨-, bb', hbb', hB⟩ := H.built b hb
    rw [h] at hbb'; cases hbb'
    exact ⟨b, hb, hB⟩
  obtain ⟨pr, hexit⟩ := H.exitB
  have hexit' : sealExit g0 .exit =
      some { BB.initPhis true ({ maxPreds := none, preds := pr } : BB P) with rf := false } := by
    simp [sealExit, Graph.modify, hexit]
  refine ⟨seal_linked H, ?_, ?_, ?_, ?_, ?_, ?_, ?_, ?_⟩
  · intro b bb hb
    obtain ⟨bb0, h0, -, hs, ht, -⟩ := seal_get hb
    rw [hs, ht, H.edges.succs _ _ h0]
  · intro b bb p hb hp
    cases b with
    | entry => rw [sealExit_ne (by simp), H.entryB] at hb; cases hb; cases hp
    | exit =>
      rw [hexit'] at hb; cases hb
      simp only [BB.initPhis, Bool.true_or, if_true, Option.some.injEq] at hp
      split at hp
      · cases hp; rfl
      · cases hp
    | «at» a =>
      rw [sealExit_ne (by simp)] at hb
      exact unique_pred hf hs hinh hpreds hknown H hb hp
  · intro b bb hb
    cases b with
    | entry => rw [sealExit_ne (by simp), H.entryB] at hb; cases hb; simp
    | exit =>
      rw [hexit'] at hb; cases hb
      simp only [BB.initPhis, Bool.true_or, if_true, Option.some.injEq, reduceCtorEq, iff_false]
      split <;> simp
    | «at» a =>
      rw [sealExit_ne (by simp)] at hb
      simp only [reduceCtorEq, iff_false]
      exact H.noClean _ _ hb
  · intro b bb hb
    cases b with
    | entry => rw [sealExit_ne (by simp), H.entryB] at hb; cases hb; rfl
    | exit => rw [hexit'] at hb; cases hb; rfl
    | «at» a =>
      rw [sealExit_ne (by simp)] at hb
      obtain ⟨b, -, hB⟩ := hbuilt a bb hb
      exact hB.init
  · intro b bb hb ht
    cases b with
    | entry => rw [sealExit_ne (by simp), H.entryB] at hb; cases hb; rfl
    | exit => rw [hexit'] at hb; cases hb; cases ht
    | «at» a =>
      rw [sealExit_ne (by simp)] at hb
      obtain ⟨b, -, hB⟩ := hbuilt a bb hb
      rw [hB.rf]
      rw [hB.term] at ht
      simp only [decide_eq_true_eq]
      intro hr
      simp [termOf, hr] at ht
  · intro b bb hb
    obtain ⟨bb0, h0, -, hs, -⟩ := seal_get hb
    rw [hs]
    exact H.edges.noEntry _ _ h0
  · exact ⟨_, hexit', rfl, rfl, rfl⟩
  · intro b hb hne
    cases b with
    | entry => exact absurd rfl hne
    | exit => simp [packIds]
    | «at» a =>
      rw [sealExit_ne (by simp)] at hb
      obtain ⟨bb, hbb⟩ := Option.isSome_iff_exists.1 hb
      exact mem_packIds (H.valid _ _ hbb).2.2.1

end Verif.Lift
