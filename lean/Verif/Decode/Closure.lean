import Verif.Decode.Invariants
import Verif.Decode.Spec

/-!
Invariants behind C02 (closure), C03 (termination), C04 (ranges), C05 (stop modes) and C08
(predecessor counts).
-/

namespace Verif.Decode

variable {P : Type}

theorem Same.insts_eq {fn fn' : Fn P} (h : Same fn fn') : fn'.insts = fn.insts := by
  apply List.ext_getElem?
  intro j
  simp only [Fn.insts, List.getElem?_map]
  exact h.insts j

theorem finish_insts (stop : Stop) (s : List Addr) (start cur : Addr) (fn : Fn P) :
    (finish stop s start cur fn).2.insts = fn.insts := by
  simp only [Fn.insts, finish_instrs]

theorem push_insts (fn : Fn P) (i : Inst P) (nb : Bool) : (fn.push i nb).insts = fn.insts ++ [i] := by
  simp [Fn.insts, Fn.push]

/-- `a` fails to decode or starts a decoded block. -/
def DoneNB (c : Call P) (fn : Fn P) (a : Addr) : Prop :=
  c.dec a = none ∨ ∃ (j : Nat) (d : DInstr P), fn.decIdx a = some j ∧ fn.instrs[j]? = some d ∧
    d.newBlock = true

theorem DoneNB.same {c : Call P} {fn fn' : Fn P} {a : Addr} (h : DoneNB c fn a)
    (s : Same fn fn') : DoneNB c fn' a := by
  rcases h with h | ⟨j, d, hj, hd, hn⟩
  · exact .inl h
  · obtain ⟨d', hd', -, hm⟩ := s.fwd hd
    exact .inr ⟨j, d', by rw [s.dec]; exact hj, hd', hm hn⟩

theorem DoneNB.push {c : Call P} {fn : Fn P} {a : Addr} {i : Inst P} {nb : Bool}
    (h : DoneNB c fn a) (hn : fn.decIdx i.start = none) : DoneNB c (fn.push i nb) a := by
  rcases h with h | ⟨j, d, hj, hd, hnb⟩
  · exact .inl h
  · refine .inr ⟨j, d, ?_, ?_, hnb⟩
    · rw [push_decIdx]
      have : a ≠ i.start := by intro he; rw [he, hn] at hj; cases hj
      simp [this, hj]
    · rw [push_get, if_pos (List.getElem?_eq_some_iff.1 hd).1]; exact hd

theorem DoneNB.congr {c : Call P} {fn fn' : Fn P} {a : Addr} (h : DoneNB c fn a)
    (h1 : fn'.instrs = fn.instrs) (h2 : ∀ a, fn'.decIdx a = fn.decIdx a) : DoneNB c fn' a := by
  rcases h with h | ⟨j, d, hj, hd, hnb⟩
  · exact .inl h
  · exact .inr ⟨j, d, by rw [h2]; exact hj, by rw [h1]; exact hd, hnb⟩

/-- Address still to be processed as a block start. -/
def Pend : Ctl → Addr → Prop
  | .outer s, a => a ∈ s
  | .inner s _ cur nb, a => a ∈ s ∨ (cur = a ∧ nb = true)
  | .done, _ => False

/-- The stream is about to continue at `a` right after the last instruction `i`. -/
def PendNext : Ctl → Nat → Nat → Addr → Prop
  | .inner _ _ cur _, len, i, a => cur = a ∧ i + 1 = len
  | _, _, _, _ => False

/-- Invariant of a `decode_cfg` call; `n0` is the number of instructions before the call. -/
structure AllInv (cls : Classifier P) (c : Call P) (n0 : Nat) (σ : Ctl × Fn P) : Prop where
  len : n0 ≤ σ.2.instrs.length
  start : DoneNB c σ.2 c.addr ∨ Pend σ.1 c.addr
  new : ∀ (i : Nat) (d : DInstr P), n0 ≤ i → σ.2.instrs[i]? = some d →
    c.dec d.inst.start = some (d.inst.len, d.inst.payload) ∧
    Reach cls c.dec c.callFn c.addr d.inst.start
  tgt : ∀ (i : Nat) (d : DInstr P), n0 ≤ i → σ.2.instrs[i]? = some d → (cls d.inst).2 ≠ 0 →
    DoneNB c σ.2 (cls d.inst).2 ∨ Pend σ.1 (cls d.inst).2
  fall : ∀ (i : Nat) (d : DInstr P), n0 ≤ i → σ.2.instrs[i]? = some d →
    FallsThrough c.callFn (cls d.inst).1 →
    DoneNB c σ.2 d.inst.stop ∨ Pend σ.1 d.inst.stop ∨
    ((cls d.inst).1 = .other ∧
      ((∃ d', σ.2.instrs[i + 1]? = some d' ∧ d'.inst.start = d.inst.stop) ∨
        PendNext σ.1 σ.2.instrs.length i d.inst.stop))
  stack : ∀ a, Pend σ.1 a → Reach cls c.dec c.callFn c.addr a
  cur : ∀ s st cu nb, σ.1 = .inner s st cu nb → Reach cls c.dec c.callFn c.addr cu

theorem not_falls_of_ends {callFn : Bool} {k : Kind} (h : endsStream callFn k = true) :
    ¬ FallsThrough callFn k := by
  cases k <;> cases callFn <;> simp [endsStream, FallsThrough] at *

theorem falls_of_not_ends {callFn : Bool} {k : Kind} (h : endsStream callFn k = false) :
    FallsThrough callFn k := by
  cases k <;> cases callFn <;> simp [endsStream, FallsThrough] at *

/-- Transfer of the invariant when the instruction list and marks only grow in `Same` fashion and
pending addresses are either still pending or done. -/
theorem AllInv.transfer {cls : Classifier P} {c : Call P} {n0 : Nat} {σ σ' : Ctl × Fn P}
    (h : AllInv cls c n0 σ)
    (hl : σ'.2.instrs.length = σ.2.instrs.length)
    (hi : ∀ j : Nat, (σ'.2.instrs[j]?).map DInstr.inst = (σ.2.instrs[j]?).map DInstr.inst)
    (hdn : ∀ a, DoneNB c σ.2 a → DoneNB c σ'.2 a)
    (hp : ∀ a, Pend σ.1 a → DoneNB c σ'.2 a ∨ Pend σ'.1 a)
    (hpn : ∀ i a, PendNext σ.1 σ.2.instrs.length i a → DoneNB c σ'.2 a)
    (hst : ∀ a, Pend σ'.1 a → Reach cls c.dec c.callFn c.addr a)
    (hcur : ∀ s st cu nb, σ'.1 = .inner s st cu nb → Reach cls c.dec c.callFn c.addr cu) :
    AllInv cls c n0 σ' := by
  have bwd : ∀ {j : Nat} {d' : DInstr P}, σ'.2.instrs[j]? = some d' →
      ∃ d, σ.2.instrs[j]? = some d ∧ d'.inst = d.inst := by
    intro j d' hd'
    have := hi j
    rw [hd'] at this
    cases hd : σ.2.instrs[j]? with
    | none => rw [hd] at this; simp at this
    | some d => rw [hd] at this; simp at this; exact ⟨d, rfl, this⟩
  have fwd : ∀ {j : Nat} {d : DInstr P}, σ.2.instrs[j]? = some d →
      ∃ d', σ'.2.instrs[j]? = some d' ∧ d'.inst = d.inst := by
    intro j d hd
    have := hi j
    rw [hd] at this
    cases hd' : σ'.2.instrs[j]? with
    | none => rw [hd'] at this; simp at this
    | some d' => rw [hd'] at this; simp at this; exact ⟨d', rfl, this⟩
  refine ⟨by rw [hl]; exact h.len, ?_, ?_, ?_, ?_, hst, hcur⟩
  · rcases h.start with h1 | h1
    · exact .inl (hdn _ h1)
    · exact hp _ h1
  · intro i d' hn hd'
    obtain ⟨d, hd, he⟩ := bwd hd'
    rw [he]; exact h.new i d hn hd
  · intro i d' hn hd' ht
    obtain ⟨d, hd, he⟩ := bwd hd'
    rw [he] at ht ⊢
    rcases h.tgt i d hn hd ht with h1 | h1
    · exact .inl (hdn _ h1)
    · exact hp _ h1
  · intro i d' hn hd' hf
    obtain ⟨d, hd, he⟩ := bwd hd'
    rw [he] at hf ⊢
    rcases h.fall i d hn hd hf with h1 | h1 | ⟨hk, h1 | h1⟩
    · exact .inl (hdn _ h1)
    · rcases hp _ h1 with h2 | h2
      · exact .inl h2
      · exact .inr (.inl h2)
    · obtain ⟨d2, hd2, hs2⟩ := h1
      obtain ⟨d2', hd2', he2⟩ := fwd hd2
      exact .inr (.inr ⟨hk, .inl ⟨d2', hd2', by rw [he2]; exact hs2⟩⟩)
    · exact .inl (hpn _ _ h1)

/-- Transfer of the invariant over a freshly decoded instruction. -/
theorem AllInv.decoded {cls : Classifier P} {c : Call P} {n0 : Nat}
    {s s' : List Addr} {start cur : Addr} {nb : Bool} {fn fn2 fn3 : Fn P} {len : Nat} {p : P}
    {ctl' : Ctl}
    (h : AllInv cls c n0 (.inner s start cur nb, fn)) (hw : WF cls fn)
    (hj : fn.decIdx cur = none) (hd : c.dec cur = some (len, p))
    (i : Inst P) (hi : i = ⟨cur, len, p⟩)
    (ht : TargetSpec (cls i).2 s (fn.push i nb) s' fn2)
    (same : Same fn2 fn3)
    (hs' : ∀ a, a ∈ s' → Pend ctl' a)
    (hctl : ∀ a, Pend ctl' a → a ∈ s' ∨ (a = i.stop ∧ FallsThrough c.callFn (cls i).1))
    (hfall : FallsThrough c.callFn (cls i).1 → Pend ctl' i.stop ∨
        ((cls i).1 = .other ∧ PendNext ctl' fn3.instrs.length fn.instrs.length i.stop))
    (hcur : ∀ s st cu nb, ctl' = .inner s st cu nb →
        cu = i.stop ∧ FallsThrough c.callFn (cls i).1) :
    AllInv cls c n0 (ctl', fn3) := by
  have hstart : i.start = cur := by rw [hi]
  have hni : fn.decIdx i.start = none := by rw [hstart]; exact hj
  have hsame : Same (fn.push i nb) fn3 := ht.same.trans same
  have hlen3 : fn3.instrs.length = fn.instrs.length + 1 := by
    rw [hsame.length]; simp [Fn.push]
  have hreach : Reach cls c.dec c.callFn c.addr cur := h.cur _ _ _ _ rfl
  have hsub : ∀ a, a ∈ s → a ∈ s' := by
    intro a ha
    by_cases h0 : (cls i).2 = 0
    · rw [ht.zero h0]; exact ha
    · cases hx : (fn.push i nb).decIdx (cls i).2 with
      | none => rw [ht.miss h0 hx]; exact List.mem_cons_of_mem _ ha
      | some j => rw [(ht.hit h0 j hx).1]; exact ha
  have hsub' : ∀ a, a ∈ s' → a ∈ s ∨ (a = (cls i).2 ∧ (cls i).2 ≠ 0) := by
    intro a ha
    by_cases h0 : (cls i).2 = 0
    · rw [ht.zero h0] at ha; exact .inl ha
    · cases hx : (fn.push i nb).decIdx (cls i).2 with
      | none =>
        rw [ht.miss h0 hx] at ha
        rcases List.mem_cons.1 ha with h1 | h1
        · exact .inr ⟨h1, h0⟩
        · exact .inl h1
      | some j => rw [(ht.hit h0 j hx).1] at ha; exact .inl ha
  have hdn : ∀ a, DoneNB c fn a → DoneNB c fn3 a := fun a h1 => (h1.push hni).same hsame
  have hnewDone : nb = true → DoneNB c fn3 cur := by
    intro hnb
    refine DoneNB.same ?_ hsame
    refine .inr ⟨fn.instrs.length, ⟨i, nb, false⟩, ?_, ?_, hnb⟩
    · rw [push_decIdx]; simp [hstart]
    · rw [push_get]; simp
  have hpend : ∀ a, Pend (.inner s start cur nb) a → DoneNB c fn3 a ∨ Pend ctl' a := by
    intro a ha
    rcases ha with ha | ⟨ha, hnb⟩
    · exact .inr (hs' a (hsub a ha))
    · rw [← ha]; exact .inl (hnewDone hnb)
  have bwd : ∀ {j : Nat} {d' : DInstr P}, fn3.instrs[j]? = some d' →
      (j < fn.instrs.length ∧ ∃ d, fn.instrs[j]? = some d ∧ d'.inst = d.inst) ∨
      (j = fn.instrs.length ∧ d'.inst = i) := by
    intro j d' hd'
    obtain ⟨d, hd, he, -⟩ := hsame.bwd hd'
    rw [push_get] at hd
    by_cases hk : j < fn.instrs.length
    · simp only [hk, if_true] at hd
      exact .inl ⟨hk, d, hd, he⟩
    · simp only [hk, if_false] at hd
      by_cases hk2 : j = fn.instrs.length
      · simp only [hk2, if_true, Option.some.injEq] at hd
        subst hd
        exact .inr ⟨hk2, he⟩
      · simp [hk2] at hd
  have fwd : ∀ {j : Nat} {d : DInstr P}, fn.instrs[j]? = some d →
      ∃ d', fn3.instrs[j]? = some d' ∧ d'.inst = d.inst := by
    intro j d hd
    have : (fn.push i nb).instrs[j]? = some d := by
      rw [push_get, if_pos (List.getElem?_eq_some_iff.1 hd).1]; exact hd
    obtain ⟨d', hd', he, -⟩ := hsame.fwd this
    exact ⟨d', hd', he⟩
  have hlast : ∃ d', fn3.instrs[fn.instrs.length]? = some d' ∧ d'.inst = i := by
    have : (fn.push i nb).instrs[fn.instrs.length]? = some ⟨i, nb, false⟩ := by
      rw [push_get]; simp
    obtain ⟨d', hd', he, -⟩ := hsame.fwd this
    exact ⟨d', hd', he⟩
  refine ⟨?_, ?_, ?_, ?_, ?_, ?_, ?_⟩
  · have := h.len; simp only at this ⊢; omega
  · rcases h.start with h1 | h1
    · exact .inl (hdn _ h1)
    · exact hpend _ h1
  · intro k d' hn hd'
    rcases bwd hd' with ⟨_, d, hd2, he⟩ | ⟨hk, he⟩
    · rw [he]; exact h.new k d hn hd2
    · rw [he, hi]; exact ⟨hd, hreach⟩
  · intro k d' hn hd' h0
    rcases bwd hd' with ⟨_, d, hd2, he⟩ | ⟨hk, he⟩
    · rw [he] at h0 ⊢
      rcases h.tgt k d hn hd2 h0 with h1 | h1
      · exact .inl (hdn _ h1)
      · exact hpend _ h1
    · rw [he] at h0 ⊢
      cases hx : (fn.push i nb).decIdx (cls i).2 with
      | none =>
        right
        apply hs'
        rw [ht.miss h0 hx]; exact List.mem_cons_self
      | some j =>
        left
        refine DoneNB.same ?_ same
        obtain ⟨-, hm⟩ := ht.hit h0 j hx
        have : ∃ d'', fn2.instrs[j]? = some d'' := by
          have hlt : j < (fn.push i nb).instrs.length := by
            -- indices recorded in the map are valid
            by_cases hst : (cls i).2 = i.start
            · rw [push_decIdx, if_pos hst] at hx
              simp only [Option.some.injEq] at hx
              subst hx; simp [Fn.push]
            · rw [push_decIdx, if_neg hst] at hx
              obtain ⟨d0, hd0, -⟩ := hw.sound _ _ hx
              have := (List.getElem?_eq_some_iff.1 hd0).1
              simp only [Fn.push, List.length_append]; omega
          have : j < fn2.instrs.length := by rw [ht.same.length]; exact hlt
          exact ⟨_, List.getElem?_eq_getElem this⟩
        obtain ⟨d'', hd''⟩ := this
        exact .inr ⟨j, d'', by rw [ht.same.dec]; exact hx, hd'', hm d'' hd''⟩
  · intro k d' hn hd' hf
    rcases bwd hd' with ⟨hlt, d, hd2, he⟩ | ⟨hk, he⟩
    · rw [he] at hf ⊢
      rcases h.fall k d hn hd2 hf with h1 | h1 | ⟨hkk, h1 | h1⟩
      · exact .inl (hdn _ h1)
      · rcases hpend _ h1 with h2 | h2
        · exact .inl h2
        · exact .inr (.inl h2)
      · obtain ⟨d2, hd2', hs2⟩ := h1
        obtain ⟨d3, hd3, he3⟩ := fwd hd2'
        exact .inr (.inr ⟨hkk, .inl ⟨d3, hd3, by rw [he3]; exact hs2⟩⟩)
      · obtain ⟨hc, hl⟩ := h1
        simp only at hl
        obtain ⟨d3, hd3, he3⟩ := hlast
        refine .inr (.inr ⟨hkk, .inl ⟨d3, ?_, ?_⟩⟩)
        · rw [hl]; exact hd3
        · rw [he3, hstart]; exact hc
    · rw [he] at hf ⊢
      rcases hfall hf with h1 | ⟨h1, h2⟩
      · exact .inr (.inl h1)
      · exact .inr (.inr ⟨h1, .inr (by rw [hk]; exact h2)⟩)
  · intro a ha
    rcases hctl a ha with h1 | ⟨h1, h2⟩
    · rcases hsub' a h1 with h3 | ⟨h3, h4⟩
      · exact h.stack a (.inl h3)
      · exact .succ hreach hd (.inl (by rw [← hi]; exact ⟨h4, h3⟩))
    · exact .succ hreach hd (.inr (by rw [← hi]; exact ⟨h2, h1⟩))
  · intro s2 st cu nb2 hc
    obtain ⟨h1, h2⟩ := hcur _ _ _ _ hc
    exact .succ hreach hd (.inr (by rw [← hi]; exact ⟨h2, h1⟩))

theorem pend_finish {s : List Addr} {start cur : Addr} {fn : Fn P} {a : Addr} :
    Pend (finish .all s start cur fn).1 a ↔ a ∈ s := by
  rw [finish_fst]; simp [Pend]

theorem allInv_step {cls : Classifier P} {c : Call P} {n0 : Nat} (hall : c.stop = .all)
    {σ σ' : Ctl × Fn P} (h : StepSpec cls c σ σ') (hw : WF cls σ.2)
    (hc : CtlInv cls σ) (hi : AllInv cls c n0 σ) : AllInv cls c n0 σ' := by
  cases h with
  | stay fn => exact hi
  | exit fn =>
    refine hi.transfer rfl (fun _ => rfl) (fun _ h => h) ?_ ?_ ?_ ?_
    · intro a ha; simp [Pend] at ha
    · intro i a ha; simp [PendNext] at ha
    · intro a ha; simp [Pend] at ha
    · intro s st cu nb h; simp at h
  | @pop a s fn fn' hr same preds ex =>
    refine hi.transfer same.length same.insts (fun _ h => h.same same) ?_ ?_ ?_ ?_
    · intro b hb
      simp only [Pend, List.mem_cons] at hb ⊢
      rcases hb with rfl | hb
      · exact .inr (.inr ⟨rfl, trivial⟩)
      · exact .inr (.inl hb)
    · intro i b hb; simp [PendNext] at hb
    · intro b hb
      apply hi.stack
      simp only [Pend, List.mem_cons] at hb ⊢
      rcases hb with hb | ⟨rfl, -⟩
      · exact .inr hb
      · exact .inl rfl
    · intro s2 st cu nb heq
      simp only [Ctl.inner.injEq] at heq
      apply hi.stack
      simp [Pend, ← heq.2.2.1]
  | @hit s start cur nb fn fn' j hj same preds marked =>
    rw [hall]
    have hdone : DoneNB c (finish .all s start cur fn').2 cur := by
      refine DoneNB.congr (fn := fn') ?_ (finish_instrs _ _ _ _ _) (finish_decIdx _ _ _ _ _)
      obtain ⟨d, hd, -⟩ := hw.sound _ _ hj
      obtain ⟨d', hd', -, -⟩ := same.fwd hd
      exact .inr ⟨j, d', by rw [same.dec]; exact hj, hd', marked d' hd'⟩
    refine hi.transfer ?_ ?_ ?_ ?_ ?_ ?_ ?_
    · rw [finish_instrs]; exact same.length
    · intro k; rw [finish_instrs]; exact same.insts k
    · intro a ha
      exact (ha.same same).congr (finish_instrs _ _ _ _ _) (finish_decIdx _ _ _ _ _)
    · intro a ha
      rcases ha with ha | ⟨rfl, -⟩
      · exact .inr (pend_finish.2 ha)
      · exact .inl hdone
    · intro i a ha
      obtain ⟨rfl, -⟩ := ha
      exact hdone
    · intro a ha
      exact hi.stack a (.inl (pend_finish.1 ha))
    · intro s2 st cu nb2 heq
      rw [finish_fst] at heq; simp at heq
  | @fail s start cur nb fn hj hd =>
    rw [hall]
    have hdone : DoneNB c (finish .all s start cur fn).2 cur := .inl hd
    refine hi.transfer ?_ ?_ ?_ ?_ ?_ ?_ ?_
    · rw [finish_instrs]
    · intro k; rw [finish_instrs]
    · intro a ha
      exact ha.congr (finish_instrs _ _ _ _ _) (finish_decIdx _ _ _ _ _)
    · intro a ha
      rcases ha with ha | ⟨rfl, -⟩
      · exact .inr (pend_finish.2 ha)
      · exact .inl hdone
    · intro i a ha
      obtain ⟨rfl, -⟩ := ha
      exact hdone
    · intro a ha
      exact hi.stack a (.inl (pend_finish.1 ha))
    · intro s2 st cu nb2 heq
      rw [finish_fst] at heq; simp at heq
  | decInstr hj hd hs i hi2 => rw [hall] at hs; cases hs
  | @decEnd s s' start cur nb fn fn2 fn3 len p hj hd hs i hie ht same preds he =>
    have hes : endsStream c.callFn (cls i).1 = true := by
      rcases he with he | ⟨-, he⟩
      · exact he
      · rw [hall] at he; cases he
    rw [hall]
    have := hi.decoded (ctl' := .outer s') hw hj hd i hie ht same
      (fun a ha => ha) (fun a ha => .inl ha)
      (fun hf => absurd hf (not_falls_of_ends hes)) (by intro s st cu nb h; simp at h)
    refine this.transfer ?_ ?_ ?_ ?_ ?_ ?_ ?_
    · rw [finish_instrs]
    · intro k; rw [finish_instrs]
    · intro a ha
      exact ha.congr (finish_instrs _ _ _ _ _) (finish_decIdx _ _ _ _ _)
    · intro a ha
      exact .inr (pend_finish.2 ha)
    · intro k a ha; simp [PendNext] at ha
    · intro a ha
      exact this.stack a (pend_finish.1 ha)
    · intro s2 st cu nb2 heq
      rw [finish_fst] at heq; simp at heq
  | @decCont s s' start cur nb fn fn2 fn3 len p hj hd hs i hie ht same preds ex he hb hr =>
    refine hi.decoded hw hj hd i hie ht same ?_ ?_ ?_ ?_
    · intro a ha; exact .inl ha
    · intro a ha
      rcases ha with ha | ⟨ha, hnb⟩
      · exact .inl ha
      · exact .inr ⟨ha.symm, falls_of_not_ends he⟩
    · intro hf
      by_cases hblk : endsBlock (cls i).1 = true
      · exact .inl (.inr ⟨rfl, hblk⟩)
      · refine .inr ⟨kind_other_of he (by simpa using hblk), rfl, ?_⟩
        rw [same.length, ht.same.length]; simp [Fn.push]
    · intro s2 st cu nb2 heq
      simp only [Ctl.inner.injEq] at heq
      exact ⟨heq.2.2.1.symm, falls_of_not_ends he⟩

theorem allInv_returns {cls : Classifier P} {c : Call P} {fn fn' : Fn P}
    (hr : Returns cls c fn fn') (hw : WF cls fn) (hall : c.stop = .all) :
    AllInv cls c fn.instrs.length (.done, fn') := by
  refine returns_induct (AllInv cls c fn.instrs.length) hr hw ?_
    (fun σ σ' hs hw hc hi => allInv_step hall hs hw hc hi)
  have hlt : ∀ {i : Nat} {d : DInstr P}, fn.instrs.length ≤ i → fn.instrs[i]? = some d → False := by
    intro i d hle hd
    have := (List.getElem?_eq_some_iff.1 hd).1
    omega
  refine ⟨Nat.le_refl _, .inr (by simp [Pend]), ?_, ?_, ?_, ?_, ?_⟩
  · intro i d hle hd; exact (hlt hle hd).elim
  · intro i d hle hd; exact (hlt hle hd).elim
  · intro i d hle hd; exact (hlt hle hd).elim
  · intro a ha
    simp only [Pend, List.mem_singleton] at ha
    rw [ha]; exact .start
  · intro s st cu nb h; simp at h

/-! ### Growth: old instructions are kept -/

theorem insts_step {cls : Classifier P} {c : Call P} {σ σ' : Ctl × Fn P}
    (h : StepSpec cls c σ σ') : σ.2.insts <+: σ'.2.insts := by
  cases h with
  | stay fn => exact List.prefix_refl _
  | exit fn => exact List.prefix_refl _
  | pop hr same preds ex => rw [same.insts_eq]; exact List.prefix_refl _
  | hit hj same preds marked => rw [finish_insts, same.insts_eq]; exact List.prefix_refl _
  | fail hj hd => rw [finish_insts]; exact List.prefix_refl _
  | decInstr hj hd hs i hi => rw [finish_insts, push_insts]; exact List.prefix_append _ _
  | decEnd hj hd hs i hi ht same preds he =>
    rw [finish_insts, same.insts_eq, ht.same.insts_eq, push_insts]; exact List.prefix_append _ _
  | decCont hj hd hs i hi ht same preds ex he hb hr =>
    rw [same.insts_eq, ht.same.insts_eq, push_insts]; exact List.prefix_append _ _

theorem insts_returns {cls : Classifier P} {c : Call P} {fn fn' : Fn P}
    (hr : Returns cls c fn fn') (hw : WF cls fn) : fn.insts <+: fn'.insts :=
  returns_induct (fun σ => fn.insts <+: σ.2.insts) hr hw (List.prefix_refl _)
    (fun _ _ hs _ _ hi => hi.trans (insts_step hs))

/-! ### Predecessor counts -/

theorem numSucc_decEnd {cls : Classifier P} {callFn : Bool} {i : Inst P} (a : Addr)
    (h : endsStream callFn (cls i).1 = true) :
    numSucc cls callFn a i = if (cls i).2 ≠ 0 ∧ a = (cls i).2 then 1 else 0 := by
  simp [numSucc, not_falls_of_ends h]

theorem numSucc_decCont {cls : Classifier P} {callFn : Bool} {i : Inst P} (a : Addr)
    (h : endsStream callFn (cls i).1 = false) :
    numSucc cls callFn a i = (if (cls i).2 ≠ 0 ∧ a = (cls i).2 then 1 else 0) +
      (if a = i.stop then 1 else 0) := by
  simp [numSucc, falls_of_not_ends h]

theorem edgeCount_push {cls : Classifier P} {callFn : Bool} {fn fn' : Fn P} {i : Inst P}
    (h : fn'.insts = fn.insts ++ [i]) (a : Addr) :
    fn'.edgeCount cls callFn a = fn.edgeCount cls callFn a + numSucc cls callFn a i := by
  simp [Fn.edgeCount, h]

theorem edgeCount_congr {cls : Classifier P} {callFn : Bool} {fn fn' : Fn P}
    (h : fn'.insts = fn.insts) (a : Addr) :
    fn'.edgeCount cls callFn a = fn.edgeCount cls callFn a := by
  simp [Fn.edgeCount, h]

theorem preds_step {cls : Classifier P} {c : Call P} {σ σ' : Ctl × Fn P} (hall : c.stop = .all)
    (h : StepSpec cls c σ σ') (a : Addr) (k : Nat)
    (hi : σ.2.predsOf a = σ.2.edgeCount cls c.callFn a + k) :
    σ'.2.predsOf a = σ'.2.edgeCount cls c.callFn a + k := by
  cases h with
  | stay fn => exact hi
  | exit fn => exact hi
  | pop hr same preds ex => rw [preds, edgeCount_congr same.insts_eq]; exact hi
  | hit hj same preds marked =>
    rw [finish_predsOf, edgeCount_congr (finish_insts _ _ _ _ _), preds,
      edgeCount_congr same.insts_eq]; exact hi
  | fail hj hd =>
    rw [finish_predsOf, edgeCount_congr (finish_insts _ _ _ _ _)]; exact hi
  | decInstr hj hd hs i hi => rw [hall] at hs; cases hs
  | decEnd hj hd hs i hie ht same preds he =>
    have hes : endsStream c.callFn (cls i).1 = true := by
      rcases he with he | ⟨-, he⟩
      · exact he
      · rw [hall] at he; cases he
    rw [finish_predsOf, edgeCount_congr (finish_insts _ _ _ _ _), preds, ht.preds, push_predsOf,
      edgeCount_congr same.insts_eq, edgeCount_congr ht.same.insts_eq,
      edgeCount_push (push_insts _ _ _), numSucc_decEnd a hes]
    simp only at hi
    rw [hi]; omega
  | decCont hj hd hs i hie ht same preds ex he hb hr =>
    rw [preds, ht.preds, push_predsOf,
      edgeCount_congr same.insts_eq, edgeCount_congr ht.same.insts_eq,
      edgeCount_push (push_insts _ _ _), numSucc_decCont a he]
    simp only at hi
    rw [hi]; omega

theorem preds_returns {cls : Classifier P} {c : Call P} {fn fn' : Fn P}
    (hr : Returns cls c fn fn') (hw : WF cls fn) (hall : c.stop = .all)
    (a : Addr) (k : Nat) (h0 : fn.predsOf a = fn.edgeCount cls c.callFn a + k) :
    fn'.predsOf a = fn'.edgeCount cls c.callFn a + k :=
  returns_induct (fun σ => σ.2.predsOf a = σ.2.edgeCount cls c.callFn a + k) hr hw h0
    (fun _ _ hs _ _ hi => preds_step hall hs a k hi)

/-! ### Histories with other stop modes -/

/-- The contribution of one instruction to `Fn.cutCount`. -/
def cutOf (cls : Classifier P) (callFn : Bool) (a : Addr) (i : Inst P) : Nat :=
  if (cls i).1 ≠ .other ∧ FallsThrough callFn (cls i).1 ∧ a = i.stop then 1 else 0

theorem cutCount_push {cls : Classifier P} {callFn : Bool} {fn fn' : Fn P} {i : Inst P}
    (h : fn'.insts = fn.insts ++ [i]) (a : Addr) :
    fn'.cutCount cls callFn a = fn.cutCount cls callFn a + cutOf cls callFn a i := by
  simp [Fn.cutCount, cutOf, h]

theorem cutCount_congr {cls : Classifier P} {callFn : Bool} {fn fn' : Fn P}
    (h : fn'.insts = fn.insts) (a : Addr) :
    fn'.cutCount cls callFn a = fn.cutCount cls callFn a := by
  simp [Fn.cutCount, h]

theorem numSucc_target_le {cls : Classifier P} {callFn : Bool} {i : Inst P} (a : Addr) :
    (if (cls i).2 ≠ 0 ∧ a = (cls i).2 then 1 else 0) ≤ numSucc cls callFn a i := by
  unfold numSucc; omega

/-- One step of the decoder never counts a predecessor without an edge. -/
theorem preds_le_step {cls : Classifier P} {c : Call P} {σ σ' : Ctl × Fn P}
    (h : StepSpec cls c σ σ') (a : Addr) (k : Nat)
    (hi : σ.2.predsOf a ≤ σ.2.edgeCount cls c.callFn a + k) :
    σ'.2.predsOf a ≤ σ'.2.edgeCount cls c.callFn a + k := by
  cases h with
  | stay fn => exact hi
  | exit fn => exact hi
  | pop hr same preds ex => rw [preds, edgeCount_congr same.insts_eq]; exact hi
  | hit hj same preds marked =>
    rw [finish_predsOf, edgeCount_congr (finish_insts _ _ _ _ _), preds,
      edgeCount_congr same.insts_eq]; exact hi
  | fail hj hd =>
    rw [finish_predsOf, edgeCount_congr (finish_insts _ _ _ _ _)]; exact hi
  | decInstr hj hd hs i hie =>
    rw [finish_predsOf, edgeCount_congr (finish_insts _ _ _ _ _), push_predsOf,
      edgeCount_push (push_insts _ _ _)]
    simp only at hi
    omega
  | decEnd hj hd hs i hie ht same preds he =>
    rw [finish_predsOf, edgeCount_congr (finish_insts _ _ _ _ _), preds, ht.preds, push_predsOf,
      edgeCount_congr same.insts_eq, edgeCount_congr ht.same.insts_eq,
      edgeCount_push (push_insts _ _ _)]
    simp only at hi
    have := numSucc_target_le (cls := cls) (callFn := c.callFn) (i := i) a
    omega
  | decCont hj hd hs i hie ht same preds ex he hb hr =>
    rw [preds, ht.preds, push_predsOf,
      edgeCount_congr same.insts_eq, edgeCount_congr ht.same.insts_eq,
      edgeCount_push (push_insts _ _ _), numSucc_decCont a he]
    simp only at hi
    omega

theorem preds_le_returns {cls : Classifier P} {c : Call P} {fn fn' : Fn P}
    (hr : Returns cls c fn fn') (hw : WF cls fn)
    (a : Addr) (k : Nat) (h0 : fn.predsOf a ≤ fn.edgeCount cls c.callFn a + k) :
    fn'.predsOf a ≤ fn'.edgeCount cls c.callFn a + k :=
  returns_induct (fun σ => σ.2.predsOf a ≤ σ.2.edgeCount cls c.callFn a + k) hr hw h0
    (fun _ _ hs _ _ hi => preds_le_step hs a k hi)

/-- What `decode_block` and `decode_cfg` count for the last instruction of a run. -/
theorem numSucc_cut {cls : Classifier P} {callFn : Bool} {i : Inst P} (a : Addr)
    (h : endsStream callFn (cls i).1 = true ∨ endsBlock (cls i).1 = true) :
    numSucc cls callFn a i =
      (if (cls i).2 ≠ 0 ∧ a = (cls i).2 then 1 else 0) + cutOf cls callFn a i := by
  unfold numSucc cutOf
  congr 1
  have : (cls i).1 ≠ .other := by
    intro hk
    rw [hk] at h
    rcases h with h | h <;> simp [endsStream, endsBlock] at h
  simp [this]

/-- With `decode_block` and `decode_cfg` only the edges to the address after a conditional branch or
call may be missing. -/
theorem preds_cut_le_step {cls : Classifier P} {c : Call P} {σ σ' : Ctl × Fn P}
    (hs : c.stop ≠ .instr) (h : StepSpec cls c σ σ') (a : Addr)
    (hi : σ.2.edgeCount cls c.callFn a ≤ σ.2.predsOf a + σ.2.cutCount cls c.callFn a) :
    σ'.2.edgeCount cls c.callFn a ≤ σ'.2.predsOf a + σ'.2.cutCount cls c.callFn a := by
  cases h with
  | stay fn => exact hi
  | exit fn => exact hi
  | pop hr same preds ex =>
    rw [preds, edgeCount_congr same.insts_eq, cutCount_congr same.insts_eq]; exact hi
  | hit hj same preds marked =>
    rw [finish_predsOf, edgeCount_congr (finish_insts _ _ _ _ _),
      cutCount_congr (finish_insts _ _ _ _ _), preds,
      edgeCount_congr same.insts_eq, cutCount_congr same.insts_eq]; exact hi
  | fail hj hd =>
    rw [finish_predsOf, edgeCount_congr (finish_insts _ _ _ _ _),
      cutCount_congr (finish_insts _ _ _ _ _)]; exact hi
  | decInstr hj hd hs' i hie => exact absurd hs' hs
  | decEnd hj hd hs i hie ht same preds he =>
    rw [finish_predsOf, edgeCount_congr (finish_insts _ _ _ _ _),
      cutCount_congr (finish_insts _ _ _ _ _), preds, ht.preds, push_predsOf,
      edgeCount_congr same.insts_eq, edgeCount_congr ht.same.insts_eq,
      edgeCount_push (push_insts _ _ _), cutCount_congr same.insts_eq,
      cutCount_congr ht.same.insts_eq, cutCount_push (push_insts _ _ _),
      numSucc_cut a (he.imp id (fun h => h.1))]
    simp only at hi
    omega
  | decCont hj hd hs i hie ht same preds ex he hb hr =>
    rw [preds, ht.preds, push_predsOf,
      edgeCount_congr same.insts_eq, edgeCount_congr ht.same.insts_eq,
      edgeCount_push (push_insts _ _ _), numSucc_decCont a he, cutCount_congr same.insts_eq,
      cutCount_congr ht.same.insts_eq, cutCount_push (push_insts _ _ _)]
    simp only at hi
    omega

/-- With `decode_block` and `decode_cfg` only the edges to the address after a conditional branch or
call may be missing; with `decode_block` alone they are. -/
theorem preds_cut_step {cls : Classifier P} {c : Call P} {σ σ' : Ctl × Fn P} (hs : c.stop ≠ .instr)
    (h : StepSpec cls c σ σ') (a : Addr) (k : Nat)
    (hi : σ.2.edgeCount cls c.callFn a ≤ σ.2.predsOf a + σ.2.cutCount cls c.callFn a ∧
      (c.stop = .block →
        σ.2.edgeCount cls c.callFn a + k = σ.2.predsOf a + σ.2.cutCount cls c.callFn a)) :
    σ'.2.edgeCount cls c.callFn a ≤ σ'.2.predsOf a + σ'.2.cutCount cls c.callFn a ∧
      (c.stop = .block →
        σ'.2.edgeCount cls c.callFn a + k = σ'.2.predsOf a + σ'.2.cutCount cls c.callFn a) := by
  cases h with
  | stay fn => exact hi
  | exit fn => exact hi
  | pop hr same preds ex =>
    rw [preds, edgeCount_congr same.insts_eq, cutCount_congr same.insts_eq]; exact hi
  | hit hj same preds marked =>
    rw [finish_predsOf, edgeCount_congr (finish_insts _ _ _ _ _),
      cutCount_congr (finish_insts _ _ _ _ _), preds,
      edgeCount_congr same.insts_eq, cutCount_congr same.insts_eq]; exact hi
  | fail hj hd =>
    rw [finish_predsOf, edgeCount_congr (finish_insts _ _ _ _ _),
      cutCount_congr (finish_insts _ _ _ _ _)]; exact hi
  | decInstr hj hd hs' i hie => exact absurd hs' hs
  | decEnd hj hd hs i hie ht same preds he =>
    rw [finish_predsOf, edgeCount_congr (finish_insts _ _ _ _ _),
      cutCount_congr (finish_insts _ _ _ _ _), preds, ht.preds, push_predsOf,
      edgeCount_congr same.insts_eq, edgeCount_congr ht.same.insts_eq,
      edgeCount_push (push_insts _ _ _), cutCount_congr same.insts_eq,
      cutCount_congr ht.same.insts_eq, cutCount_push (push_insts _ _ _),
      numSucc_cut a (he.imp id (fun h => h.1))]
    obtain ⟨h1, h2⟩ := hi
    simp only at h1 h2
    refine ⟨by omega, fun hb => ?_⟩
    have := h2 hb
    omega
  | decCont hj hd hs i hie ht same preds ex he hb hr =>
    rw [preds, ht.preds, push_predsOf,
      edgeCount_congr same.insts_eq, edgeCount_congr ht.same.insts_eq,
      edgeCount_push (push_insts _ _ _), numSucc_decCont a he, cutCount_congr same.insts_eq,
      cutCount_congr ht.same.insts_eq, cutCount_push (push_insts _ _ _)]
    obtain ⟨h1, h2⟩ := hi
    simp only at h1 h2
    refine ⟨by omega, fun hbl => ?_⟩
    have h3 := h2 hbl
    have h4 : cutOf cls c.callFn a i = 0 := by
      have : (cls i).1 = .other := by
        have hb' : ¬ endsBlock (cls i).1 = true := fun h => hb ⟨h, hbl⟩
        revert he hb'
        cases (cls i).1 <;> simp [endsStream, endsBlock]
      simp [cutOf, this]
    omega

theorem preds_cut_returns {cls : Classifier P} {c : Call P} {fn fn' : Fn P}
    (hr : Returns cls c fn fn') (hw : WF cls fn) (hs : c.stop ≠ .instr)
    (a : Addr) (k : Nat)
    (h0 : fn.edgeCount cls c.callFn a ≤ fn.predsOf a + fn.cutCount cls c.callFn a ∧
      (c.stop = .block →
        fn.edgeCount cls c.callFn a + k = fn.predsOf a + fn.cutCount cls c.callFn a)) :
    fn'.edgeCount cls c.callFn a ≤ fn'.predsOf a + fn'.cutCount cls c.callFn a ∧
      (c.stop = .block →
        fn'.edgeCount cls c.callFn a + k = fn'.predsOf a + fn'.cutCount cls c.callFn a) :=
  returns_induct (fun σ => σ.2.edgeCount cls c.callFn a ≤
        σ.2.predsOf a + σ.2.cutCount cls c.callFn a ∧
      (c.stop = .block →
        σ.2.edgeCount cls c.callFn a + k = σ.2.predsOf a + σ.2.cutCount cls c.callFn a)) hr hw h0
    (fun _ _ h _ _ hi => preds_cut_step hs h a k hi)

end Verif.Decode
