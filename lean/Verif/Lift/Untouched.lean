import Verif.Lift.Props
import Verif.Lift.Examples
import Verif.Lift.A64
import Verif.Lift.X86

/-!
C17 for the SSA form with placed stores: the slot of a register that is not written.  Unlike
`C15_observable_partial` this needs no assumption on the history, the edges of the graph or the values of
registers: a register that no instruction marks dirty is not stored anywhere.
-/

namespace Verif.Lift

open Verif.Decode Verif.IR

variable {P R V M : Type} [DecidableEq R]

/-- No instruction writes the register and no called function changes its slot. -/
def NotWritten (L : Lifter P R V M) (is : List (Inst P)) (r : R) : Prop :=
  ∀ i ∈ is, ∀ it ∈ L.items i, match it with
    | .upd _ d => r ∉ d
    | .call g => ∀ c c', g c = some c' → c'.slot r = c.slot r

/-- The same for the items of a block. -/
def ItemsKeep (is : List (Item R V M)) (r : R) : Prop :=
  ∀ it ∈ is, match it with
    | .upd _ d => r ∉ d
    | .call g => ∀ c c', g c = some c' → c'.slot r = c.slot r

omit [DecidableEq R] in
theorem NotWritten.items {L : Lifter P R V M} {is : List (Inst P)} {r : R} (h : NotWritten L is r) :
    ItemsKeep (bodyItems L is) r := by
  intro it hit
  obtain ⟨i, hi, hm⟩ := List.mem_flatMap.1 hit
  exact h i hi it hm

theorem seg_clean {is : List (Item R V M)} {r : R} (h : ItemsKeep is r) :
    ∀ (x : Seg R), r ∉ x.dirty → r ∉ (is.foldl Seg.item x).dirty := by
  induction is with
  | nil => intro x hx; exact hx
  | cons it is ih =>
    intro x hx
    refine ih (fun y hy => h y (List.mem_cons_of_mem _ hy)) _ ?_
    have := h it List.mem_cons_self
    cases it with
    | upd f d => simp only [Seg.item, Finset.mem_union, not_or]; exact ⟨hx, this⟩
    | call g => simp [Seg.item]

/-- The register is in no set of the dataflow analysis. -/
def FlowClean (F : Flow R) (r : R) : Prop := ∀ b, r ∉ F.pre b ∧ r ∉ F.post b

theorem blockSets_clean {L : Lifter P R V M} {F : Flow R} {bb : BB P} {r : R} (hF : FlowClean F r)
    (h : ItemsKeep (bodyItems L bb.body) r) : r ∉ (blockSets L F bb).1 ∧ r ∉ (blockSets L F bb).2 := by
  have hp : r ∉ bb.preds.foldr (fun p s => F.post p ∪ s) ∅ := by
    intro hr
    obtain ⟨p, -, hr⟩ := (mem_foldr_union _ _ _).1 hr
    exact (hF p).2 hr
  have hd : r ∉ (endSeg L bb).dirty := seg_clean h _ (by simp [startSeg])
  refine ⟨hp, ?_⟩
  unfold blockSets
  dsimp only
  split
  · split
    · exact hd
    · simp only [Finset.mem_union, not_or]; exact ⟨hp, hd⟩
  · simp

theorem dfRun_clean {L : Lifter P R V M} {g : Graph P} {r : R}
    (h : ∀ b bb, g b = some bb → ItemsKeep (bodyItems L bb.body) r) (n : Nat) :
    ∀ (d : DfSt R) (F : Flow R), FlowClean d.map r → dfRun L g n d = some F → FlowClean F r := by
  induction n with
  | zero => intro d F _ e; cases e
  | succ n ih =>
    intro d F hd e
    rw [dfRun] at e
    split at e
    · cases e; exact hd
    next d' hs =>
      refine ih d' F ?_ e
      unfold dfStep at hs
      split at hs
      · split at hs
        · cases hs
        · cases hs; exact hd
      · split at hs
        · cases hs; exact hd
        next bb hbb =>
          cases hs
          intro x
          have := blockSets_clean hd (h _ _ hbb)
          have hx := hd x
          simp only [Flow.pre, Flow.post] at hx ⊢
          split
          · exact this
          · exact hx

/-- No store of the register is placed anywhere. -/
theorem plan_clean {L : Lifter P R V M} {g : Graph P} {r : R} {ids : List Id} {regs : List R} {fuel : Nat}
    {plan : Plan R} (h : ∀ b bb, g b = some bb → ItemsKeep (bodyItems L bb.body) r)
    (hp : optimizePacks L g ids regs fuel = some plan) :
    ∀ b, (b, r) ∉ plan.here ∧ (b, r) ∉ plan.atEnd := by
  unfold optimizePacks at hp
  split at hp
  · cases hp
  next F hF =>
    have hc : FlowClean F r := dfRun_clean h fuel _ _ (fun b => by simp [Flow.pre, Flow.post]) hF
    obtain ⟨ls, hls, rfl⟩ := Option.map_eq_some_iff.1 hp
    have key : ∀ d ∈ ls.flatten, d.2.1 ≠ r := by
      intro d hd
      obtain ⟨l, hl, hd⟩ := List.mem_flatten.1 hd
      obtain ⟨b, -, hb⟩ := (mapM_mem hls).2 l hl
      unfold packDests at hb
      split at hb
      · cases hb; cases hd
      · split at hb
        · cases hb; cases hd
        next bb _ x hx =>
          obtain ⟨q, hq, hq'⟩ := (mapM_mem hb).2 d hd
          obtain ⟨o, -, rfl⟩ := Option.map_eq_some_iff.1 hq'
          rintro rfl
          unfold packRegs at hq
          rw [hx] at hq
          dsimp only at hq
          split at hq
          · cases hq
          · simp only [List.mem_filter, Bool.and_eq_true, decide_eq_true_eq] at hq
            exact (hc b).1 hq.2.1
    refine fun b => ⟨fun hm => ?_, fun hm => ?_⟩
    · obtain ⟨d, hd, e⟩ := List.mem_filterMap.1 hm
      split at e
      · cases e; exact key d hd rfl
      · cases e
    · obtain ⟨d, hd, e⟩ := List.mem_filterMap.1 hm
      obtain ⟨q, -, e⟩ := Option.map_eq_some_iff.1 e
      cases e; exact key d hd rfl

variable {plan : Plan R} {drop : R → V → Bool} {slide : BitVec 64} {r : R}

theorem packSel_clean (hp : ∀ b, (b, r) ∉ plan.here ∧ (b, r) ∉ plan.atEnd) {b : Id} {x : Seg R} (hx : r ∉ x.dirty) :
    packSel plan b x r = false := by
  simp [packSel, hx, (hp b).1]

theorem keep_items (hp : ∀ b, (b, r) ∉ plan.here ∧ (b, r) ∉ plan.atEnd) {b : Id} (is : List (Item R V M)) :
    ∀ (x x' : Rt R V M), ItemsKeep is r → r ∉ x.seg.dirty → ssaItems plan drop slide b is x = some x' →
      x'.slot r = x.slot r ∧ r ∉ x'.seg.dirty := by
  induction is with
  | nil => intro x x' _ hx e; cases e; exact ⟨rfl, hx⟩
  | cons it is ih =>
    intro x x' hk hx e
    rw [ssaItems] at e
    obtain ⟨y, h1, h2⟩ := Option.bind_eq_some_iff.1 e
    have hit := hk it List.mem_cons_self
    have hy : y.slot r = x.slot r ∧ r ∉ y.seg.dirty := by
      cases it with
      | upd f d =>
        simp only [ssaItem] at h1
        obtain ⟨st, -, rfl⟩ := Option.map_eq_some_iff.1 h1
        exact ⟨rfl, by simp only [Seg.item, Finset.mem_union, not_or]; exact ⟨hx, hit⟩⟩
      | call g =>
        simp only [ssaItem] at h1
        obtain ⟨c, hc, rfl⟩ := Option.map_eq_some_iff.1 h1
        refine ⟨(hit _ _ hc).trans ?_, by simp [Seg.item]⟩
        simp [Rt.pack, storeAll, packSel_clean hp hx]
    obtain ⟨e1, e2⟩ := ih y x' (fun z hz => hk z (List.mem_cons_of_mem _ hz)) hy.2 h2
    exact ⟨e1.trans hy.1, e2⟩

theorem keep_body {L : Lifter P R V M} (hp : ∀ b, (b, r) ∉ plan.here ∧ (b, r) ∉ plan.atEnd) {b : Id}
    (is : List (Inst P)) : ∀ (x x' : Rt R V M), NotWritten L is r → r ∉ x.seg.dirty →
      ssaBody L plan drop slide b is x = some x' → x'.slot r = x.slot r ∧ r ∉ x'.seg.dirty := by
  induction is with
  | nil => intro x x' _ hx e; cases e; exact ⟨rfl, hx⟩
  | cons i is ih =>
    intro x x' hk hx e
    rw [ssaBody] at e
    obtain ⟨y, h1, h2⟩ := Option.bind_eq_some_iff.1 e
    obtain ⟨a1, a2⟩ := keep_items hp (L.items i) { x with st := { x.st with pc := .const (L.startPc i) } } y
      (hk i List.mem_cons_self) hx h1
    obtain ⟨e1, e2⟩ := ih y x' (fun z hz => hk z (List.mem_cons_of_mem _ hz)) a2 h2
    exact ⟨e1.trans a1, e2⟩

/-- The slot of a register wherever execution stands. -/
def SCfg.slot : SCfg R V M → R → V
  | .at _ _ e => e.slot
  | .done _ c => c.slot

theorem keep_step {L : Lifter P R V M} {g : Graph P} (hp : ∀ b, (b, r) ∉ plan.here ∧ (b, r) ∉ plan.atEnd)
    (hu : ∀ b bb, g b = some bb → NotWritten L bb.body r) {c c' : SCfg R V M}
    (h : stepSsa L plan drop slide g c = some c') : c'.slot r = c.slot r := by
  cases c with
  | done v c => cases h; rfl
  | «at» q b e =>
    rw [stepSsa] at h
    split at h
    · cases h
    next bb hbb =>
      split at h
      · cases h
      next regs hr =>
        split at h
        · cases h
        next x hx =>
          obtain ⟨a1, a2⟩ := keep_body hp bb.body _ x (hu b bb hbb) (by simp [startSeg]) hx
          split at h
          · split at h
            · cases h
            · cases h
              simp only [SCfg.slot, Rt.pack, storeAll, packSel_clean hp a2]
              exact a1
          · obtain ⟨b', -, rfl⟩ := Option.map_eq_some_iff.1 h
            simp only [SCfg.slot, storeAll, (hp b).2, decide_false]
            exact a1

theorem keep_run {L : Lifter P R V M} {g : Graph P} (hp : ∀ b, (b, r) ∉ plan.here ∧ (b, r) ∉ plan.atEnd)
    (hu : ∀ b bb, g b = some bb → NotWritten L bb.body r) (k : Nat) : ∀ {c c' : SCfg R V M},
    runSsa L plan drop slide g k c = some c' → c'.slot r = c.slot r := by
  induction k with
  | zero => intro c c' h; cases h; rfl
  | succ k ih =>
    intro c c' h
    rw [runSsa] at h
    obtain ⟨c1, h1, h2⟩ := Option.bind_eq_some_iff.1 h
    rw [ih h2, keep_step hp hu h1]

/-- C17: a register that no decoded instruction writes has the same value in the CPU struct, at every point of
every execution of the lifted function (in SSA form, with the stores where `OptimizePacks` puts them, whatever
the undefined values) as it had when the function was called; for every sequence of decode and lift calls. -/
theorem C17_untouched_ssa {cls : Classifier P} {h : List (Call P)} {fn : Fn P}
    (H : Hist cls h fn) {known : Bool} {L : Lifter P R V M} {g : Graph P}
    (hl : lift known L.toSLifter fn = .ok g) {regs : List R} {fuel : Nat}
    (hp : optimizePacks L g (packIds fn) regs fuel = some plan) (hu : NotWritten L fn.insts r)
    (out0 : Id → R → V) (c : CPU R V M) (c' : SCfg R V M) (k : Nat)
    (hrun : runSsa L plan drop slide g k (ssaStart out0 c) = some c') : c'.slot r = c.slot r := by
  have hb : ∀ b bb, g b = some bb → NotWritten L bb.body r :=
    fun b bb hbb i hi => hu i (body_insts H hl hbb i hi)
  exact keep_run (plan_clean (fun b bb hbb => (hb b bb hbb).items) hp) hb k hrun

end Verif.Lift

namespace Verif.Lift.RV64

open Verif.Decode Verif.IR Verif.RV64

/-- A lifted RV64 function none of whose instructions has `x`*k* as destination leaves the slot of `x`*k* alone,
whatever the code does and however it was decoded. -/
theorem C17_untouched_rv64 {cls : Classifier Frv} {h : List (Call Frv)} {fn : Fn Frv} (H : Hist cls h fn)
    {known : Bool} {slide : BitVec 64} {fold : Inst Frv → Option Bool} {g : Graph Frv}
    (hl : lift known (rvLifter slide fold).toSLifter fn = .ok g) {regs : List RvReg} {fuel : Nat} {plan : Plan RvReg}
    (hp : optimizePacks (rvLifter slide fold) g (packIds fn) regs fuel = some plan) (k : Fin 32)
    (hk : ∀ i ∈ fn.insts, i.payload.rd ≠ k.val) (drop : RvReg → Val 64 → Bool) (out0 : Id → RvReg → Val 64)
    (c c' : CPU RvReg (Val 64) VMem) (v : Bool) (n : Nat)
    (hrun : runSsa (rvLifter slide fold) plan drop slide g n (ssaStart out0 c) = some (.done v c')) :
    c'.slot (.inl k) = c.slot (.inl k) := by
  refine C17_untouched_ssa H hl hp (r := .inl k) ?_ out0 c _ n hrun
  intro i hi it hit
  simp only [rvLifter, List.mem_singleton] at hit
  subst hit
  have := hk i hi
  simp only [rvDirty, Finset.mem_filter, Finset.mem_univ, true_and, Sum.elim_inl, Bool.and_eq_true, beq_iff_eq, not_and]
  intro _ e; exact this e.symm

/-- The hypotheses are met by a history with a missed edge, for which the lifted function computes wrong results
(`C09_decode_block_counterexample`): the registers other than `x0`, `x2` and `x3` are left alone nevertheless. -/
example : ∃ fn g plan, Hist rvClassify joinCalls fn ∧ lift true (rvLifter 0 noFold).toSLifter fn = .ok g ∧
    optimizePacks (rvLifter 0 noFold) g (packIds fn) allRegs 1000 = some plan ∧
    (∀ i ∈ fn.insts, i.payload.rd ≠ (5 : Fin 32).val) ∧ fn.insts.length = 5 := by
  have hs : joinFn.isSome = true := by decide +kernel
  obtain ⟨fn, hfn⟩ := Option.isSome_iff_exists.1 hs
  have h1 : (joinFn.bind fun fn => runLifted (rvLifter 0 noFold) fn
      (fun k => if k = 2 then 5 else 0) 0x1000#64 10).isSome = true := by decide +kernel
  have h2 : (joinFn.all fun fn => fn.insts.all (fun i => i.payload.rd != 5) && fn.insts.length == 5) = true := by
    decide +kernel
  rw [hfn] at h1 h2
  simp only [Option.bind_some, runLifted] at h1
  split at h1
  next g hg =>
    split at h1
    · cases h1
    next plan hp =>
      simp only [Option.all_some, Bool.and_eq_true, List.all_eq_true, bne_iff_ne, beq_iff_eq] at h2
      exact ⟨fn, g, plan, joinFn_hist hfn, hg, hp, h2.1, h2.2⟩
  · cases h1

end Verif.Lift.RV64

namespace Verif.Lift.X86

open Verif.Decode Verif.IR Verif.X86

/-- The same for x86-64: the general-purpose and vector registers, flags and segment bases that no instruction
writes (`xOut`), if the call and system call functions leave them alone. -/
theorem C17_untouched_x86 {cls : Classifier Instr} {h : List (Call Instr)} {fn : Fn Instr} (H : Hist cls h fn)
    {known : Bool} {env : Env} {slide : BitVec 64} {fold : Inst Instr → Option Bool} {g : Graph Instr}
    (hl : lift known (xLifter env slide fold).toSLifter fn = .ok g) {regs : List XReg} {fuel : Nat} {plan : Plan XReg}
    (hp : optimizePacks (xLifter env slide fold) g (packIds fn) regs fuel = some plan) (r : XReg)
    (hk : ∀ i ∈ fn.insts, xOut env.clobberFlags i.payload r = false)
    (hc : ∀ f, env.callFn = some f ∨ env.sysFn = some f → ∀ c c', f c = some c' → c'.slot r = c.slot r)
    (drop : XReg → XVal → Bool) (out0 : Id → XReg → XVal) (c c' : CPU XReg XVal XMem) (v : Bool) (n : Nat)
    (hrun : runSsa (xLifter env slide fold) plan drop slide g n (ssaStart out0 c) = some (.done v c')) :
    c'.slot r = c.slot r := by
  refine C17_untouched_ssa H hl hp (r := r) ?_ out0 c _ n hrun
  intro i hi it hit
  have hd : r ∉ xDirty env.clobberFlags i.payload := by rw [mem_xDirty, hk i hi]; simp
  simp only [xLifter] at hit
  unfold xItems at hit
  split at hit <;> simp only [List.mem_cons, List.not_mem_nil, or_false, xUpd] at hit
  · rename_i f _ _ e
    rcases hit with rfl | rfl | rfl
    · exact hd
    · exact hc _ (.inl e)
    · simp
  · rename_i f _ _ e
    rcases hit with rfl | rfl | rfl
    · exact hd
    · exact hc _ (.inl e)
    · simp
  · rename_i f _ e
    rcases hit with rfl | rfl
    · exact hd
    · exact hc _ (.inr e)
  · subst hit; exact hd

end Verif.Lift.X86

namespace Verif.Lift.A64

open Verif.Decode Verif.IR Verif.A64

/-- The same for AArch64. -/
theorem C17_untouched_a64 {cls : Classifier Instr} {h : List (Call Instr)} {fn : Fn Instr} (H : Hist cls h fn)
    {known : Bool} {env : Env} {slide : BitVec 64} {fold : Inst Instr → Option Bool} {g : Graph Instr}
    (hl : lift known (aLifter env slide fold).toSLifter fn = .ok g) {regs : List AReg} {fuel : Nat} {plan : Plan AReg}
    (hp : optimizePacks (aLifter env slide fold) g (packIds fn) regs fuel = some plan) (r : AReg)
    (hk : ∀ i ∈ fn.insts, aOut env.clobberFlags i.payload r = false)
    (hc : ∀ f, env.callFn = some f ∨ env.sysFn = some f → ∀ c c', f c = some c' → c'.slot r = c.slot r)
    (drop : AReg → AVal → Bool) (out0 : Id → AReg → AVal) (c c' : CPU AReg AVal AMem) (v : Bool) (n : Nat)
    (hrun : runSsa (aLifter env slide fold) plan drop slide g n (ssaStart out0 c) = some (.done v c')) :
    c'.slot r = c.slot r := by
  refine C17_untouched_ssa H hl hp (r := r) ?_ out0 c _ n hrun
  intro i hi it hit
  have hd : r ∉ aDirty env.clobberFlags i.payload := by rw [mem_aDirty, hk i hi]; simp
  simp only [aLifter] at hit
  unfold aItems at hit
  split at hit <;> simp only [List.mem_cons, List.not_mem_nil, or_false, aUpd] at hit
  · rename_i f _ _ e
    rcases hit with rfl | rfl | rfl
    · exact hd
    · exact hc _ (.inl e)
    · simp
  · rename_i f _ _ e
    rcases hit with rfl | rfl | rfl
    · exact hd
    · exact hc _ (.inl e)
    · simp
  · rename_i f _ e
    rcases hit with rfl | rfl
    · exact hd
    · exact hc _ (.inr e)
  · subst hit; exact hd

end Verif.Lift.A64
