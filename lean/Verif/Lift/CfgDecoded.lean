import Verif.Lift.RV64Call
import Verif.Lift.A64
import Verif.Lift.X86
import Verif.Lift.Drop
import Verif.Lift.ExamplesRV64Call
import Verif.Lift.ExamplesA64
import Verif.Lift.ExamplesX86

/-!
C65: functions decoded with `ll_func_decode_cfg`, for the three architectures.  C14 and C15 fail for other ways of
decoding; here nothing is assumed but what a user of `ll_func_decode_cfg` can see.
-/

namespace Verif.Lift

open Verif.Decode Verif.IR

variable {P R V M : Type} [DecidableEq R]

/-- What C65 says about a lifted function `g` whose stores are placed by `plan`: run the code that keeps all registers up
to date along the executed path and stores all of them at every call and return (`runBlocks`), and the code in SSA
form with the stores placed by `plan` (`runSsa`).  If the first has returned after `k` blocks, the second has
returned the same CPU struct; if it has not, the second stands at the same block; the CPU structs passed to external
functions so far (logged beside the memory) are the same. -/
def StoresRight (L : Lifter P R V M) (g : Graph P) (plan : Plan R) (slide : BitVec 64) : Prop :=
  ∀ (out0 : Id → R → V) (c : CPU R V (M × List (CPU R V M))) (k : Nat),
    (∀ v c', runBlocks L.logged slide g k (.at .entry c.unpack) = some (.done v c') →
      runSsa L.logged plan (fun _ _ => false) slide g k (ssaStart out0 c) = some (.done v c')) ∧
    (∀ b s, runBlocks L.logged slide g k (.at .entry c.unpack) = some (.at b s) →
      ∃ q e, runSsa L.logged plan (fun _ _ => false) slide g k (ssaStart out0 c) = some (.at q b e) ∧
        e.mem.2 = s.mem.2)

/-- All calls that decoded the function are `ll_func_decode_cfg`, under the same setting for calls. -/
def DecodedWithCfg (callFn : Bool) (h : List (Call P)) : Prop := ∀ c ∈ h, c.stop = .all ∧ c.callFn = callFn

/-! The log does not influence where stores are placed. -/

theorem Seg.item_logged (x : Seg R) (it : Item R V M) : x.item it.logged = x.item it := by
  cases it <;> rfl

omit [DecidableEq R] in
theorem items_logged (L : Lifter P R V M) (is : List (Inst P)) :
    bodyItems L.logged is = (bodyItems L is).map Item.logged := by
  simp only [bodyItems, List.map_flatMap]; rfl

theorem fold_logged (is : List (Item R V M)) : ∀ x : Seg R,
    (is.map Item.logged).foldl Seg.item x = is.foldl Seg.item x := by
  induction is with
  | nil => intro x; rfl
  | cons it is ih => intro x; simp only [List.map_cons, List.foldl_cons, Seg.item_logged, ih]

theorem endSeg_logged (L : Lifter P R V M) : endSeg L.logged = endSeg L := by
  funext bb; rw [endSeg, items_logged, fold_logged]; rfl

theorem callSeg_logged (is : List (Item R V M)) : ∀ x : Seg R, callSeg x (is.map Item.logged) = callSeg x is := by
  induction is with
  | nil => intro x; rfl
  | cons it is ih =>
    intro x
    cases it with
    | upd f d => exact ih _
    | call g => rfl

theorem packSeg_logged (L : Lifter P R V M) : packSeg L.logged = packSeg L := by
  funext bb; rw [packSeg, items_logged, callSeg_logged, endSeg_logged]; rfl

theorem dfRun_logged (L : Lifter P R V M) (g : Graph P) (n : Nat) : ∀ d, dfRun L.logged g n d = dfRun L g n d := by
  have hs : ∀ d, dfStep L.logged g d = dfStep L g d := by
    intro d; unfold dfStep blockSets; rw [endSeg_logged]
  induction n with
  | zero => intro d; rfl
  | succ n ih =>
    intro d
    rw [dfRun, dfRun, hs]
    split
    · rfl
    · exact ih _

theorem hoist_logged (L : Lifter P R V M) (g : Graph P) (F : Flow R) (r : R) (n : Nat) :
    ∀ pos b x, hoistLoop L.logged g F r n pos b x = hoistLoop L g F r n pos b x := by
  induction n with
  | zero => intro pos b x; rfl
  | succ n ih => intro pos b x; simp only [hoistLoop, endSeg_logged, ih]

theorem packs_logged (L : Lifter P R V M) (g : Graph P) (ids : List Id) (regs : List R) (fuel : Nat) :
    optimizePacks L.logged g ids regs fuel = optimizePacks L g ids regs fuel := by
  unfold optimizePacks packDests packRegs
  simp only [dfRun_logged, hoist_logged, packSeg_logged]

theorem stores_right {cls : Classifier P} {h : List (Call P)} {fn : Fn P} {callFn : Bool}
    (H : Hist cls h fn) (hall : DecodedWithCfg callFn h)
    {known : Bool} {L : Lifter P R V M} {g : Graph P} (hl : lift known L.toSLifter fn = .ok g)
    (hknown : ∀ i ∈ fn.insts, TargetsKnown cls callFn L.toSLifter i)
    (hok : ∀ i, ∀ it ∈ L.items i, ItemOK (Refine.eq V M) it)
    {regs : List R} (hregs : ∀ r, r ∈ regs) {fuel : Nat} {plan : Plan R}
    (hplan : optimizePacks L g (packIds fn) regs fuel = some plan) (slide : BitVec 64) :
    StoresRight L g plan slide :=
  fun out0 c k => C15_observable_partial H (counted_cfg H hall) hl hknown (fun i _ _ hm => (hok i _ hm).1) hregs
    ((packs_logged ..).trans hplan) slide out0 c k

/-- A block that takes its registers from a single predecessor has no other predecessor. -/
def ParentsRight (g : Graph P) : Prop :=
  ∀ b bb p, g b = some bb → bb.init = some (.parent p) → bb.preds = [p]

omit [DecidableEq R] in
theorem parents_right {cls : Classifier P} {h : List (Call P)} {fn : Fn P} {callFn : Bool}
    (H : Hist cls h fn) (hall : DecodedWithCfg callFn h)
    {known : Bool} {L : Lifter P R V M} {g : Graph P} (hl : lift known L.toSLifter fn = .ok g)
    (hknown : ∀ i ∈ fn.insts, TargetsKnown cls callFn L.toSLifter i) : ParentsRight g := by
  obtain ⟨e, bs, g0, -, hf, hs, HG, rfl⟩ := lift_inv H hl
  have hc := counted_cfg H hall
  exact (graph_ok (L := L) hf hs (hc.inhibited H) hc.edges hknown HG).parent

/-- The same if stores of undefined values are left out (`drop`), as the lifter does for the constant `undef`: the
CPU struct that is returned is the same except in registers whose value is undefined. -/
def StoresRightDrop (undef : V → Prop) (L : Lifter P R V M) (g : Graph P) (plan : Plan R) (slide : BitVec 64) : Prop :=
  ∀ drop : R → V → Bool, (∀ r v, drop r v = true → undef v) → Blind undef L →
    ∀ (out0 : Id → R → V) (c : CPU R V M) (k : Nat) v c',
      runBlocks L slide g k (.at .entry c.unpack) = some (.done v c') →
      ∃ c'', runSsa L plan drop slide g k (ssaStart out0 c) = some (.done v c'') ∧ Patch undef c' c''

theorem stores_right_drop {cls : Classifier P} {h : List (Call P)} {fn : Fn P} {callFn : Bool}
    (H : Hist cls h fn) (hall : DecodedWithCfg callFn h)
    {known : Bool} {L : Lifter P R V M} {g : Graph P} (hl : lift known L.toSLifter fn = .ok g)
    (hknown : ∀ i ∈ fn.insts, TargetsKnown cls callFn L.toSLifter i)
    (hok : ∀ i, ∀ it ∈ L.items i, ItemOK (Refine.eq V M) it)
    {regs : List R} (hregs : ∀ r, r ∈ regs) {fuel : Nat} {plan : Plan R}
    (hplan : optimizePacks L g (packIds fn) regs fuel = some plan) (slide : BitVec 64) (undef : V → Prop) :
    StoresRightDrop undef L g plan slide := by
  intro drop hdrop hb out0 c k v c' hrun
  have hc := counted_cfg H hall
  obtain ⟨d1, h1, h2⟩ := C14_ssa_partial (drop := fun _ _ => false) H hc hl hknown hok (by intro r v h; cases h) hregs hplan
    slide out0 c k _ hrun
  obtain ⟨e, bs, g0, -, hf, hs, HG, rfl⟩ := lift_inv H hl
  obtain ⟨d2, h3, h4⟩ := run_patch hdrop hb (graph_ok (L := L) hf hs (hc.inhibited H) hc.edges hknown HG) k
    (start_patch out0 c) h1
  cases d1 with
  | «at» q b e => exact h2.elim
  | done v1 x =>
    cases d2 with
    | «at» q b e => exact h4.elim
    | done v2 y =>
      obtain ⟨rfl, a1, a2, a3⟩ := h2
      obtain ⟨rfl, b1, b2, b3⟩ := h4
      simp only [Refine.eq] at a1 a2 a3
      refine ⟨y, h3, a3.trans b1, a2.trans b2, fun r => ?_⟩
      rw [a1 r]; exact b3 r

end Verif.Lift

namespace Verif.Lift.RV64

open Verif.Decode Verif.IR Verif.RV64

/-- C65 for RV64: any number of `ll_func_decode_cfg` calls, any code, any call and system call functions (with a call
function, JAL must not have a destination other than `x0` and the link registers, `C09_jal_counterexample`). -/
theorem C65_rv64 {h : List (Call Frv)} {fn : Fn Frv} (H : Hist rvClassify h fn) (env : Env)
    (hall : DecodedWithCfg env.callFn.isSome h) (hdec : ∀ i ∈ fn.insts, Decoded i.payload)
    (hj : env.callFn = none ∨ ∀ i ∈ fn.insts, ¬ OddJal i.payload)
    {known : Bool} {slide : BitVec 64} {fold : Inst Frv → Option Bool} {g : Graph Frv}
    (hl : lift known (rvLifterC env slide fold).toSLifter fn = .ok g) :
    ParentsRight g ∧ ∀ regs : List RvReg, (∀ r, r ∈ regs) → ∀ fuel plan,
      optimizePacks (rvLifterC env slide fold) g (packIds fn) regs fuel = some plan →
      StoresRight (rvLifterC env slide fold) g plan slide ∧
      StoresRightDrop (· = none) (rvLifterC env slide fold) g plan slide :=
  have ht : ∀ i ∈ fn.insts, TargetsKnown rvClassify env.callFn.isSome (rvLifterC env slide fold).toSLifter i :=
    fun i hi => rvC_targets env slide fold i (hdec i hi) (hj.imp id fun h => h i hi)
  ⟨parents_right H hall hl ht, fun _ hr _ _ hp =>
    ⟨stores_right H hall hl ht (rvC_item env slide fold) hr hp slide,
      stores_right_drop H hall hl ht (rvC_item env slide fold) hr hp slide _⟩⟩

/-- The hypotheses are met by the loop with a call function and a system call. -/
example (slide : BitVec 64) : ∃ g plan, lift true (rvLifterC ccEnv slide noFold).toSLifter ccFn = .ok g ∧
    (∃ fuel, optimizePacks (rvLifterC ccEnv slide noFold) g (packIds ccFn) allRegs fuel = some plan) ∧
    ParentsRight g ∧ StoresRight (rvLifterC ccEnv slide noFold) g plan slide ∧ ccFn.insts.length = 6 := by
  obtain ⟨g, hg⟩ := cc_lifts slide
  obtain ⟨N, hN⟩ := C15_packs_terminate ccFn_hist hg allRegs
  obtain ⟨plan, hp⟩ := hN N (Nat.le_refl _)
  obtain ⟨h1, h2⟩ := C65_rv64 ccFn_hist ccEnv (by intro c hc; rw [List.mem_singleton.1 hc]; exact ⟨rfl, rfl⟩)
    (by rw [ccFn_insts]; decide) (.inr (by rw [ccFn_insts]; decide)) hg
  exact ⟨g, plan, hg, ⟨N, hp⟩, h1, (h2 _ mem_allRegs _ _ hp).1, by rw [ccFn_insts]; rfl⟩

end Verif.Lift.RV64

namespace Verif.Lift.A64

open Verif.Decode Verif.IR Verif.A64

/-- C65 for AArch64: any number of `ll_func_decode_cfg` calls, any code, any call and system call functions. -/
theorem C65_a64 (exc : Inst Instr → Bool) {h : List (Call Instr)} {fn : Fn Instr} (H : Hist (aClassify exc) h fn) (env : Env)
    (hall : DecodedWithCfg env.callFn.isSome h)
    {known : Bool} {slide : BitVec 64} {fold : Inst Instr → Option Bool} {g : Graph Instr}
    (hl : lift known (aLifter env slide fold).toSLifter fn = .ok g) :
    ParentsRight g ∧ ∀ regs : List AReg, (∀ r, r ∈ regs) → ∀ fuel plan,
      optimizePacks (aLifter env slide fold) g (packIds fn) regs fuel = some plan →
      StoresRight (aLifter env slide fold) g plan slide ∧
      StoresRightDrop (· = none) (aLifter env slide fold) g plan slide :=
  have ht : ∀ i ∈ fn.insts, TargetsKnown (aClassify exc) env.callFn.isSome (aLifter env slide fold).toSLifter i :=
    fun i _ => a_targets exc env slide fold i
  ⟨parents_right H hall hl ht, fun _ hr _ _ hp =>
    ⟨stores_right H hall hl ht (a_item env slide fold) hr hp slide,
      stores_right_drop H hall hl ht (a_item env slide fold) hr hp slide _⟩⟩

/-- The hypotheses are met by a loop with a call. -/
example (slide : BitVec 64) : ∃ g plan, lift true (aLifter loopEnv slide noFold).toSLifter loopFn = .ok g ∧
    (∃ fuel, optimizePacks (aLifter loopEnv slide noFold) g (packIds loopFn) allRegs fuel = some plan) ∧
    ParentsRight g ∧ StoresRight (aLifter loopEnv slide noFold) g plan slide := by
  obtain ⟨g, hg⟩ := loop_lifts slide
  obtain ⟨N, hN⟩ := C15_packs_terminate loopFn_hist hg allRegs
  obtain ⟨plan, hp⟩ := hN N (Nat.le_refl _)
  obtain ⟨h1, h2⟩ := C65_a64 noExc loopFn_hist loopEnv (by intro c hc; rw [List.mem_singleton.1 hc]; exact ⟨rfl, rfl⟩) hg
  exact ⟨g, plan, hg, ⟨N, hp⟩, h1, (h2 _ mem_allRegs _ _ hp).1⟩

end Verif.Lift.A64

namespace Verif.Lift.X86

open Verif.Decode Verif.IR Verif.X86

/-- C65 for x86-64: any number of `ll_func_decode_cfg` calls, any code, any call and system call functions (a system call
function must be set if there are SYSCALL instructions, `C09_syscall_counterexample`). -/
theorem C65_x86 (exc : Inst Instr → Bool) {h : List (Call Instr)} {fn : Fn Instr} (H : Hist (xClassify exc) h fn) (env : Env)
    (hall : DecodedWithCfg env.callFn.isSome h) (hsys : env.sysFn = none → ∀ i ∈ fn.insts, i.payload ≠ .syscall)
    {known : Bool} {slide : BitVec 64} {fold : Inst Instr → Option Bool} {g : Graph Instr}
    (hl : lift known (xLifter env slide fold).toSLifter fn = .ok g) :
    ParentsRight g ∧ ∀ regs : List XReg, (∀ r, r ∈ regs) → ∀ fuel plan,
      optimizePacks (xLifter env slide fold) g (packIds fn) regs fuel = some plan →
      StoresRight (xLifter env slide fold) g plan slide ∧
      StoresRightDrop (· = none) (xLifter env slide fold) g plan slide :=
  have ht : ∀ i ∈ fn.insts, TargetsKnown (xClassify exc) env.callFn.isSome (xLifter env slide fold).toSLifter i :=
    fun i hi => x_targets exc env slide fold i (fun h => hsys h i hi)
  ⟨parents_right H hall hl ht, fun _ hr _ _ hp =>
    ⟨stores_right H hall hl ht (x_item env slide fold) hr hp slide,
      stores_right_drop H hall hl ht (x_item env slide fold) hr hp slide _⟩⟩

/-- The hypotheses are met by a loop with a call. -/
example (slide : BitVec 64) : ∃ g plan, lift true (xLifter loopEnv slide noFold).toSLifter loopFn = .ok g ∧
    (∃ fuel, optimizePacks (xLifter loopEnv slide noFold) g (packIds loopFn) allRegs fuel = some plan) ∧
    ParentsRight g ∧ StoresRight (xLifter loopEnv slide noFold) g plan slide := by
  obtain ⟨g, hg⟩ := loop_lifts slide
  obtain ⟨N, hN⟩ := C15_packs_terminate loopFn_hist hg allRegs
  obtain ⟨plan, hp⟩ := hN N (Nat.le_refl _)
  obtain ⟨h1, h2⟩ := C65_x86 noExc loopFn_hist loopEnv (by intro c hc; rw [List.mem_singleton.1 hc]; exact ⟨rfl, rfl⟩)
    (fun _ => by rw [loopFn_insts]; decide) hg
  exact ⟨g, plan, hg, ⟨N, hp⟩, h1, (h2 _ mem_allRegs _ _ hp).1⟩

end Verif.Lift.X86
