import Verif.Lift.Override
import Verif.Lift.X86
import Verif.Lift.A64
import Verif.Lift.RV64Call

/-!
Instruction overrides (C57) and instruction markers (C58) for the three architectures, end to end.
-/

namespace Verif.Lift

open Verif.Decode Verif.IR Verif.Lift

set_option linter.unusedVariables false

namespace X86

open Verif.X86 Verif.X86.Spec

theorem x_override (exc : Inst Instr → Bool) {env : Env} {ext : Ext} (hx : ExtOK env ext)
    {code : Decoder Instr}
    {h : List (Call Instr)} {fn : Fn Instr} (H : Hist (xClassify exc) h fn)
    (hcalls : ∀ c ∈ h, c.dec = code) (hcount : Counted (xClassify exc) env.callFn.isSome h fn)
    (slide : BitVec 64)
    {ov : Inst Instr → Option (CPU XReg XVal XMem → Option (CPU XReg XVal XMem))}
    {gov : Inst Instr → Option (S → Option S)}
    (hov : OverridesOK (xClassify exc) (xGuest env ext) XRel slide Inst.stop fn.insts ov gov)
    (hpic : slide = 0 ∨ ∀ i ∈ fn.insts, ov i = none → handled i.payload = true)
    (hsys : env.sysFn = none → ∀ i ∈ fn.insts, ov i = none → i.payload ≠ .syscall)
    (fold : Inst Instr → Option Bool) :
    InstrOK (xClassify exc) env.callFn.isSome ((xLifter env slide fold).override Inst.stop ov)
      ((xGuest env ext).override gov) slide XRel (· = none) fn.insts := by
  exact InstrOK.override (fun i hi ho => x_correct hx _ _ i (hpic.imp id (fun h => h i hi ho)))
    (fun i _ _ => x_plain _ _ _ _ _ i)
    (fun i hi ho => x_targets _ _ _ _ i (fun h => hsys h i hi ho))
    (fun i => x_item _ _ _ i) x_patch hov

/-- C57 for x86-64: the function finds the address of the next instruction in the program counter, so one
that only changes registers and memory need not write it. Otherwise as `C09_x86_partial`: the lifted
function with overridden instructions is in step with the core on which these instructions do what the given
functions do.

Missing: the instructions missing in `C09_x86_partial`, if they are not overridden. -/
theorem C57_x86_partial (exc : Inst Instr → Bool) {env : Env} {ext : Ext} (hx : ExtOK env ext)
    {code : Decoder Instr}
    {h : List (Call Instr)} {fn : Fn Instr} (H : Hist (xClassify exc) h fn)
    (hcalls : ∀ c ∈ h, c.dec = code) (hcount : Counted (xClassify exc) env.callFn.isSome h fn)
    (slide : BitVec 64)
    {ov : Inst Instr → Option (CPU XReg XVal XMem → Option (CPU XReg XVal XMem))}
    {gov : Inst Instr → Option (S → Option S)}
    (hov : OverridesOK (xClassify exc) (xGuest env ext) XRel slide Inst.stop fn.insts ov gov)
    (hpic : slide = 0 ∨ ∀ i ∈ fn.insts, ov i = none → handled i.payload = true)
    (hsys : env.sysFn = none → ∀ i ∈ fn.insts, ov i = none → i.payload ≠ .syscall)
    (fold : Inst Instr → Option Bool) {known : Bool} {g : Graph Instr}
    (hl : lift known ((xLifter env slide fold).override Inst.stop ov).toSLifter fn = .ok g)
    {regs : List XReg} (hregs : ∀ r, r ∈ regs) {fuel : Nat} {plan : Plan XReg}
    (hplan : optimizePacks ((xLifter env slide fold).override Inst.stop ov)
      g (packIds fn) regs fuel = some plan)
    (hfold : ∀ c, FoldOK ((xLifter env slide fold).override Inst.stop ov) slide g c)
    {drop : XReg → XVal → Bool} (hdrop : ∀ r v, drop r v = true → v = none)
    (hblind : (∀ r v, drop r v = false) ∨
      ∀ f, (env.callFn = some f ∨ env.sysFn = some f ∨ ∃ i, ov i = some f) →
      ∀ c c' d, Patch (· = none) c c' → f c = some d → f c' = some d)
    {d : DInstr Instr} (hd : fn.instrs.head? = some d)
    (m : S) (hm : m.ip = d.inst.start + slide) (c : CPU XReg XVal XMem)
    (hc : XRel m c.slot c.mem) (hcpc : c.pc = some m.ip) (out0 : Id → XReg → XVal) (k : Nat) :
    (∃ k' < k, ∃ n m1 q a e, ((xGuest env ext).override gov).run code slide n m = some m1 ∧
      runSsa ((xLifter env slide fold).override Inst.stop ov) plan drop slide g k' (ssaStart out0 c)
        = some (.at q (.at a) e) ∧
      InStep g ((xGuest env ext).override gov) slide XRel m1 (.at q (.at a) e) ∧
      ∃ bb, g (.at a) = some bb ∧ ((xGuest env ext).override gov).StuckIn code slide bb.body m1) ∨
    ∃ n m1 x, ((xGuest env ext).override gov).run code slide n m = some m1 ∧
      runSsa ((xLifter env slide fold).override Inst.stop ov) plan drop slide g k (ssaStart out0 c) = some x ∧
      InStep g ((xGuest env ext).override gov) slide XRel m1 x ∧ Progress k n x :=
  (x_override exc hx H hcalls hcount slide hov hpic hsys fold).sim H hcalls hcount hl hregs hplan hfold hdrop
    (hblind.imp id fun hb => (x_blind fun f hf => hb f (hf.imp id .inl)).override
      fun i f hf => hb f (.inr (.inr ⟨i, hf⟩)))
    hd m hm c hc hcpc out0 k

/-- C58 for x86-64: the marker function gets the address of the end of the instruction. Whenever the lifted
function returns, the core has reached an instruction outside the proved set, or the CPU struct holds the
state of the core after some number of instructions, and the marker function has been called exactly once
for each of these instructions, in the order in which they were executed.

Missing: functions with instructions that cannot be lifted (`C58_failed_counterexample`), and the
instructions missing in `C09_x86_partial`, if they are not overridden. -/
theorem C58_x86_partial (exc : Inst Instr → Bool) {env : Env} {ext : Ext} (hx : ExtOK env ext)
    {code : Decoder Instr}
    {h : List (Call Instr)} {fn : Fn Instr} (H : Hist (xClassify exc) h fn)
    (hcalls : ∀ c ∈ h, c.dec = code) (hcount : Counted (xClassify exc) env.callFn.isSome h fn)
    (slide : BitVec 64)
    {ov : Inst Instr → Option (CPU XReg XVal XMem → Option (CPU XReg XVal XMem))}
    {gov : Inst Instr → Option (S → Option S)}
    (hov : OverridesOK (xClassify exc) (xGuest env ext) XRel slide Inst.stop fn.insts ov gov)
    (hpic : slide = 0 ∨ ∀ i ∈ fn.insts, ov i = none → handled i.payload = true)
    (hsys : env.sysFn = none → ∀ i ∈ fn.insts, ov i = none → i.payload ≠ .syscall)
    (hok : ∀ i ∈ fn.insts, (ov i).isSome = true ∨ handled i.payload = true)
    (fold : Inst Instr → Option Bool) {known : Bool} {g : Graph Instr}
    (hl : lift known (((xLifter env slide fold).override Inst.stop ov).mark slide Inst.stop).toSLifter fn = .ok g)
    {regs : List XReg} (hregs : ∀ r, r ∈ regs) {fuel : Nat} {plan : Plan XReg}
    (hplan : optimizePacks (((xLifter env slide fold).override Inst.stop ov).mark slide Inst.stop)
      g (packIds fn) regs fuel = some plan)
    (hfold : ∀ c, FoldOK (((xLifter env slide fold).override Inst.stop ov).mark slide Inst.stop) slide g c)
    {drop : XReg → XVal → Bool} (hdrop : ∀ r v, drop r v = true → v = none)
    (hblind : (∀ r v, drop r v = false) ∨
      ∀ f, (env.callFn = some f ∨ env.sysFn = some f ∨ ∃ i, ov i = some f) →
      ∀ c c' d, Patch (· = none) c c' → f c = some d → f c' = some d)
    {d : DInstr Instr} (hd : fn.instrs.head? = some d)
    (m : S) (hm : m.ip = d.inst.start + slide)
    (c : CPU XReg XVal (XMem × List (BitVec 64)))
    (hc : XRel m c.slot c.mem.1) (hcpc : c.pc = some m.ip) (out0 : Id → XReg → XVal) (k : Nat)
    (v : Bool) (c' : CPU XReg XVal (XMem × List (BitVec 64)))
    (hret : runSsa (((xLifter env slide fold).override Inst.stop ov).mark slide Inst.stop) plan drop slide g k
      (ssaStart out0 c) = some (.done v c')) :
    (∃ n m1 i, i ∈ fn.insts ∧ ((xGuest env ext).override gov).run code slide n m = some m1 ∧
      m1.ip = i.start + slide ∧ ((xGuest env ext).override gov).step i m1 = none) ∨
    ∃ n m1, ((xGuest env ext).override gov).run code slide n m = some m1 ∧ c'.pc = some m1.ip ∧
      XRel m1 c'.slot c'.mem.1 ∧
      c'.mem.2 = c.mem.2 ++ ((xGuest env ext).override gov).trace code slide Inst.stop n m :=
  (x_override exc hx H hcalls hcount slide hov hpic hsys fold).marker
    (fun i hi => by
      have := hok i hi
      simpa [Lifter.override, xLifter] using this) Inst.stop H hcalls hcount hl hregs hplan hfold hdrop
    (hblind.imp id fun hb => ((x_blind fun f hf => hb f (hf.imp id .inl)).override
      fun i f hf => hb f (.inr (.inr ⟨i, hf⟩))).mark slide _)
    hd m hm c hc hcpc out0 k v c' hret

end X86

namespace A64

open Verif.A64 Verif.A64.Spec

theorem a_override (exc : Inst Instr → Bool) {env : Env} {ext : Ext} (hx : ExtOK env ext)
    {code : Decoder Instr}
    {h : List (Call Instr)} {fn : Fn Instr} (H : Hist (aClassify exc) h fn)
    (hcalls : ∀ c ∈ h, c.dec = code) (hcount : Counted (aClassify exc) env.callFn.isSome h fn)
    (slide : BitVec 64)
    {ov : Inst Instr → Option (CPU AReg AVal AMem → Option (CPU AReg AVal AMem))}
    {gov : Inst Instr → Option (S → Option S)}
    (hov : OverridesOK (aClassify exc) (aGuest env ext slide) ARel slide Inst.start fn.insts ov gov)
    (hpic : slide = 0 ∨ ∀ i ∈ fn.insts, ov i = none → handled i.payload = true)
    (fold : Inst Instr → Option Bool) :
    InstrOK (aClassify exc) env.callFn.isSome ((aLifter env slide fold).override Inst.start ov)
      ((aGuest env ext slide).override gov) slide ARel (· = none) fn.insts := by
  exact InstrOK.override (fun i hi ho => a_correct hx _ _ i (hpic.imp id (fun h => h i hi ho)))
    (fun i _ _ => a_plain _ _ _ _ _ i)
    (fun i _ _ => a_targets _ _ _ _ i)
    (fun i => a_item _ _ _ i) a_patch hov

/-- C57 for AArch64: the function finds the address of the overridden instruction in the program counter and
has to advance it (`C57_rv64_pc_counterexample`). Otherwise as `C09_a64_partial`: the lifted function with
overridden instructions is in step with the core on which these instructions do what the given functions do.

Missing: the instructions missing in `C09_a64_partial`, if they are not overridden. -/
theorem C57_a64_partial (exc : Inst Instr → Bool) {env : Env} {ext : Ext} (hx : ExtOK env ext)
    {code : Decoder Instr}
    {h : List (Call Instr)} {fn : Fn Instr} (H : Hist (aClassify exc) h fn)
    (hcalls : ∀ c ∈ h, c.dec = code) (hcount : Counted (aClassify exc) env.callFn.isSome h fn)
    (slide : BitVec 64)
    {ov : Inst Instr → Option (CPU AReg AVal AMem → Option (CPU AReg AVal AMem))}
    {gov : Inst Instr → Option (S → Option S)}
    (hov : OverridesOK (aClassify exc) (aGuest env ext slide) ARel slide Inst.start fn.insts ov gov)
    (hpic : slide = 0 ∨ ∀ i ∈ fn.insts, ov i = none → handled i.payload = true)
    (fold : Inst Instr → Option Bool) {known : Bool} {g : Graph Instr}
    (hl : lift known ((aLifter env slide fold).override Inst.start ov).toSLifter fn = .ok g)
    {regs : List AReg} (hregs : ∀ r, r ∈ regs) {fuel : Nat} {plan : Plan AReg}
    (hplan : optimizePacks ((aLifter env slide fold).override Inst.start ov)
      g (packIds fn) regs fuel = some plan)
    (hfold : ∀ c, FoldOK ((aLifter env slide fold).override Inst.start ov) slide g c)
    {drop : AReg → AVal → Bool} (hdrop : ∀ r v, drop r v = true → v = none)
    (hblind : (∀ r v, drop r v = false) ∨
      ∀ f, (env.callFn = some f ∨ env.sysFn = some f ∨ ∃ i, ov i = some f) →
      ∀ c c' d, Patch (· = none) c c' → f c = some d → f c' = some d)
    {d : DInstr Instr} (hd : fn.instrs.head? = some d)
    (m : S) (hm : m.pc = d.inst.start + slide) (c : CPU AReg AVal AMem)
    (hc : ARel m c.slot c.mem) (hcpc : c.pc = some m.pc) (out0 : Id → AReg → AVal) (k : Nat) :
    (∃ k' < k, ∃ n m1 q a e, ((aGuest env ext slide).override gov).run code slide n m = some m1 ∧
      runSsa ((aLifter env slide fold).override Inst.start ov) plan drop slide g k' (ssaStart out0 c)
        = some (.at q (.at a) e) ∧
      InStep g ((aGuest env ext slide).override gov) slide ARel m1 (.at q (.at a) e) ∧
      ∃ bb, g (.at a) = some bb ∧ ((aGuest env ext slide).override gov).StuckIn code slide bb.body m1) ∨
    ∃ n m1 x, ((aGuest env ext slide).override gov).run code slide n m = some m1 ∧
      runSsa ((aLifter env slide fold).override Inst.start ov) plan drop slide g k (ssaStart out0 c) = some x ∧
      InStep g ((aGuest env ext slide).override gov) slide ARel m1 x ∧ Progress k n x :=
  (a_override exc hx H hcalls hcount slide hov hpic fold).sim H hcalls hcount hl hregs hplan hfold hdrop
    (hblind.imp id fun hb => (a_blind fun f hf => hb f (hf.imp id .inl)).override
      fun i f hf => hb f (.inr (.inr ⟨i, hf⟩)))
    hd m hm c hc hcpc out0 k

/-- C58 for AArch64: the marker function gets the address of the instruction. Whenever the lifted function
returns, the core has reached an instruction outside the proved set, or the CPU struct holds the state of
the core after some number of instructions, and the marker function has been called exactly once for each of
these instructions, in the order in which they were executed.

Missing: functions with instructions that cannot be lifted (`C58_failed_counterexample`), and the
instructions missing in `C09_a64_partial`, if they are not overridden. -/
theorem C58_a64_partial (exc : Inst Instr → Bool) {env : Env} {ext : Ext} (hx : ExtOK env ext)
    {code : Decoder Instr}
    {h : List (Call Instr)} {fn : Fn Instr} (H : Hist (aClassify exc) h fn)
    (hcalls : ∀ c ∈ h, c.dec = code) (hcount : Counted (aClassify exc) env.callFn.isSome h fn)
    (slide : BitVec 64)
    {ov : Inst Instr → Option (CPU AReg AVal AMem → Option (CPU AReg AVal AMem))}
    {gov : Inst Instr → Option (S → Option S)}
    (hov : OverridesOK (aClassify exc) (aGuest env ext slide) ARel slide Inst.start fn.insts ov gov)
    (hpic : slide = 0 ∨ ∀ i ∈ fn.insts, ov i = none → handled i.payload = true)
    (hok : ∀ i ∈ fn.insts, (ov i).isSome = true ∨ handled i.payload = true)
    (fold : Inst Instr → Option Bool) {known : Bool} {g : Graph Instr}
    (hl : lift known (((aLifter env slide fold).override Inst.start ov).mark slide Inst.start).toSLifter fn = .ok g)
    {regs : List AReg} (hregs : ∀ r, r ∈ regs) {fuel : Nat} {plan : Plan AReg}
    (hplan : optimizePacks (((aLifter env slide fold).override Inst.start ov).mark slide Inst.start)
      g (packIds fn) regs fuel = some plan)
    (hfold : ∀ c, FoldOK (((aLifter env slide fold).override Inst.start ov).mark slide Inst.start) slide g c)
    {drop : AReg → AVal → Bool} (hdrop : ∀ r v, drop r v = true → v = none)
    (hblind : (∀ r v, drop r v = false) ∨
      ∀ f, (env.callFn = some f ∨ env.sysFn = some f ∨ ∃ i, ov i = some f) →
      ∀ c c' d, Patch (· = none) c c' → f c = some d → f c' = some d)
    {d : DInstr Instr} (hd : fn.instrs.head? = some d)
    (m : S) (hm : m.pc = d.inst.start + slide)
    (c : CPU AReg AVal (AMem × List (BitVec 64)))
    (hc : ARel m c.slot c.mem.1) (hcpc : c.pc = some m.pc) (out0 : Id → AReg → AVal) (k : Nat)
    (v : Bool) (c' : CPU AReg AVal (AMem × List (BitVec 64)))
    (hret : runSsa (((aLifter env slide fold).override Inst.start ov).mark slide Inst.start) plan drop slide g k
      (ssaStart out0 c) = some (.done v c')) :
    (∃ n m1 i, i ∈ fn.insts ∧ ((aGuest env ext slide).override gov).run code slide n m = some m1 ∧
      m1.pc = i.start + slide ∧ ((aGuest env ext slide).override gov).step i m1 = none) ∨
    ∃ n m1, ((aGuest env ext slide).override gov).run code slide n m = some m1 ∧ c'.pc = some m1.pc ∧
      ARel m1 c'.slot c'.mem.1 ∧
      c'.mem.2 = c.mem.2 ++ ((aGuest env ext slide).override gov).trace code slide Inst.start n m :=
  (a_override exc hx H hcalls hcount slide hov hpic fold).marker
    (fun i hi => by
      have := hok i hi
      simpa [Lifter.override, aLifter] using this) Inst.start H hcalls hcount hl hregs hplan hfold hdrop
    (hblind.imp id fun hb => ((a_blind fun f hf => hb f (hf.imp id .inl)).override
      fun i f hf => hb f (.inr (.inr ⟨i, hf⟩))).mark slide _)
    hd m hm c hc hcpc out0 k v c' hret

end A64

namespace RV64

open Verif.RV64

theorem rvC_override {env : Env} {ext : Ext} (hx : ExtOK env ext)
    {code : Decoder Frv}
    (hcode : ∀ a len p, code a = some (len, p) → Decoded p)
    {h : List (Call Frv)} {fn : Fn Frv} (H : Hist rvClassify h fn)
    (hcalls : ∀ c ∈ h, c.dec = code) (hcount : Counted rvClassify env.callFn.isSome h fn)
    (slide : BitVec 64)
    {ov : Inst Frv → Option (CPU RvReg (Val 64) VMem → Option (CPU RvReg (Val 64) VMem))}
    {gov : Inst Frv → Option (Spec.State → Option Spec.State)}
    (hov : OverridesOK rvClassify (rvGuestC env ext slide) rvRelF slide Inst.start fn.insts ov gov)
    (hjal : env.callFn = none ∨ ∀ i ∈ fn.insts, ov i = none → ¬ OddJal i.payload)
    (hpic : slide = 0 ∨ ∀ i ∈ fn.insts, ov i = none → handled i.payload = true)
    (fold : Inst Frv → Option Bool) :
    InstrOK rvClassify env.callFn.isSome ((rvLifterC env slide fold).override Inst.start ov)
      ((rvGuestC env ext slide).override gov) slide rvRelF (· = none) fn.insts := by
  have hdec : ∀ i ∈ fn.insts, Decoded i.payload := by
    intro i hi
    obtain ⟨c, hc, hd⟩ := C01_genuine H i hi
    rw [hcalls c hc] at hd
    exact hcode _ _ _ hd
  exact InstrOK.override (fun i hi ho => rvC_correct hx _ _ i (hdec i hi) (hpic.imp id (fun h => h i hi ho)))
    (fun i _ _ => rvC_plain _ _ _ _ i)
    (fun i hi ho => rvC_targets _ _ _ i (hdec i hi) (hjal.imp id (fun h => h i hi ho)))
    (fun i => rvC_item _ _ _ i) rvC_patch hov

/-- C57 for RV64: the function finds the address of the overridden instruction in the program counter and
has to advance it (`C57_rv64_pc_counterexample`). Otherwise as `C09_rv64_call_partial`: the lifted function
with overridden instructions is in step with the core on which these instructions do what the given
functions do.

Missing: the instructions missing in `C09_rv64_call_partial`, if they are not overridden. -/
theorem C57_rv64_partial {env : Env} {ext : Ext} (hx : ExtOK env ext)
    {code : Decoder Frv}
    (hcode : ∀ a len p, code a = some (len, p) → Decoded p)
    {h : List (Call Frv)} {fn : Fn Frv} (H : Hist rvClassify h fn)
    (hcalls : ∀ c ∈ h, c.dec = code) (hcount : Counted rvClassify env.callFn.isSome h fn)
    (slide : BitVec 64)
    {ov : Inst Frv → Option (CPU RvReg (Val 64) VMem → Option (CPU RvReg (Val 64) VMem))}
    {gov : Inst Frv → Option (Spec.State → Option Spec.State)}
    (hov : OverridesOK rvClassify (rvGuestC env ext slide) rvRelF slide Inst.start fn.insts ov gov)
    (hjal : env.callFn = none ∨ ∀ i ∈ fn.insts, ov i = none → ¬ OddJal i.payload)
    (hpic : slide = 0 ∨ ∀ i ∈ fn.insts, ov i = none → handled i.payload = true)
    (fold : Inst Frv → Option Bool) {known : Bool} {g : Graph Frv}
    (hl : lift known ((rvLifterC env slide fold).override Inst.start ov).toSLifter fn = .ok g)
    {regs : List RvReg} (hregs : ∀ r, r ∈ regs) {fuel : Nat} {plan : Plan RvReg}
    (hplan : optimizePacks ((rvLifterC env slide fold).override Inst.start ov)
      g (packIds fn) regs fuel = some plan)
    (hfold : ∀ c, FoldOK ((rvLifterC env slide fold).override Inst.start ov) slide g c)
    {drop : RvReg → (Val 64) → Bool} (hdrop : ∀ r v, drop r v = true → v = none)
    (hblind : (∀ r v, drop r v = false) ∨
      ∀ f, (env.callFn = some f ∨ env.sysFn = some f ∨ ∃ i, ov i = some f) →
      ∀ c c' d, Patch (· = none) c c' → f c = some d → f c' = some d)
    {d : DInstr Frv} (hd : fn.instrs.head? = some d)
    (m : Spec.State) (hm : m.pc = d.inst.start + slide) (c : CPU RvReg (Val 64) VMem)
    (hc : rvRelF m c.slot c.mem) (hcpc : c.pc = some m.pc) (out0 : Id → RvReg → (Val 64)) (k : Nat) :
    (∃ k' < k, ∃ n m1 q a e, ((rvGuestC env ext slide).override gov).run code slide n m = some m1 ∧
      runSsa ((rvLifterC env slide fold).override Inst.start ov) plan drop slide g k' (ssaStart out0 c)
        = some (.at q (.at a) e) ∧
      InStep g ((rvGuestC env ext slide).override gov) slide rvRelF m1 (.at q (.at a) e) ∧
      ∃ bb, g (.at a) = some bb ∧ ((rvGuestC env ext slide).override gov).StuckIn code slide bb.body m1) ∨
    ∃ n m1 x, ((rvGuestC env ext slide).override gov).run code slide n m = some m1 ∧
      runSsa ((rvLifterC env slide fold).override Inst.start ov) plan drop slide g k (ssaStart out0 c) = some x ∧
      InStep g ((rvGuestC env ext slide).override gov) slide rvRelF m1 x ∧ Progress k n x :=
  (rvC_override hx hcode H hcalls hcount slide hov hjal hpic fold).sim H hcalls hcount hl hregs hplan hfold hdrop
    (hblind.imp id fun hb => (rvC_blind fun f hf => hb f (hf.imp id .inl)).override
      fun i f hf => hb f (.inr (.inr ⟨i, hf⟩)))
    hd m hm c hc hcpc out0 k

/-- C58 for RV64: the marker function gets the address of the instruction. Whenever the lifted function
returns, the core has reached an instruction outside the proved set, or the CPU struct holds the state of
the core after some number of instructions, and the marker function has been called exactly once for each of
these instructions, in the order in which they were executed.

Missing: functions with instructions that cannot be lifted (`C58_failed_counterexample`), and the
instructions missing in `C09_rv64_call_partial`, if they are not overridden. -/
theorem C58_rv64_partial {env : Env} {ext : Ext} (hx : ExtOK env ext)
    {code : Decoder Frv}
    (hcode : ∀ a len p, code a = some (len, p) → Decoded p)
    {h : List (Call Frv)} {fn : Fn Frv} (H : Hist rvClassify h fn)
    (hcalls : ∀ c ∈ h, c.dec = code) (hcount : Counted rvClassify env.callFn.isSome h fn)
    (slide : BitVec 64)
    {ov : Inst Frv → Option (CPU RvReg (Val 64) VMem → Option (CPU RvReg (Val 64) VMem))}
    {gov : Inst Frv → Option (Spec.State → Option Spec.State)}
    (hov : OverridesOK rvClassify (rvGuestC env ext slide) rvRelF slide Inst.start fn.insts ov gov)
    (hjal : env.callFn = none ∨ ∀ i ∈ fn.insts, ov i = none → ¬ OddJal i.payload)
    (hpic : slide = 0 ∨ ∀ i ∈ fn.insts, ov i = none → handled i.payload = true)
    (hok : ∀ i ∈ fn.insts, (ov i).isSome = true ∨ handled i.payload = true)
    (fold : Inst Frv → Option Bool) {known : Bool} {g : Graph Frv}
    (hl : lift known (((rvLifterC env slide fold).override Inst.start ov).mark slide Inst.start).toSLifter fn = .ok g)
    {regs : List RvReg} (hregs : ∀ r, r ∈ regs) {fuel : Nat} {plan : Plan RvReg}
    (hplan : optimizePacks (((rvLifterC env slide fold).override Inst.start ov).mark slide Inst.start)
      g (packIds fn) regs fuel = some plan)
    (hfold : ∀ c, FoldOK (((rvLifterC env slide fold).override Inst.start ov).mark slide Inst.start) slide g c)
    {drop : RvReg → (Val 64) → Bool} (hdrop : ∀ r v, drop r v = true → v = none)
    (hblind : (∀ r v, drop r v = false) ∨
      ∀ f, (env.callFn = some f ∨ env.sysFn = some f ∨ ∃ i, ov i = some f) →
      ∀ c c' d, Patch (· = none) c c' → f c = some d → f c' = some d)
    {d : DInstr Frv} (hd : fn.instrs.head? = some d)
    (m : Spec.State) (hm : m.pc = d.inst.start + slide)
    (c : CPU RvReg (Val 64) (VMem × List (BitVec 64)))
    (hc : rvRelF m c.slot c.mem.1) (hcpc : c.pc = some m.pc) (out0 : Id → RvReg → (Val 64)) (k : Nat)
    (v : Bool) (c' : CPU RvReg (Val 64) (VMem × List (BitVec 64)))
    (hret : runSsa (((rvLifterC env slide fold).override Inst.start ov).mark slide Inst.start) plan drop slide g k
      (ssaStart out0 c) = some (.done v c')) :
    (∃ n m1 i, i ∈ fn.insts ∧ ((rvGuestC env ext slide).override gov).run code slide n m = some m1 ∧
      m1.pc = i.start + slide ∧ ((rvGuestC env ext slide).override gov).step i m1 = none) ∨
    ∃ n m1, ((rvGuestC env ext slide).override gov).run code slide n m = some m1 ∧ c'.pc = some m1.pc ∧
      rvRelF m1 c'.slot c'.mem.1 ∧
      c'.mem.2 = c.mem.2 ++ ((rvGuestC env ext slide).override gov).trace code slide Inst.start n m :=
  (rvC_override hx hcode H hcalls hcount slide hov hjal hpic fold).marker
    (fun i hi => by
      have := hok i hi
      simpa [Lifter.override, rvLifterC] using this) Inst.start H hcalls hcount hl hregs hplan hfold hdrop
    (hblind.imp id fun hb => ((rvC_blind fun f hf => hb f (hf.imp id .inl)).override
      fun i f hf => hb f (.inr (.inr ⟨i, hf⟩))).mark slide _)
    hd m hm c hc hcpc out0 k v c' hret

end RV64

end Verif.Lift
