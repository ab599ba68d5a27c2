import Verif.Lift.Returns
import Verif.Lift.X86
import Verif.Lift.A64
import Verif.Lift.RV64Call

/-!
Chains of lifted functions (C59, C60) and the dispatcher as call function (C61) for the three architectures.
-/

namespace Verif.Lift

open Verif.Decode
open Verif.IR hiding Addr

theorem Shortcut.of_calls {P MS : Type} {G' G : Guest P MS} {code : Decoder P} {slide : BitVec 64} (hpc : G'.pc = G.pc)
    (h : ∀ i m m', G'.step i m = some m' →
      ∃ m1, G.step i m = some m1 ∧ (m' = m1 ∨ ∃ n, G.run code slide n m1 = some m')) :
    Shortcut G' G code slide := by
  refine ⟨hpc, fun i m m' hi hm hst => ?_⟩
  obtain ⟨m1, h1, h2⟩ := h i m m' hst
  have hr : G.run code slide 1 m = some m1 := by
    simp only [Guest.run, next_eq hi (hpc ▸ hm), h1, Option.bind_some]
  rcases h2 with rfl | ⟨n, h2⟩
  · exact ⟨1, Nat.le_refl _, hr⟩
  · exact ⟨1 + n, by omega, run_trans hr h2⟩

namespace X86

open Verif.X86 Verif.X86.Spec

/-- The function was lifted from the code at address `a` in this configuration. If it is executed elsewhere, all
instructions could be lifted; there is no SYSCALL without a system call function. -/
def XUnit (exc : Inst Instr → Bool) (env : Env) (slide : BitVec 64) (code : Decoder Instr) (a : Addr)
    (u : Compiled Instr XReg XVal XMem) : Prop :=
  (∃ fold, u.lifter = xLifter env slide fold) ∧
  u.FromCode (xClassify exc ) env.callFn.isSome code slide (fun is =>
    (slide = 0 ∨ ∀ i ∈ is, handled i.payload = true) ∧ (env.sysFn = none → ∀ i ∈ is, i.payload ≠ .syscall)) a

theorem XUnit.inSync (exc : Inst Instr → Bool) {env : Env} {ext : Ext} (hx : ExtOK env ext) {slide : BitVec 64}
    {code : Decoder Instr} {a : Addr} {u : Compiled Instr XReg XVal XMem}
    (hu : XUnit exc env slide code a u) {drop : XReg → XVal → Bool} (hdrop : ∀ r v, drop r v = true → v = none)
    (hblind : (∀ r v, drop r v = false) ∨ ∀ f, env.callFn = some f ∨ env.sysFn = some f →
      ∀ c c' d, Patch (· = none) c c' → f c = some d → f c' = some d) :
    u.InSync (xGuest env ext) code slide XRel drop a := by
  obtain ⟨⟨fold, hl⟩, hu⟩ := hu
  refine hu.inSync (undef := (· = none)) ?_ hdrop (hblind.imp id fun hb => by rw [hl]; exact x_blind hb)
  intro is hside hgen
  rw [hl]
  exact ⟨fun i hi => x_correct hx _ _ i (hside.1.imp id (fun h => h i hi)), fun i _ => x_plain _ _ _ _ _ i,
    fun i hi => x_targets _ _ _ _ i (fun h => hside.2 h i hi), fun i => x_item _ _ _ i, x_patch⟩

/-- C59 for x86-64: run a program with functions lifted from its code, called by a loop (`again = fun _ => true`) or with the
dispatcher as tail function (`again = id`).  The CPU struct holds the state of a core.  After any number of
steps, either the core has reached an instruction outside the proved set in a block that lifted code was
executing, or there has been no undefined behaviour, and the core after some number of instructions is in the
state that the lifted code or the CPU struct has.

Missing: the instructions missing in `C09_x86_partial`. -/
theorem C59_x86_partial (exc : Inst Instr → Bool) {env : Env} {ext : Ext} (hx : ExtOK env ext) {slide : BitVec 64}
    {code : Decoder Instr} {T : Addr → Option (Compiled Instr XReg XVal XMem)}
    (hT : ∀ a u, T a = some u → XUnit exc env slide code a u)
    {drop : XReg → XVal → Bool} (hdrop : ∀ r v, drop r v = true → v = none)
    (hblind : (∀ r v, drop r v = false) ∨ ∀ f, env.callFn = some f ∨ env.sysFn = some f →
      ∀ c c' d, Patch (· = none) c c' → f c = some d → f c' = some d)
    (again : Bool → Bool) (out0 : CPU XReg XVal XMem → Id → XReg → XVal)
    (m : S) (c : CPU XReg XVal XMem) (hc : XRel m c.slot c.mem) (hcpc : c.pc = some m.ip) (K : Nat) :
    (∃ K' < K, ∃ n m1 x, (xGuest env ext).run code slide n m = some m1 ∧
      runChain T again drop slide out0 K' (.out c) = some x ∧
      ChainStuck (xGuest env ext) code slide XRel m1 x) ∨
    ∃ n m1 x, (xGuest env ext).run code slide n m = some m1 ∧
      runChain T again drop slide out0 K (.out c) = some x ∧
      ChainSync (xGuest env ext) slide XRel m1 x :=
  C59_chain_partial (fun a u h => (hT a u h).inSync _ hx hdrop hblind) m c hc hcpc K

/-- C60 for x86-64: two CPU structs hold the same state of a core and may differ in everything else, such as
flags that are unknown.  After any number of steps, either the core has reached an instruction outside the proved set in a
block that lifted code was executing in both cases, or both executions stand at the same place, without
undefined behaviour, and have the same state of the core.

Missing: the instructions missing in `C09_x86_partial`. -/
theorem C60_x86_partial (exc : Inst Instr → Bool) {env : Env} {ext : Ext} (hx : ExtOK env ext) {slide : BitVec 64}
    {code : Decoder Instr} {T : Addr → Option (Compiled Instr XReg XVal XMem)}
    (hT : ∀ a u, T a = some u → XUnit exc env slide code a u)
    {drop : XReg → XVal → Bool} (hdrop : ∀ r v, drop r v = true → v = none)
    (hblind : (∀ r v, drop r v = false) ∨ ∀ f, env.callFn = some f ∨ env.sysFn = some f →
      ∀ c c' d, Patch (· = none) c c' → f c = some d → f c' = some d)
    (again : Bool → Bool) (out0 out0' : CPU XReg XVal XMem → Id → XReg → XVal)
    (m : S) (c c' : CPU XReg XVal XMem) (hc : XRel m c.slot c.mem) (hcpc : c.pc = some m.ip)
    (hc' : XRel m c'.slot c'.mem) (hcpc' : c'.pc = some m.ip) (K : Nat) :
    BothStuck T again drop slide out0 out0' (xGuest env ext) code XRel m c c' K ∨
    ∃ n m1 x x', (xGuest env ext).run code slide n m = some m1 ∧
      runChain T again drop slide out0 K (.out c) = some x ∧
      runChain T again drop slide out0' K (.out c') = some x' ∧
      ChainSync (xGuest env ext) slide XRel m1 x ∧ ChainSync (xGuest env ext) slide XRel m1 x' ∧ ChainSame x x' :=
  C60_chain_partial (fun a u h => (hT a u h).inSync _ hx hdrop hblind) m c c' hc hcpc hc' hcpc' K

/-- A return instruction. -/
def isRet (i : Inst Instr) : Bool :=
  match i.payload with
  | .ret _ => true
  | _ => false

theorem isRet_ret {i : Inst Instr} (h : isRet i = true) : ∃ n, i.payload = .ret n := by
  unfold isRet at h
  cases hp : i.payload <;> rw [hp] at h <;> first | exact ⟨_, rfl⟩ | cases h

theorem form_returned {call sys : Bool} {p : Instr} {stop : BitVec 64} (h : form call sys p stop = .returned) :
    ∃ n, p = .ret n := by
  cases p
  case ret n => exact ⟨n, rfl⟩
  case callRel => cases call <;> cases h
  case call => cases call <;> cases h
  case syscall => cases sys <;> cases h
  all_goals cases h

/-- The core that runs called functions by the call function `f`. -/
noncomputable abbrev calling (env : Env) (ext : Ext) (f : S → Option S) : Guest Instr S :=
  xGuest { env with callFn := some fun _ => none } { ext with callee := f }

/-- The core that executes every instruction itself. -/
noncomputable abbrev plain (env : Env) (ext : Ext) : Guest Instr S :=
  xGuest { env with callFn := none } ext

theorem shortcut (env : Env) (ext : Ext) (slide : BitVec 64) (code : Decoder Instr) (f : S → Option S)
    (hf : ∀ m m', f m = some m' → ∃ n, (plain env ext).run code slide n m = some m') :
    Shortcut (calling env ext f) (plain env ext) code slide := by
  refine .of_calls rfl fun i m m' hst => ?_
  simp only [calling, plain, xGuest] at hst ⊢
  split at hst
  next hp => rw [if_pos hp]; exact ⟨m', hst, .inl rfl⟩
  next hp =>
  rw [if_neg hp]
  split at hst
  next hq => rw [if_pos hq]; exact ⟨m', hst, .inl rfl⟩
  next hq =>
  rw [if_neg hq]
  split at hst
  next hs =>
    obtain ⟨m1, h1, h2⟩ := Option.bind_eq_some_iff.1 hst
    refine ⟨m1, ?_, ?_⟩
    · split
      · refine Option.bind_eq_some_iff.2 ⟨m1, h1, ?_⟩
        simp only [xTail]
        split <;> rfl
      next hns => exact absurd hs hns
    · simp only [xTail] at h2
      split at h2
      · exact .inr (hf _ _ h2)
      · exact .inr (hf _ _ h2)
      · exact .inl (Option.some.inj h2).symm
  · cases hst

/-- C61 for x86-64: lifted functions call the dispatcher for calls and as tail function, and the dispatcher runs
functions lifted from the same code.  If the core, in the state that the CPU struct holds, returns from the
function it is in, where calls are nested at most `j` deep, the dispatcher returns with the state of the
core in the CPU struct; and the core that executes every instruction itself reaches this state.  The dispatcher has
a function for the address of every instruction that the core can execute.

Missing: the instructions missing in `C09_x86_partial`; omission of stores of undefined values. -/
theorem C61_x86_partial (exc : Inst Instr → Bool) {env : Env} {ext : Ext} (hsys : ∀ g, env.sysFn = some g → Implements g ext.sys)
    (hnosys : env.sysFn = none → ext.sys = some) (hid : Identifies env.cfg ext.id)
    {slide : BitVec 64}
    {code : Decoder Instr} 
    {T : (CPU XReg XVal XMem → Option (CPU XReg XVal XMem)) → Addr → Option (Compiled Instr XReg XVal XMem)}
    (hT : ∀ g a u, T g a = some u → XUnit exc { env with callFn := some g } slide code a u)
    (hcov : ∀ g f i m m', code i.start = some (i.len, i.payload) → m.ip = i.start + slide →
      (calling env ext f).step i m = some m' → (T g i.start).isSome)
    (out0 : CPU XReg XVal XMem → Id → XReg → XVal) (j : Nat)
    (m m' : S) (hcall : guestCall (calling env ext) code slide isRet j m = some m')
    (c : CPU XReg XVal XMem) (hc : XRel m c.slot c.mem) (hcpc : c.pc = some m.ip) :
    (∃ c', dispatch T (fun _ _ => false) slide out0 j c = some c' ∧ XRel m' c'.slot c'.mem ∧
      c'.pc = some m'.ip) ∧
    ∃ n, 1 ≤ n ∧ (plain env ext).run code slide n m = some m' := by
  refine ⟨C61_nested_partial (G := calling env ext) (pc := fun m => m.ip) (fun _ => rfl) ?_ hcov j m m' c hc
    hcpc hcall, C61_base_partial (shortcut env ext slide code) j m m' hcall⟩
  intro g f hg a u hu
  have hu := hT g a u hu
  refine ⟨hu.inSync _ (env := { env with callFn := some g }) (ext := { ext with callee := f }) ⟨fun g' h => by obtain rfl := Option.some.inj h; exact hg, hsys, hnosys, hid⟩
    (by simp) (.inl fun _ _ => rfl), ?_⟩
  obtain ⟨⟨fold, hl⟩, hu⟩ := hu
  refine hu.retGraph ?_ ?_
  · intro i hi hok
    rw [hl] at hok ⊢
    constructor
    · intro h
      obtain ⟨n, h⟩ := form_returned h
      unfold isRet
      rw [h]
    · intro h
      obtain ⟨n, hp⟩ := isRet_ret h
      show form _ _ i.payload _ = _
      rw [hp]
      rfl
  · intro i hok
    rw [hl] at hok ⊢
    intro h
    obtain ⟨n, h⟩ := form_returned h
    rw [show (xLifter _ _ _).ok i = handled i.payload from rfl, h] at hok
    cases hok

end X86

namespace A64

open Verif.A64 Verif.A64.Spec

/-- The function was lifted from the code at address `a` in this configuration. If it is executed elsewhere, all
instructions could be lifted. -/
def AUnit (exc : Inst Instr → Bool) (env : Env) (slide : BitVec 64) (code : Decoder Instr) (a : Addr)
    (u : Compiled Instr AReg AVal AMem) : Prop :=
  (∃ fold, u.lifter = aLifter env slide fold) ∧
  u.FromCode (aClassify exc ) env.callFn.isSome code slide (fun is =>
    slide = 0 ∨ ∀ i ∈ is, handled i.payload = true) a

theorem AUnit.inSync (exc : Inst Instr → Bool) {env : Env} {ext : Ext} (hx : ExtOK env ext) {slide : BitVec 64}
    {code : Decoder Instr} {a : Addr} {u : Compiled Instr AReg AVal AMem}
    (hu : AUnit exc env slide code a u) {drop : AReg → AVal → Bool} (hdrop : ∀ r v, drop r v = true → v = none)
    (hblind : (∀ r v, drop r v = false) ∨ ∀ f, env.callFn = some f ∨ env.sysFn = some f →
      ∀ c c' d, Patch (· = none) c c' → f c = some d → f c' = some d) :
    u.InSync (aGuest env ext slide) code slide ARel drop a := by
  obtain ⟨⟨fold, hl⟩, hu⟩ := hu
  refine hu.inSync (undef := (· = none)) ?_ hdrop (hblind.imp id fun hb => by rw [hl]; exact a_blind hb)
  intro is hside hgen
  rw [hl]
  exact ⟨fun i hi => a_correct hx _ _ i (hside.imp id (fun h => h i hi)), fun i _ => a_plain _ _ _ _ _ i,
    fun i _ => a_targets _ _ _ _ i, fun i => a_item _ _ _ i, a_patch⟩

/-- C59 for AArch64: run a program with functions lifted from its code, called by a loop (`again = fun _ => true`) or with the
dispatcher as tail function (`again = id`).  The CPU struct holds the state of a core.  After any number of
steps, either the core has reached an instruction outside the proved set in a block that lifted code was
executing, or there has been no undefined behaviour, and the core after some number of instructions is in the
state that the lifted code or the CPU struct has.

Missing: the instructions missing in `C09_a64_partial`. -/
theorem C59_a64_partial (exc : Inst Instr → Bool) {env : Env} {ext : Ext} (hx : ExtOK env ext) {slide : BitVec 64}
    {code : Decoder Instr} {T : Addr → Option (Compiled Instr AReg AVal AMem)}
    (hT : ∀ a u, T a = some u → AUnit exc env slide code a u)
    {drop : AReg → AVal → Bool} (hdrop : ∀ r v, drop r v = true → v = none)
    (hblind : (∀ r v, drop r v = false) ∨ ∀ f, env.callFn = some f ∨ env.sysFn = some f →
      ∀ c c' d, Patch (· = none) c c' → f c = some d → f c' = some d)
    (again : Bool → Bool) (out0 : CPU AReg AVal AMem → Id → AReg → AVal)
    (m : S) (c : CPU AReg AVal AMem) (hc : ARel m c.slot c.mem) (hcpc : c.pc = some m.pc) (K : Nat) :
    (∃ K' < K, ∃ n m1 x, (aGuest env ext slide).run code slide n m = some m1 ∧
      runChain T again drop slide out0 K' (.out c) = some x ∧
      ChainStuck (aGuest env ext slide) code slide ARel m1 x) ∨
    ∃ n m1 x, (aGuest env ext slide).run code slide n m = some m1 ∧
      runChain T again drop slide out0 K (.out c) = some x ∧
      ChainSync (aGuest env ext slide) slide ARel m1 x :=
  C59_chain_partial (fun a u h => (hT a u h).inSync _ hx hdrop hblind) m c hc hcpc K

/-- C60 for AArch64: two CPU structs hold the same state of a core and may differ in everything else, such as
flags that are unknown.  After any number of steps, either the core has reached an instruction outside the proved set in a
block that lifted code was executing in both cases, or both executions stand at the same place, without
undefined behaviour, and have the same state of the core.

Missing: the instructions missing in `C09_a64_partial`. -/
theorem C60_a64_partial (exc : Inst Instr → Bool) {env : Env} {ext : Ext} (hx : ExtOK env ext) {slide : BitVec 64}
    {code : Decoder Instr} {T : Addr → Option (Compiled Instr AReg AVal AMem)}
    (hT : ∀ a u, T a = some u → AUnit exc env slide code a u)
    {drop : AReg → AVal → Bool} (hdrop : ∀ r v, drop r v = true → v = none)
    (hblind : (∀ r v, drop r v = false) ∨ ∀ f, env.callFn = some f ∨ env.sysFn = some f →
      ∀ c c' d, Patch (· = none) c c' → f c = some d → f c' = some d)
    (again : Bool → Bool) (out0 out0' : CPU AReg AVal AMem → Id → AReg → AVal)
    (m : S) (c c' : CPU AReg AVal AMem) (hc : ARel m c.slot c.mem) (hcpc : c.pc = some m.pc)
    (hc' : ARel m c'.slot c'.mem) (hcpc' : c'.pc = some m.pc) (K : Nat) :
    BothStuck T again drop slide out0 out0' (aGuest env ext slide) code ARel m c c' K ∨
    ∃ n m1 x x', (aGuest env ext slide).run code slide n m = some m1 ∧
      runChain T again drop slide out0 K (.out c) = some x ∧
      runChain T again drop slide out0' K (.out c') = some x' ∧
      ChainSync (aGuest env ext slide) slide ARel m1 x ∧ ChainSync (aGuest env ext slide) slide ARel m1 x' ∧ ChainSame x x' :=
  C60_chain_partial (fun a u h => (hT a u h).inSync _ hx hdrop hblind) m c c' hc hcpc hc' hcpc' K

/-- A return instruction. -/
def isRet (i : Inst Instr) : Bool :=
  match i.payload with
  | .ret _ => true
  | _ => false

theorem isRet_ret {i : Inst Instr} (h : isRet i = true) : ∃ n, i.payload = .ret n := by
  unfold isRet at h
  cases hp : i.payload <;> rw [hp] at h <;> first | exact ⟨_, rfl⟩ | cases h

theorem form_returned {call : Bool} {p : Instr} {start stop : BitVec 64} (h : form call p start stop = .returned) :
    ∃ n, p = .ret n := by
  have hh : (if handled p then Form.const stop else .value) ≠ .returned := by split <;> simp
  cases p
  case ret n => exact ⟨n, rfl⟩
  case bl => cases call <;> cases h
  case blr => cases call <;> cases h
  all_goals first | exact absurd h hh | cases h

/-- The core that runs called functions by the call function `f`. -/
noncomputable abbrev calling (env : Env) (ext : Ext) (slide : BitVec 64) (f : S → Option S) : Guest Instr S :=
  aGuest { env with callFn := some fun _ => none } { ext with callee := f } slide

/-- The core that executes every instruction itself. -/
noncomputable abbrev plain (env : Env) (ext : Ext) (slide : BitVec 64) : Guest Instr S :=
  aGuest { env with callFn := none } ext slide

theorem shortcut (env : Env) (ext : Ext) (slide : BitVec 64) (code : Decoder Instr) (f : S → Option S)
    (hf : ∀ m m', f m = some m' → ∃ n, (plain env ext slide).run code slide n m = some m') :
    Shortcut (calling env ext slide f) (plain env ext slide) code slide := by
  refine .of_calls rfl fun i m m' hst => ?_
  simp only [calling, plain, aGuest] at hst ⊢
  split at hst
  next hp => rw [if_pos hp]; exact ⟨m', hst, .inl rfl⟩
  next hp =>
  rw [if_neg hp]
  split at hst
  next hs =>
    obtain ⟨m1, h1, h2⟩ := Option.bind_eq_some_iff.1 hst
    refine ⟨m1, ?_, ?_⟩
    · split
      · refine Option.bind_eq_some_iff.2 ⟨m1, h1, ?_⟩
        simp only [aTail]
        split <;> rfl
      next hns => exact absurd hs hns
    · simp only [aTail] at h2
      split at h2
      · exact .inr (hf _ _ h2)
      · exact .inr (hf _ _ h2)
      · exact .inl (Option.some.inj h2).symm
  · cases hst

/-- C61 for AArch64: lifted functions call the dispatcher for calls and as tail function, and the dispatcher runs
functions lifted from the same code.  If the core, in the state that the CPU struct holds, returns from the
function it is in, where calls are nested at most `j` deep, the dispatcher returns with the state of the
core in the CPU struct; and the core that executes every instruction itself reaches this state.  The dispatcher has
a function for the address of every instruction that the core can execute.

Missing: the instructions missing in `C09_a64_partial`; omission of stores of undefined values. -/
theorem C61_a64_partial (exc : Inst Instr → Bool) {env : Env} {ext : Ext} (hsys : ∀ g, env.sysFn = some g → Implements g ext.sys)
    (hnosys : env.sysFn = none → ext.sys = some)
    {slide : BitVec 64}
    {code : Decoder Instr} 
    {T : (CPU AReg AVal AMem → Option (CPU AReg AVal AMem)) → Addr → Option (Compiled Instr AReg AVal AMem)}
    (hT : ∀ g a u, T g a = some u → AUnit exc { env with callFn := some g } slide code a u)
    (hcov : ∀ g f i m m', code i.start = some (i.len, i.payload) → m.pc = i.start + slide →
      (calling env ext slide f).step i m = some m' → (T g i.start).isSome)
    (out0 : CPU AReg AVal AMem → Id → AReg → AVal) (j : Nat)
    (m m' : S) (hcall : guestCall (calling env ext slide) code slide isRet j m = some m')
    (c : CPU AReg AVal AMem) (hc : ARel m c.slot c.mem) (hcpc : c.pc = some m.pc) :
    (∃ c', dispatch T (fun _ _ => false) slide out0 j c = some c' ∧ ARel m' c'.slot c'.mem ∧
      c'.pc = some m'.pc) ∧
    ∃ n, 1 ≤ n ∧ (plain env ext slide).run code slide n m = some m' := by
  refine ⟨C61_nested_partial (G := calling env ext slide) (pc := fun m => m.pc) (fun _ => rfl) ?_ hcov j m m' c hc
    hcpc hcall, C61_base_partial (shortcut env ext slide code) j m m' hcall⟩
  intro g f hg a u hu
  have hu := hT g a u hu
  refine ⟨hu.inSync _ (env := { env with callFn := some g }) (ext := { ext with callee := f }) ⟨fun g' h => by obtain rfl := Option.some.inj h; exact hg, hsys, hnosys⟩
    (by simp) (.inl fun _ _ => rfl), ?_⟩
  obtain ⟨⟨fold, hl⟩, hu⟩ := hu
  refine hu.retGraph ?_ ?_
  · intro i hi hok
    rw [hl] at hok ⊢
    constructor
    · intro h
      obtain ⟨n, h⟩ := form_returned h
      unfold isRet
      rw [h]
    · intro h
      obtain ⟨n, hp⟩ := isRet_ret h
      show form _ i.payload _ _ = _
      rw [hp]
      rfl
  · intro i hok
    rw [hl] at hok ⊢
    intro h
    obtain ⟨n, h⟩ := form_returned h
    rw [show (aLifter _ _ _).ok i = handled i.payload from rfl, h] at hok
    cases hok

end A64

namespace RV64

open Verif.RV64

/-- The function was lifted from the code at address `a` in this configuration. If there is a call
function, JAL uses the usual link registers only; if it is executed elsewhere, all instructions could be lifted. -/
def RvUnit (env : Env) (slide : BitVec 64) (code : Decoder Frv) (a : Addr)
    (u : Compiled Frv RvReg (Val 64) VMem) : Prop :=
  (∃ fold, u.lifter = rvLifterC env slide fold) ∧
  u.FromCode (rvClassify) env.callFn.isSome code slide (fun is =>
    (env.callFn = none ∨ ∀ i ∈ is, ¬ OddJal i.payload) ∧ (slide = 0 ∨ ∀ i ∈ is, handled i.payload = true)) a

theorem RvUnit.inSync {env : Env} {ext : Ext} (hx : ExtOK env ext) {slide : BitVec 64}
    {code : Decoder Frv} (hcode : ∀ a len p, code a = some (len, p) → Decoded p)
    {a : Addr} {u : Compiled Frv RvReg (Val 64) VMem}
    (hu : RvUnit env slide code a u) {drop : RvReg → (Val 64) → Bool} (hdrop : ∀ r v, drop r v = true → v = none)
    (hblind : (∀ r v, drop r v = false) ∨ ∀ f, env.callFn = some f ∨ env.sysFn = some f →
      ∀ c c' d, Patch (· = none) c c' → f c = some d → f c' = some d) :
    u.InSync (rvGuestC env ext slide) code slide rvRelF drop a := by
  obtain ⟨⟨fold, hl⟩, hu⟩ := hu
  refine hu.inSync (undef := (· = none)) ?_ hdrop (hblind.imp id fun hb => by rw [hl]; exact rvC_blind hb)
  intro is hside hgen
  rw [hl]
  have hdec : ∀ i ∈ is, Decoded i.payload := fun i hi => hcode _ _ _ (hgen i hi)
  exact ⟨fun i hi => rvC_correct hx _ _ i (hdec i hi) (hside.2.imp id (fun h => h i hi)),
    fun i _ => rvC_plain _ _ _ _ i,
    fun i hi => rvC_targets _ _ _ i (hdec i hi) (hside.1.imp id (fun h => h i hi)),
    fun i => rvC_item _ _ _ i, rvC_patch⟩

/-- C59 for RV64: run a program with functions lifted from its code, called by a loop (`again = fun _ => true`) or with the
dispatcher as tail function (`again = id`).  The CPU struct holds the state of a hart.  After any number of
steps, either the hart has reached an instruction outside the proved set in a block that lifted code was
executing, or there has been no undefined behaviour, and the hart after some number of instructions is in the
state that the lifted code or the CPU struct has.

Missing: the instructions missing in `C09_rv64_call_partial`. -/
theorem C59_rv64_partial {env : Env} {ext : Ext} (hx : ExtOK env ext) {slide : BitVec 64}
    {code : Decoder Frv} (hcode : ∀ a len p, code a = some (len, p) → Decoded p)
    {T : Addr → Option (Compiled Frv RvReg (Val 64) VMem)}
    (hT : ∀ a u, T a = some u → RvUnit env slide code a u)
    {drop : RvReg → (Val 64) → Bool} (hdrop : ∀ r v, drop r v = true → v = none)
    (hblind : (∀ r v, drop r v = false) ∨ ∀ f, env.callFn = some f ∨ env.sysFn = some f →
      ∀ c c' d, Patch (· = none) c c' → f c = some d → f c' = some d)
    (again : Bool → Bool) (out0 : CPU RvReg (Val 64) VMem → Id → RvReg → (Val 64))
    (m : Spec.State) (c : CPU RvReg (Val 64) VMem) (hc : rvRelF m c.slot c.mem) (hcpc : c.pc = some m.pc) (K : Nat) :
    (∃ K' < K, ∃ n m1 x, (rvGuestC env ext slide).run code slide n m = some m1 ∧
      runChain T again drop slide out0 K' (.out c) = some x ∧
      ChainStuck (rvGuestC env ext slide) code slide rvRelF m1 x) ∨
    ∃ n m1 x, (rvGuestC env ext slide).run code slide n m = some m1 ∧
      runChain T again drop slide out0 K (.out c) = some x ∧
      ChainSync (rvGuestC env ext slide) slide rvRelF m1 x :=
  C59_chain_partial (fun a u h => (hT a u h).inSync hx hcode hdrop hblind) m c hc hcpc K

/-- C60 for RV64: two CPU structs hold the same state of a hart and may differ in everything else, such as
the upper halves of floating-point registers that hold single-precision numbers.  After any number of steps, either the hart has reached an instruction outside the proved set in a
block that lifted code was executing in both cases, or both executions stand at the same place, without
undefined behaviour, and have the same state of the hart.

Missing: the instructions missing in `C09_rv64_call_partial`. -/
theorem C60_rv64_partial {env : Env} {ext : Ext} (hx : ExtOK env ext) {slide : BitVec 64}
    {code : Decoder Frv} (hcode : ∀ a len p, code a = some (len, p) → Decoded p)
    {T : Addr → Option (Compiled Frv RvReg (Val 64) VMem)}
    (hT : ∀ a u, T a = some u → RvUnit env slide code a u)
    {drop : RvReg → (Val 64) → Bool} (hdrop : ∀ r v, drop r v = true → v = none)
    (hblind : (∀ r v, drop r v = false) ∨ ∀ f, env.callFn = some f ∨ env.sysFn = some f →
      ∀ c c' d, Patch (· = none) c c' → f c = some d → f c' = some d)
    (again : Bool → Bool) (out0 out0' : CPU RvReg (Val 64) VMem → Id → RvReg → (Val 64))
    (m : Spec.State) (c c' : CPU RvReg (Val 64) VMem) (hc : rvRelF m c.slot c.mem) (hcpc : c.pc = some m.pc)
    (hc' : rvRelF m c'.slot c'.mem) (hcpc' : c'.pc = some m.pc) (K : Nat) :
    BothStuck T again drop slide out0 out0' (rvGuestC env ext slide) code rvRelF m c c' K ∨
    ∃ n m1 x x', (rvGuestC env ext slide).run code slide n m = some m1 ∧
      runChain T again drop slide out0 K (.out c) = some x ∧
      runChain T again drop slide out0' K (.out c') = some x' ∧
      ChainSync (rvGuestC env ext slide) slide rvRelF m1 x ∧ ChainSync (rvGuestC env ext slide) slide rvRelF m1 x' ∧ ChainSame x x' :=
  C60_chain_partial (fun a u h => (hT a u h).inSync hx hcode hdrop hblind) m c c' hc hcpc hc' hcpc' K


instance (i : Frv) : Decidable (RV64.Spec.isReturn i) := by
  unfold RV64.Spec.isReturn; infer_instance

/-- A return by the hints of the ISA manual. -/
def isRet (i : Inst Frv) : Bool := decide (RV64.Spec.isReturn i.payload)

theorem jumpRet_iff {i : Frv} (hd : Decoded i) : jumpRet i = true ↔ RV64.Spec.isReturn i := by
  have hj := hd.2.1
  simp only [jumpRet, RV64.Spec.isReturn, Bool.and_eq_true, Bool.or_eq_true, beq_iff_eq,
    Bool.not_eq_true', isLink_iff, ← Bool.not_eq_true]
  constructor
  · rintro ⟨h | h, h1, h2⟩
    · rw [hj h] at h2
      exact absurd h2 (by decide)
    · exact ⟨h, h1, h2⟩
  · rintro ⟨h, h1, h2⟩
    exact ⟨.inr h, h1, h2⟩

/-- The hart that runs called functions by the call function `f`. -/
abbrev calling (env : Env) (ext : Ext) (slide : BitVec 64) (f : Spec.State → Option Spec.State) : Guest Frv Spec.State :=
  rvGuestC { env with callFn := some fun _ => none } { ext with callee := f } slide

/-- The hart that executes every instruction itself. -/
abbrev plain (env : Env) (ext : Ext) (slide : BitVec 64) : Guest Frv Spec.State :=
  rvGuestC { env with callFn := none } ext slide

theorem shortcut (env : Env) (ext : Ext) (slide : BitVec 64) (code : Decoder Frv) (f : Spec.State → Option Spec.State)
    (hf : ∀ m m', f m = some m' → ∃ n, (plain env ext slide).run code slide n m = some m') :
    Shortcut (calling env ext slide f) (plain env ext slide) code slide := by
  refine .of_calls rfl fun i m m' hst => ?_
  simp only [calling, plain, rvGuestC] at hst ⊢
  split at hst
  next hp => rw [if_pos hp]; exact ⟨m', hst, .inl rfl⟩
  next hp =>
  rw [if_neg hp]
  obtain ⟨m1, h1, h2⟩ := Option.bind_eq_some_iff.1 hst
  refine ⟨m1, ?_, ?_⟩
  · rw [h1]
    simp [rvTail]
  · simp only [rvTail] at h2
    split at h2
    · exact .inr (hf _ _ h2)
    · exact .inl (Option.some.inj h2).symm

/-- C61 for RV64: lifted functions call the dispatcher for calls and as tail function, and the dispatcher runs
functions lifted from the same code.  If the hart, in the state that the CPU struct holds, returns from the
function it is in, where calls are nested at most `j` deep, the dispatcher returns with the state of the
hart in the CPU struct; and the hart that executes every instruction itself reaches this state.  The dispatcher has
a function for the address of every instruction that the hart can execute.

Missing: the instructions missing in `C09_rv64_call_partial`; omission of stores of undefined values. -/
theorem C61_rv64_partial {env : Env} {ext : Ext} (hsys : ∀ g, env.sysFn = some g → Implements g ext.sys)
    (hnosys : env.sysFn = none → ext.sys = some)
    {slide : BitVec 64}
    {code : Decoder Frv} (hcode : ∀ a len p, code a = some (len, p) → Decoded p)
    
    {T : (CPU RvReg (Val 64) VMem → Option (CPU RvReg (Val 64) VMem)) → Addr → Option (Compiled Frv RvReg (Val 64) VMem)}
    (hT : ∀ g a u, T g a = some u → RvUnit { env with callFn := some g } slide code a u)
    (hcov : ∀ g f i m m', code i.start = some (i.len, i.payload) → m.pc = i.start + slide →
      (calling env ext slide f).step i m = some m' → (T g i.start).isSome)
    (out0 : CPU RvReg (Val 64) VMem → Id → RvReg → (Val 64)) (j : Nat)
    (m m' : Spec.State) (hcall : guestCall (calling env ext slide) code slide isRet j m = some m')
    (c : CPU RvReg (Val 64) VMem) (hc : rvRelF m c.slot c.mem) (hcpc : c.pc = some m.pc) :
    (∃ c', dispatch T (fun _ _ => false) slide out0 j c = some c' ∧ rvRelF m' c'.slot c'.mem ∧
      c'.pc = some m'.pc) ∧
    ∃ n, 1 ≤ n ∧ (plain env ext slide).run code slide n m = some m' := by
  refine ⟨C61_nested_partial (G := calling env ext slide) (pc := fun m => m.pc) (fun _ => rfl) ?_ hcov j m m' c hc
    hcpc hcall, C61_base_partial (shortcut env ext slide code) j m m' hcall⟩
  intro g f hg a u hu
  have hu := hT g a u hu
  refine ⟨hu.inSync (env := { env with callFn := some g }) (ext := { ext with callee := f }) ⟨fun g' h => by obtain rfl := Option.some.inj h; exact hg, hsys, hnosys⟩
    hcode (by simp) (.inl fun _ _ => rfl), ?_⟩
  obtain ⟨⟨fold, hl⟩, hu⟩ := hu
  refine hu.retGraph ?_ ?_
  · intro i hi hok
    rw [hl] at hok ⊢
    simp only [rvLifterC, isRet, formC, Option.isSome_some, Bool.true_and, decide_eq_true_eq]
    rw [← jumpRet_iff (hcode _ _ _ hi)]
    split
    next h => simp [h]
    next h =>
      simp only [h]
      split
      · simp
      · simp only [form]
        split <;> (try split) <;> simp
  · intro i hok
    rw [hl] at hok ⊢
    have h0 : handled i.payload = false := hok
    simp only [rvLifterC, formC]
    split
    next h =>
      simp only [jumpRet, Bool.and_eq_true, Bool.or_eq_true, beq_iff_eq] at h
      rcases h.2.1 with h | h <;> simp [handled, h] at h0
    · split
      · simp
      · simp only [form]
        split <;> (try split) <;> simp

end RV64

end Verif.Lift
