import Verif.Lift.RV64Fp
import Verif.Lift.Drop

/-!
End-to-end theorem for RV64 code with a call function and a system call function (C09, C10, C31, C36,
C51).  Instruction
overrides are added in `Lift/Override`.
-/

namespace Verif.Lift.RV64

open Verif.Decode Verif.IR Verif.RV64 Verif.Lift

set_option linter.unusedSimpArgs false

/-- An external function: it gets the CPU struct and memory and may change both. -/
abbrev RvFn := CPU RvReg (Val 64) VMem → Option (CPU RvReg (Val 64) VMem)

/-- Configuration: the functions called for calls and for ECALL. -/
structure Env where
  callFn : Option RvFn := none
  sysFn : Option RvFn := none

/-- The lifter ends the function at this jump, /repo/src/rv64/lifter.cc:402-405. -/
def jumpRet (i : Frv) : Bool := (i.mnem == .jal || i.mnem == .jalr) && (!isLink i.rd && isLink i.rs1)

/-- The lifter calls the call function at this jump, /repo/src/rv64/lifter.cc:402-408. -/
def jumpCall (i : Frv) : Bool :=
  (i.mnem == .jal || i.mnem == .jalr) && (isLink i.rd && (!isLink i.rs1 || i.rs1 == i.rd))

/-- Mode of the program counter after the code of an instruction: as without a call function except at
returns and calls, /repo/src/rv64/lifter.cc:400-413. -/
def formC (call : Bool) (i : Frv) (start stop : BitVec 64) : Form :=
  if call && jumpRet i then .returned
  else if call && jumpCall i then .check stop
  else form i start stop

/-- The code of an instruction without the call of an external function. -/
def rvUpd (slide : BitVec 64) (i : Inst Frv) : Item RvReg (Val 64) VMem :=
  .upd (fun s => (RV64.lift {} slide i.payload i.start i.len (toRv s)).map (fun o => ofRv o.st))
    (rvDirty i.payload)

/-- The calls in the code of an instruction: of the call function, after which the program counter is
compared with the return address (/repo/src/rv64/lifter.cc:406-409), and of the system call function (421-423). -/
def rvCalls (env : Env) (slide : BitVec 64) (i : Inst Frv) : List (Item RvReg (Val 64) VMem) :=
  if jumpCall i.payload then
    match env.callFn with
    | some g => [.call g, .upd (fun s => some { s with pc := .check (s.pc.val slide) i.stop }) ∅]
    | none => []
  else if i.payload.mnem = .ecall ∧ i.payload.imm = 0#32 then
    match env.sysFn with
    | some g => [.call g]
    | none => []
  else []

/-- The RV64 lifter, /repo/src/rv64/lifter.cc:363-650.  `fold` tells which branch conditions the IR
builder folded to constants. -/
def rvLifterC (env : Env) (slide : BitVec 64) (fold : Inst Frv → Option Bool) :
    Lifter Frv RvReg (Val 64) VMem where
  ok := fun i => handled i.payload
  form := fun i => formC env.callFn.isSome i.payload i.start i.stop
  fold := fold
  startPc := fun i => i.start
  items := fun i => rvUpd slide i :: rvCalls env slide i

/-- An external function as the instruction lifter's model sees it. -/
def onRv (slide : BitVec 64) (g : RvFn) (t : RV64.St) : Option RV64.St :=
  (g ((ofRv t).pack slide)).map (fun c => toRv c.unpack)

/-- The same configuration in the instruction lifter's model. -/
def Env.cfg (env : Env) (slide : BitVec 64) : RV64.Cfg where
  callFunction := env.callFn.map (onRv slide)
  syscall := env.sysFn.map (onRv slide)

theorem ofRv_toRv (s : St RvReg (Val 64) VMem) : ofRv (toRv s) = s := by
  rcases s with ⟨r, p, μ⟩
  simp only [ofRv, toRv]
  congr
  funext k
  rcases k with k | k <;> simp

theorem val_value' (slide : BitVec 64) (v : Val 64) : (Pc.value v).val slide = v := by
  cases v with
  | none => rfl
  | some v => exact Pc.val_value slide v

theorem execItems_call (slide : BitVec 64) (g : RvFn) (t : RV64.St) :
    execItem slide (ofRv t) (.call g) = (callExt slide (onRv slide g) t).map ofRv := by
  simp only [execItem, callExt, onRv, Option.map_map]
  have : (ofRv { t with pc := .value (t.pc.val slide) }).pack slide = (ofRv t).pack slide := by
    simp only [ofRv, St.pack, val_value']
  rw [this]
  congr 1
  funext c
  simp only [Function.comp_apply]
  have : toRv c.unpack = { toRv c.unpack with pc := .value ((toRv c.unpack).pc.val slide) } := by
    simp only [toRv, CPU.unpack, val_value']
  rw [← this, ofRv_toRv]

/-- The items are the code that the instruction lifter's model emits for the configuration: executing
them is executing the model of `Lifter::Lift` with the two functions configured. -/
theorem rvItems_lift (env : Env) (slide : BitVec 64) (fold : Inst Frv → Option Bool) (i : Inst Frv)
    (s : St RvReg (Val 64) VMem) : execInst (rvLifterC env slide fold) slide i s
      = (RV64.lift (env.cfg slide) slide i.payload i.start i.len
          (toRv { s with pc := .const i.start })).map (fun o => ofRv o.st) := by
  have h0 : execInst (rvLifterC env slide fold) slide i s
      = ((RV64.lift {} slide i.payload i.start i.len (toRv { s with pc := .const i.start })).map
          (fun o => ofRv o.st)).bind (execItems slide (rvCalls env slide i)) := rfl
  rw [h0]
  generalize toRv { s with pc := .const i.start } = t
  have hnone : rvCalls env slide i = [] →
      RV64.lift {} slide i.payload i.start i.len t
        = RV64.lift (env.cfg slide) slide i.payload i.start i.len t →
      ((RV64.lift {} slide i.payload i.start i.len t).map (fun o => ofRv o.st)).bind
        (execItems slide (rvCalls env slide i))
        = (RV64.lift (env.cfg slide) slide i.payload i.start i.len t).map (fun o => ofRv o.st) := by
    intro h1 h2
    rw [h1, h2]
    cases RV64.lift (env.cfg slide) slide i.payload i.start i.len t <;> rfl
  have hjump : (i.payload.mnem = .jal ∨ i.payload.mnem = .jalr) →
      (∀ cfg, RV64.lift cfg slide i.payload i.start i.len t
        = jalFinish cfg slide i.payload i.stop (jalState slide i.payload i.start i.len { t with pc := .const i.start })) →
      ((RV64.lift {} slide i.payload i.start i.len t).map (fun o => ofRv o.st)).bind
        (execItems slide (rvCalls env slide i))
        = (RV64.lift (env.cfg slide) slide i.payload i.start i.len t).map (fun o => ofRv o.st) := by
    intro hm hl
    have hm' : (i.payload.mnem == .jal || i.payload.mnem == .jalr) = true := by
      rcases hm with h | h <;> rw [h] <;> rfl
    have hne : i.payload.mnem ≠ .ecall := by rcases hm with h | h <;> rw [h] <;> simp
    rw [hl, hl]
    generalize jalState slide i.payload i.start i.len { t with pc := .const i.start } = u
    simp only [jalFinish, rvCalls, jumpCall, hm', hne, Bool.true_and, false_and, if_false, Env.cfg]
    cases env.callFn with
    | none => simp [execItems]
    | some g =>
      simp only [Option.map_some, Option.bind_some]
      by_cases hr : (!isLink i.payload.rd && isLink i.payload.rs1) = true
      · have hc : ¬ (isLink i.payload.rd && (!isLink i.payload.rs1 || i.payload.rs1 == i.payload.rd)) = true := by
          simp only [Bool.and_eq_true, Bool.not_eq_true'] at hr ⊢
          rw [hr.1]; simp
        rw [if_neg hc, if_pos hr]; rfl
      · rw [if_neg hr]
        split
        · simp only [execItems, execItems_call]
          cases callExt slide (onRv slide g) u <;> rfl
        · rfl
  rcases i with ⟨a, len, mn, rd, rs1, rs2, imm, rs3, misc⟩
  cases mn <;> first
    | exact hnone rfl rfl
    | exact hjump (.inl rfl) (fun _ => rfl)
    | exact hjump (.inr rfl) (fun _ => rfl)
    | skip
  simp only [RV64.lift, liftEcall, rvCalls, jumpCall, Env.cfg]
  by_cases hi : imm = 0#32
  · simp only [hi, and_self, if_true]
    cases env.sysFn with
    | none => rfl
    | some g =>
      show (execItem slide (ofRv _) (.call g)).bind (execItems slide []) = _
      rw [execItems_call]
      simp only [Option.map_some]
      cases callExt slide (onRv slide g) _ <;> rfl
  · simp only [hi, and_false, if_false]
    rfl

/-- What the external functions do to the hart. -/
structure Ext where
  callee : Spec.State → Option Spec.State := some
  sys : Spec.State → Option Spec.State := some

/-- A jump that calls a function by the hints of the ISA manual. -/
def Spec.calls (i : Frv) : Prop := (i.mnem = .jal ∨ i.mnem = .jalr) ∧ RV64.Spec.isCall i

instance (i : Frv) : Decidable (Spec.calls i) := by
  unfold Spec.calls RV64.Spec.isCall; infer_instance

/-- A call whose callee is run by the call function. -/
def rvTail (env : Env) (ext : Ext) (i : Frv) (m : Spec.State) : Option Spec.State :=
  if Spec.calls i ∧ env.callFn.isSome then ext.callee m else some m

/-- The guest machine: a hart with the F and D extensions.  A call whose callee is run by the call
function, and a system call, count as one step.  It stops where the lifter is known to be wrong
(`NoDefect`, `FpOk`; ECALL in relocated code). -/
def rvGuestC (env : Env) (ext : Ext) (slide : BitVec 64) : Guest Frv Spec.State where
  pc := fun m => m.pc
  step := fun i m =>
    if i.payload.mnem = .ecall then
      if i.payload.imm = 0#32 ∧ slide = 0 then ext.sys { m with pc := m.pc + BitVec.ofNat 64 i.len } else none
    else (rvGuestF.step i m).bind (rvTail env ext i.payload)

/-- The external function `g` does what `f` says. -/
def Implements (g : RvFn) (f : Spec.State → Option Spec.State) : Prop :=
  ∀ m m' c, rvRelF m c.slot c.mem → c.pc = some m.pc → f m = some m' →
    ∃ c', g c = some c' ∧ rvRelF m' c'.slot c'.mem ∧ c'.pc = some m'.pc

/-- The external functions do what the hart expects; without a system call function ECALL does nothing
(/repo/include/rellume/rellume.h, `ll_config_set_syscall_impl`). -/
structure ExtOK (env : Env) (ext : Ext) : Prop where
  call : ∀ g, env.callFn = some g → Implements g ext.callee
  sys : ∀ g, env.sysFn = some g → Implements g ext.sys
  nosys : env.sysFn = none → ext.sys = some

theorem call_step {slide : BitVec 64} {g : RvFn} {f : Spec.State → Option Spec.State}
    (hg : Implements g f) {m m' : Spec.State} {s : St RvReg (Val 64) VMem}
    (hr : rvRelF m s.regs s.mem) (hpc : s.pc.val slide = some m.pc) (hf : f m = some m') :
    ∃ s' v, execItem slide s (.call g) = some s' ∧ rvRelF m' s'.regs s'.mem ∧
      s'.pc.val slide = some m'.pc ∧ s'.pc = .value v := by
  obtain ⟨c', h1, h2, h3⟩ := hg m m' (s.pack slide) hr hpc hf
  refine ⟨c'.unpack, c'.pc, by simp only [execItem, h1, Option.map_some], h2, ?_, rfl⟩
  show Pc.val slide (.value c'.pc) = _
  rw [h3]
  exact Pc.val_value _ _

theorem isLink_iff (r : Nat) : isLink r = true ↔ RV64.Spec.link r := by
  unfold isLink RV64.Spec.link; simp

theorem jumpCall_iff {i : Frv} (hd : Decoded i) : jumpCall i = true ↔ Spec.calls i := by
  have hj := hd.2.1
  simp only [jumpCall, Spec.calls, RV64.Spec.isCall, Bool.and_eq_true, Bool.or_eq_true, beq_iff_eq,
    Bool.not_eq_true', isLink_iff, ← Bool.not_eq_true]
  refine and_congr_right fun hm => and_congr_right fun _ => ?_
  constructor
  · intro h _; exact h
  · intro h
    rcases hm with hm | hm
    · left; rw [hj hm]; decide
    · exact h hm

theorem rvC_correct {env : Env} {ext : Ext} (hx : ExtOK env ext) (slide : BitVec 64)
    (fold : Inst Frv → Option Bool) (i : Inst Frv)
    (hd : Decoded i.payload) (hpic : slide = 0 ∨ handled i.payload = true) :
    Correct (rvLifterC env slide fold) (rvGuestC env ext slide) slide rvRelF i := by
  have hitems : ∀ s, execInst (rvLifterC env slide fold) slide i s
      = (execInst (rvLifter slide fold) slide i s).bind (execItems slide (rvCalls env slide i)) := by
    intro s
    show (execItem _ _ _).bind _ = ((execItem _ _ _).bind _).bind _
    rw [Option.bind_assoc]
    rfl
  constructor
  · intro hok m m' s hrel hpc hst
    have hok' : (rvLifter slide fold).ok i = true := hok
    simp only [rvGuestC] at hst
    split at hst
    next hec =>
      split at hst
      next h0 =>
        obtain ⟨hi, rfl⟩ := h0
        have hpc : m.pc = i.start + 0 := hpc
        have hl : RV64.lift {} 0 i.payload i.start i.len (toRv { s with pc := .const i.start })
            = some { st := { toRv { s with pc := .const i.start } with pc := .value (some i.stop) } } := by
          rcases i with ⟨a, len, mn, rd, rs1, rs2, imm, rs3, misc⟩
          simp only at hec hi
          subst hec hi
          rfl
        have h3 := rv_exec 0 fold i s
        rw [hl] at h3
        have hcalls : rvCalls env 0 i = match env.sysFn with | some g => [.call g] | none => [] := by
          have : jumpCall i.payload = false := by simp [jumpCall, hec]
          simp only [rvCalls, this, hec, hi, and_self, if_true, Bool.false_eq_true, if_false]
        have h4 : rvRelF { m with pc := m.pc + BitVec.ofNat 64 i.len }
            (ofRv { toRv { s with pc := .const i.start } with pc := .value (some i.stop) }).regs
            (ofRv { toRv { s with pc := .const i.start } with pc := .value (some i.stop) }).mem := by
          have h5 : (ofRv { toRv { s with pc := .const i.start } with pc := .value (some i.stop) }).regs
              = s.regs := by
            funext k
            rcases k with k | k <;> simp [ofRv, toRv]
          rw [h5]
          exact hrel
        have h5 : (Pc.value (some i.stop)).val 0 = some (m.pc + BitVec.ofNat 64 i.len) := by
          rw [val_value', hpc, Inst.stop]; simp
        have hf : (rvLifterC env 0 fold).form i = .value := by
          have a1 : jumpCall i.payload = false := by simp [jumpCall, hec]
          have a2 : jumpRet i.payload = false := by simp [jumpRet, hec]
          simp [rvLifterC, formC, a1, a2, form, hec]
        rw [hitems, h3, hcalls, hf]
        cases hs : env.sysFn with
        | none =>
          rw [hx.nosys hs] at hst
          cases hst
          exact ⟨_, rfl, h4, h5, fun _ => rfl⟩
        | some g =>
          obtain ⟨s2, v, h6, h7, h8, h9⟩ := call_step (hx.sys g hs) h4 h5 hst
          refine ⟨s2, ?_, h7, h8, fun _ => by rw [h9]; rfl⟩
          show (execItem 0 _ _).bind _ = _
          rw [h6]; rfl
      · cases hst
    next hec =>
      obtain ⟨m1, h1, h2⟩ := Option.bind_eq_some_iff.1 hst
      obtain ⟨s1, h3, h4, h5, h6⟩ := (rvF_correct slide fold i hd hpic).1 hok' m m1 s hrel hpc h1
      rw [hitems, h3, Option.bind_some]
      have hform : (rvLifterC env slide fold).form i = formC env.callFn.isSome i.payload i.start i.stop := rfl
      have hform' : (rvLifter slide fold).form i = form i.payload i.start i.stop := rfl
      have hne : form i.payload i.start i.stop ≠ .returned := by
        unfold form
        split <;> (try split) <;> simp
      rw [hform'] at h6
      rw [hform]
      by_cases hc : jumpCall i.payload = true
      · have hcs := (jumpCall_iff hd).1 hc
        have hr : jumpRet i.payload = false := by
          simp only [jumpCall, Bool.and_eq_true] at hc
          simp [jumpRet, hc.2.1]
        cases hcf : env.callFn with
        | none =>
          rw [rvTail, if_neg (by simp [hcf])] at h2
          cases h2
          refine ⟨s1, by simp [rvCalls, hc, hcf, execItems], h4, h5, fun _ => ?_⟩
          exact h6 hne
        | some g =>
          rw [rvTail, if_pos ⟨hcs, by simp [hcf]⟩] at h2
          obtain ⟨s2, v, h7, h8, h9, h10⟩ := call_step (hx.call g hcf) h4 h5 h2
          refine ⟨{ s2 with pc := .check (s2.pc.val slide) i.stop }, ?_, h8, ?_, fun _ => ?_⟩
          · simp only [rvCalls, hc, hcf, if_true, execItems]
            rw [h7]; rfl
          · show Pc.val slide (.check _ _) = _
            rw [h9]; exact Pc.val_check _ _ _
          · simp [formC, hr, hc, formOf]
      · rw [rvTail, if_neg (fun h => hc ((jumpCall_iff hd).2 h.1))] at h2
        cases h2
        refine ⟨s1, by simp [rvCalls, hc, hec, execItems], h4, h5, fun hnr => ?_⟩
        have : formC env.callFn.isSome i.payload i.start i.stop = form i.payload i.start i.stop := by
          unfold formC at hnr ⊢
          split
          next h => rw [if_pos h] at hnr; exact absurd rfl hnr
          · simp [hc]
        rw [this]; exact h6 hne
  · intro hok
    have hok' : handled i.payload = false := hok
    obtain ⟨h1, h2⟩ := (rvF_correct slide fold i hd hpic).2 hok
    have hj : ¬ (i.payload.mnem = .jal ∨ i.payload.mnem = .jalr) := by
      rintro (h | h) <;> simp [handled, h] at hok'
    have a1 : jumpCall i.payload = false := by
      rw [Bool.eq_false_iff]; intro h; simp [jumpCall] at h; exact hj h.1
    have a2 : jumpRet i.payload = false := by
      rw [Bool.eq_false_iff]; intro h; simp [jumpRet] at h; exact hj h.1
    have a3 : rvCalls env slide i = [] := by
      have : ¬ (i.payload.mnem = .ecall ∧ i.payload.imm = 0#32) := by
        rintro ⟨h, h'⟩; simp [handled, h, h'] at hok'
      simp [rvCalls, a1, this]
    refine ⟨?_, fun m s hrel hpc => ?_⟩
    · show formC _ _ _ _ = _
      simp only [formC, a1, a2, Bool.and_false, Bool.false_eq_true, if_false]
      exact h1
    · obtain ⟨s', h3, h4⟩ := h2 m s hrel hpc
      refine ⟨s', ?_, h4⟩
      rw [hitems, h3, a3]; rfl

theorem rvCalls_mem {env : Env} {slide : BitVec 64} {i : Inst Frv} {it : Item RvReg (Val 64) VMem}
    (h : it ∈ rvCalls env slide i) :
      it = .upd (fun s => some { s with pc := .check (s.pc.val slide) i.stop }) ∅ ∨
      ∃ g, it = .call g ∧ (env.callFn = some g ∨ env.sysFn = some g) := by
  unfold rvCalls at h
  split at h
  · split at h
    next g hg =>
      simp only [List.mem_cons, List.not_mem_nil, or_false] at h
      rcases h with h | h
      exacts [.inr ⟨g, h, .inl hg⟩, .inl h]
    · cases h
  · split at h
    · split at h
      next g hg =>
        simp only [List.mem_cons, List.not_mem_nil, or_false] at h
        exact .inr ⟨g, h, .inr hg⟩
      · cases h
    · cases h

theorem rvC_item (env : Env) (slide : BitVec 64) (fold : Inst Frv → Option Bool) (i : Inst Frv) :
    ∀ it ∈ (rvLifterC env slide fold).items i, ItemOK (Refine.eq (Val 64) VMem) it := by
  intro it hit
  rcases List.mem_cons.1 hit with rfl | hit
  · exact rv_item slide fold i _ (List.mem_singleton.2 rfl)
  rcases rvCalls_mem hit with rfl | ⟨g, rfl, -⟩
  · refine ⟨fun s s' h r _ => by cases h; rfl, ?_⟩
    rintro ⟨r1, μ1, p1⟩ ⟨r2, μ2, p2⟩ s' ⟨h1, h2, h3⟩ h
    obtain rfl : r1 = r2 := funext h1
    obtain rfl : μ1 = μ2 := h2
    obtain rfl : p1 = p2 := h3
    exact ⟨s', h, fun _ => rfl, rfl, rfl⟩
  · rintro ⟨r1, p1, μ1⟩ ⟨r2, p2, μ2⟩ s' ⟨h1, h2, h3⟩ h
    obtain rfl : r1 = r2 := funext h1
    obtain rfl : μ1 = μ2 := h2
    obtain rfl : p1 = p2 := h3
    exact ⟨s', h, fun _ => rfl, rfl, rfl⟩

theorem jump_mnem {i : Frv} (h : jumpCall i = true ∨ jumpRet i = true) :
    i.mnem = .jal ∨ i.mnem = .jalr := by
  rcases h with h | h <;> simp only [jumpCall, jumpRet, Bool.and_eq_true, Bool.or_eq_true, beq_iff_eq] at h <;>
    exact h.1

theorem rvC_plain {MS : Type} (G : Guest Frv MS) (env : Env) (slide : BitVec 64)
    (fold : Inst Frv → Option Bool) (i : Inst Frv) :
    PlainFalls rvClassify (rvLifterC env slide fold).toSLifter G slide i := by
  intro hc hok
  left
  have hnj : ¬ (i.payload.mnem = .jal ∨ i.payload.mnem = .jalr) := by
    rintro (h | h) <;> simp only [rvClassify, h] at hc <;> split at hc <;> cases hc
  have a1 : jumpCall i.payload = false := by
    rw [Bool.eq_false_iff]; exact fun h => hnj (jump_mnem (.inl h))
  have a2 : jumpRet i.payload = false := by
    rw [Bool.eq_false_iff]; exact fun h => hnj (jump_mnem (.inr h))
  show formC _ _ _ _ = _
  simp only [formC, a1, a2, Bool.and_false, Bool.false_eq_true, if_false]
  exact rv_falls slide fold i hc hok

/-- A `JAL` whose link register is not one of the ABI's is taken for a call by the decoder but not by the
lifter (`C09_jal_counterexample`). -/
def OddJal (i : Frv) : Prop := i.mnem = .jal ∧ i.rd ≠ 0 ∧ ¬ RV64.Spec.link i.rd

instance (i : Frv) : Decidable (OddJal i) := by unfold OddJal; infer_instance

theorem rvC_targets (env : Env) (slide : BitVec 64) (fold : Inst Frv → Option Bool) (i : Inst Frv)
    (hd : Decoded i.payload) (hj : env.callFn = none ∨ ¬ OddJal i.payload) :
    TargetsKnown rvClassify env.callFn.isSome (rvLifterC env slide fold).toSLifter i := by
  have hbase := rv_targets slide fold i hd
  cases hcf : env.callFn with
  | none =>
    rcases hbase with h | h
    · exact .inl h
    · refine .inr fun a ha hne => h a ?_ hne
      simpa [rvLifterC, rvLifter, formC, hcf] using ha
  | some g =>
    have hj := hj.resolve_left (by simp [hcf])
    right
    intro a ha hne
    have ha' : a ∈ (formC true i.payload i.start i.stop).targets := by
      simpa [rvLifterC, hcf] using ha
    unfold formC at ha'
    by_cases hr : jumpRet i.payload = true
    · simp [hr, Form.targets] at ha'
    by_cases hc : jumpCall i.payload = true
    · simp only [hr, hc, Bool.and_false, Bool.and_true, Bool.false_eq_true, if_false, if_true,
        Form.targets, List.mem_singleton] at ha'
      subst ha'
      refine .inr ⟨.inr (.inr ⟨?_, by simp⟩), rfl⟩
      simp only [jumpCall, Bool.and_eq_true, Bool.or_eq_true, beq_iff_eq] at hc
      have h0 : i.payload.rd ≠ 0 := by
        intro h; rw [h] at hc; exact absurd hc.2.1 (by decide)
      rcases hc.1 with h | h <;> simp [rvClassify, h, h0]
    · simp only [hr, hc, Bool.and_false, Bool.false_eq_true, if_false] at ha'
      rcases hbase with ⟨h, -⟩ | h
      · exfalso
        -- a jump taken for a call that is none has no static target
        have hm : i.payload.mnem = .jal ∨ i.payload.mnem = .jalr := by
          rcases i with ⟨a, len, mn, rd, rs1, rs2, imm, rs3, misc⟩
          cases mn <;> simp [rvClassify] at h ⊢
        rcases hm with hm | hm
        · have h0 : i.payload.rd ≠ 0 := by
            intro h0; simp [rvClassify, hm, h0] at h
          have hl : isLink i.payload.rd = true := by
            rw [isLink_iff]
            by_contra hl
            exact hj ⟨hm, h0, hl⟩
          apply hc
          have : isLink i.payload.rs1 = false := by rw [hd.2.1 hm]; rfl
          simp [jumpCall, hm, hl, this]
        · simp [form, hm, hd.2.2.1 hm, Form.targets] at ha'
      · rcases h a ha' hne with h | ⟨h | h | h, h'⟩
        · exact .inl h
        · exact .inr ⟨.inl h, h'⟩
        · exact .inr ⟨.inr (.inl h), h'⟩
        · exact absurd h.2 (by simp)

theorem rvC_patch : ∀ (m : Spec.State) (r r' : RvReg → Val 64) (μ : VMem), rvRelF m r μ →
    (∀ x, r x = r' x ∨ r x = none) → rvRelF m r' μ := by
  intro m r r' μ h hp
  have key : ∀ x v, r x = some v → r' x = some v := by
    intro x v hv
    rcases hp x with h1 | h1
    · rw [← h1]; exact hv
    · rw [h1] at hv; cases hv
  refine ⟨fun k => key _ _ (h.1 k), h.2.1, fun k => ?_, h.2.2.2.1, h.2.2.2.2⟩
  rcases h.2.2.1 k with h1 | ⟨v, h1, h2⟩
  · exact .inl (key _ _ h1)
  · exact .inr ⟨v, h1, key _ _ h2⟩

theorem rvC_blind {env : Env} {slide : BitVec 64} {fold : Inst Frv → Option Bool}
    (hblind : ∀ f, env.callFn = some f ∨ env.sysFn = some f →
      ∀ c c' d, Patch (· = none) c c' → f c = some d → f c' = some d) :
    Blind (· = none) (rvLifterC env slide fold) := by
  intro i f hf
  rcases List.mem_cons.1 hf with h | hf
  · cases h
  rcases rvCalls_mem hf with h | ⟨f', h, hf'⟩
  · cases h
  · cases h; exact hblind f hf'

/-- C09, C10, C31, C36 and C51 for RV64: take any code that decodes to modelled instructions, decode it with
any sequence of `ll_func_decode_cfg` calls, or otherwise so that no control-flow edge is missed
(`Counted`, e.g. with one `ll_func_decode_block` call), and lift it, with or without a call function and a
system call function; the code may have been moved by `slide` bytes against the addresses it was decoded at
if all instructions can be lifted.  The external functions do to the CPU struct what `ext` does to the hart;
if stores of undefined values are left out (`drop`), they do not depend on undefined registers.  Call the
lifted function on a CPU struct that holds the state of a hart standing at the entry address.  After any
number of executed blocks, either the hart has reached an instruction outside the proved set or the lifted
function has had no undefined behaviour and is in step with the hart: when it returns, the CPU struct holds
exactly the registers (up to NaN-boxing), memory and program counter of the hart after some number of
instructions.

Missing: instructions and operands for which the lifter is wrong (`NoDefect`, `FpOk`), CSR accesses, ECALL in
relocated code, JAL with an unusual link register if there is a call function (`OddJal`), and
functions decoded so that edges are missed. -/
theorem C09_rv64_call_partial {env : Env} {ext : Ext} (hx : ExtOK env ext)
    {code : Decoder Frv} (hcode : ∀ a len p, code a = some (len, p) → Decoded p)
    {h : List (Call Frv)} {fn : Fn Frv} (H : Hist rvClassify h fn)
    (hcalls : ∀ c ∈ h, c.dec = code) (hcount : Counted rvClassify env.callFn.isSome h fn)
    (hjal : env.callFn = none ∨ ∀ i ∈ fn.insts, ¬ OddJal i.payload)
    (slide : BitVec 64) (hpic : slide = 0 ∨ ∀ i ∈ fn.insts, handled i.payload = true)
    (fold : Inst Frv → Option Bool) {known : Bool} {g : Graph Frv}
    (hl : lift known (rvLifterC env slide fold).toSLifter fn = .ok g)
    {regs : List RvReg} (hregs : ∀ r, r ∈ regs) {fuel : Nat} {plan : Plan RvReg}
    (hplan : optimizePacks (rvLifterC env slide fold) g (packIds fn) regs fuel = some plan)
    (hfold : ∀ c, FoldOK (rvLifterC env slide fold) slide g c)
    {drop : RvReg → Val 64 → Bool} (hdrop : ∀ r v, drop r v = true → v = none)
    (hblind : (∀ r v, drop r v = false) ∨ ∀ f, env.callFn = some f ∨ env.sysFn = some f →
      ∀ c c' d, Patch (· = none) c c' → f c = some d → f c' = some d)
    {d : DInstr Frv} (hd : fn.instrs.head? = some d)
    (m : Spec.State) (hm : m.pc = d.inst.start + slide) (c : CPU RvReg (Val 64) VMem)
    (hc : rvRelF m c.slot c.mem) (hcpc : c.pc = some m.pc) (out0 : Id → RvReg → Val 64) (k : Nat) :
    (∃ k' < k, ∃ n m1 q a e, (rvGuestC env ext slide).run code slide n m = some m1 ∧
      runSsa (rvLifterC env slide fold) plan drop slide g k' (ssaStart out0 c)
        = some (.at q (.at a) e) ∧
      InStep g (rvGuestC env ext slide) slide rvRelF m1 (.at q (.at a) e) ∧
      ∃ bb, g (.at a) = some bb ∧ (rvGuestC env ext slide).StuckIn code slide bb.body m1) ∨
    ∃ n m1 x, (rvGuestC env ext slide).run code slide n m = some m1 ∧
      runSsa (rvLifterC env slide fold) plan drop slide g k (ssaStart out0 c) = some x ∧
      InStep g (rvGuestC env ext slide) slide rvRelF m1 x ∧ Progress k n x := by
  have hdec : ∀ i ∈ fn.insts, Decoded i.payload := by
    intro i hi
    obtain ⟨c, hc, hd⟩ := C01_genuine H i hi
    rw [hcalls c hc] at hd
    exact hcode _ _ _ hd
  refine C09_simulation_drop_partial (undef := (· = none)) (cls := rvClassify)
    (callFn := env.callFn.isSome)
    ⟨H, hcalls, hcount, ⟨known, hl⟩, ⟨regs, fuel, hregs, hplan⟩, ?_, hfold, fun i _ => rvC_plain _ _ _ _ i,
      fun i hi => rvC_targets _ _ _ i (hdec i hi) (hjal.imp id (fun h => h i hi)),
      fun i => rvC_item _ _ _ i, by simp, ?_⟩
    hdrop ?_ ?_ hd m hm c hc hcpc out0 k
  · intro i hi
    exact rvC_correct hx _ _ i (hdec i hi) (hpic.imp id (fun h => h i hi))
  · intro m r r' μ μ' h h1 h2
    obtain rfl : r = r' := funext h1
    obtain rfl : μ = μ' := h2
    exact h
  · exact hblind.imp id fun hblind => rvC_blind hblind
  · exact rvC_patch

end Verif.Lift.RV64
