import Verif.Lift.Drop
import Verif.X86.Static
import Verif.X86.System
import Mathlib.Data.Fintype.Sum
import Mathlib.Data.Fintype.Basic

/-!
End-to-end theorem for the general-purpose and SSE instructions of x86-64 (C09, C10, C31, C36): decoding with
`ll_func_decode_cfg`, lifting every instruction with the modelled lifter, placing the stores, and
executing the resulting function, with or without a call function and a system call function.  Instruction overrides
are added in `Lift/Override`.
-/

namespace Verif.Lift.X86

open Verif.Decode Verif.IR Verif.X86 Verif.X86.Spec Verif.Lift

set_option linter.unusedSimpArgs false
set_option linter.constructorNameAsVariable false
set_option maxRecDepth 4000

/-- `classifyInstr` for x86-64, /repo/src/lldecoder.cc:50-93.  `exc` tells which of the instructions
without a model are INT, INT3, INTO, UD0, UD1, UD2 or HLT. -/
def xClassify (exc : Inst Instr → Bool) : Classifier Instr := fun i =>
  match i.payload with
  | .jcc _ off | .jcxz _ off | .loop _ _ off => (.condBranch, i.stop + off)
  | .jmpRel off => (.branch, i.stop + off)
  | .jmp _ => (.branch, 0)
  | .callRel _ | .call _ => (.call, 0)
  | .ret _ | .syscall => (.unknown, 0)
  | .unknown => (if exc i then .unknown else .other, 0)
  | _ => (.other, 0)

instance : Fintype Flag := ⟨{.of, .sf, .zf, .af, .pf, .cf, .df}, by intro x; cases x <;> simp⟩

/-- The general-purpose registers, flags and XMM registers of the CPU struct, besides the program counter,
/repo/data/rellume/cpustruct-x86_64.json. -/
abbrev XReg := Fin 16 ⊕ Flag ⊕ Fin 16

/-- Memory and the fields FSBASE and GSBASE of the CPU struct, which the code accesses like memory. -/
abbrev XMem := VMem × Val 64 × Val 64

/-- One common type of register values is needed; narrower registers use the low bits. -/
abbrev XVal := Val 128

/-- The state of the instruction lifter's model. -/
def toX (s : St XReg XVal XMem) : Verif.X86.St where
  gp := fun k => trunc 64 (s.regs (.inl k))
  fl := fun f => trunc 1 (s.regs (.inr (.inl f)))
  pf := trunc 8 (s.regs (.inr (.inl .pf)))
  vec := fun k => s.regs (.inr (.inr k))
  fs := s.mem.2.1
  gs := s.mem.2.2
  mem := s.mem.1
  pc := s.pc

/-- Is a register written by the code of an instruction? -/
def xOut (cl : Bool) (i : Instr) : XReg → Bool
  | .inl k => (gpOuts i).contains k
  | .inr (.inl f) => flOut cl i f
  | .inr (.inr k) => (xOuts i).contains k

/-- Registers marked dirty by the code of an instruction (`RegFile::Set`). -/
def xDirty (cl : Bool) (i : Instr) : Finset XReg := Finset.univ.filter fun r => xOut cl i r = true

theorem mem_xDirty {cl : Bool} {i : Instr} {r : XReg} : r ∈ xDirty cl i ↔ xOut cl i r = true := by
  simp [xDirty]

/-- Back from the state of the instruction lifter's model: only dirty registers change.  The parity
flag is a byte, the other flags are bits. -/
def ofX (d : Finset XReg) (s : St XReg XVal XMem) (t : Verif.X86.St) : St XReg XVal XMem where
  regs := fun r => if r ∈ d then (match r with
    | .inl k => zext 128 (t.gp k)
    | .inr (.inl .pf) => zext 128 t.pf
    | .inr (.inl f) => zext 128 (t.fl f)
    | .inr (.inr k) => t.vec k) else s.regs r
  mem := (t.mem, t.fs, t.gs)
  pc := t.pc

/-- Configuration: the two flags and the functions called for CALL and SYSCALL. -/
structure Env where
  clobberFlags : Bool := false
  overflowIntrinsics : Bool := false
  callFn : Option (CPU XReg XVal XMem → Option (CPU XReg XVal XMem)) := none
  sysFn : Option (CPU XReg XVal XMem → Option (CPU XReg XVal XMem)) := none
  cpuinfo : Option (Val 32 → Val 32 → Val 64 × Val 64) := none

/-- The configuration of the instruction lifter's model; calls are separate items. -/
def Env.cfg (e : Env) : Verif.X86.Cfg :=
  { clobberFlags := e.clobberFlags, overflowIntrinsics := e.overflowIntrinsics, cpuinfo := e.cpuinfo }

/-- The code of an instruction without the call of an external function. -/
def xUpd (env : Env) (slide : BitVec 64) (i : Inst Instr) : Item XReg XVal XMem :=
  .upd (fun s => (Verif.X86.lift env.cfg slide i.payload i.start i.len (toX s)).map
    (fun o => ofX (xDirty env.clobberFlags i.payload) s o.st)) (xDirty env.clobberFlags i.payload)

/-- The code of an instruction, /repo/src/x86-64/lifter.cc:48-330; calls at
/repo/src/x86-64/lifter-gp.cc:650-660 and 684-690. -/
def xItems (env : Env) (slide : BitVec 64) (i : Inst Instr) : List (Item XReg XVal XMem) :=
  match i.payload, env.callFn, env.sysFn with
  | .callRel _, some g, _ | .call _, some g, _ =>
    [xUpd env slide i, .call g, .upd (fun s => some { s with pc := .check (s.pc.val slide) i.stop }) ∅]
  | .syscall, _, some g => [xUpd env slide i, .call g]
  | _, _, _ => [xUpd env slide i]

/-- The x86-64 lifter.  `fold` tells which branch conditions the IR builder folded to constants. -/
def xLifter (env : Env) (slide : BitVec 64) (fold : Inst Instr → Option Bool) :
    Lifter Instr XReg XVal XMem where
  ok := fun i => handled i.payload
  form := fun i => form env.callFn.isSome env.sysFn.isSome i.payload i.stop
  fold := fold
  startPc := fun i => i.start
  items := xItems env slide

/-- What the external functions do to the guest machine. -/
structure Ext where
  callee : S → Option S := some
  sys : S → Option S := some
  /-- The identification of the processor, see `Spec.cpuid`. -/
  id : BitVec 32 → BitVec 32 → Leaf := fun _ _ => ⟨0, 0, 0, 0⟩

/-- A call whose callee is run by the call function. -/
def xTail (env : Env) (ext : Ext) (p : Instr) (m : S) : Option S :=
  match p with
  | .callRel _ | .call _ => if env.callFn.isSome then ext.callee m else some m
  | _ => some m

/-- Entry of a system call: RCX holds the return address and R11 the flags. -/
def sysEntry (len : Nat) (m : S) : Option S :=
  m.rflags.map fun fl =>
    { (m.setGp 1 (m.ip + BitVec.ofNat 64 len)).setGp 11 fl with ip := m.ip + BitVec.ofNat 64 len }

/-- The guest machine: an x86-64 core.  A call whose callee is run by the call function, and a system
call, count as one step.  It stops where the lifter is known to be wrong (`Supported`). -/
noncomputable def xGuest (env : Env) (ext : Ext) : Guest Instr S where
  pc := fun m => m.ip
  step := fun i m => open Classical in
    if i.payload = .syscall then (sysEntry i.len m).bind ext.sys
    else if i.payload = .cpuid then some (Spec.cpuid ext.id i.len m)
    else if Supported env.cfg i.len m i.payload then
      ((step i.payload i.len m).map (fun m' => Spec.after env.cfg i.len m m' i.payload)).bind
        (xTail env ext i.payload)
    else none

/-- A flag held in the CPU struct; PF is set if its byte has an even number of ones. -/
def flagOf (regs : XReg → XVal) : Flag → Val 1
  | .pf => IR.not (trunc 1 (ctpop (trunc 8 (regs (.inr (.inl .pf))))))
  | f => trunc 1 (regs (.inr (.inl f)))

/-- A CPU struct and memory represent the state of the core. -/
structure XRel (m : S) (regs : XReg → XVal) (mem : XMem) : Prop where
  gp : ∀ r, trunc 64 (regs (.inl r)) = some (m.gp r)
  vec : ∀ r, regs (.inr (.inr r)) = some (m.vec r)
  fl : ∀ f b, m.fl f = some b → flagOf regs f = some (BitVec.ofBool b)
  fs : mem.2.1 = some m.fs
  gs : mem.2.2 = some m.gs
  mem : mem.1 = m.mem.toV

/-- The external function `g` does what `f` says. -/
def Implements (g : CPU XReg XVal XMem → Option (CPU XReg XVal XMem)) (f : S → Option S) : Prop :=
  ∀ m m' c, XRel m c.slot c.mem → c.pc = some m.ip → f m = some m' →
    ∃ c', g c = some c' ∧ XRel m' c'.slot c'.mem ∧ c'.pc = some m'.ip

/-- The external functions do what the guest machine expects; without a system call function
SYSCALL does nothing else (/repo/include/rellume/rellume.h, `ll_config_set_syscall_impl`). -/
structure ExtOK (env : Env) (ext : Ext) : Prop where
  call : ∀ g, env.callFn = some g → Implements g ext.callee
  sys : ∀ g, env.sysFn = some g → Implements g ext.sys
  nosys : env.sysFn = none → ext.sys = some
  cpuid : Identifies env.cfg ext.id

theorem toX_getF {s : St XReg XVal XMem} {f : Flag} : (toX s).getF f = flagOf s.regs f := by
  cases f <;> rfl

theorem toX_rel {slide : BitVec 64} {m : S} {s : St XReg XVal XMem} (h : XRel m s.regs s.mem)
    (hpc : s.pc.val slide = some m.ip) : Rel slide (toX s) m :=
  ⟨h.gp, h.vec, h.fs, h.gs, h.mem, hpc, fun f b hb => by rw [toX_getF]; exact h.fl f b hb⟩

theorem trunc_zext {w v : Nat} (h : w ≤ v) (x : Val w) : trunc w (zext v x) = x := by
  cases x with
  | none => rfl
  | some x =>
    simp only [trunc, zext, un, Option.map_some, Option.some.injEq]
    rw [BitVec.setWidth_setWidth_of_le x h, BitVec.setWidth_eq]

/-- Reading back what was written. -/
theorem rel_of_ofX {cl : Bool} {i : Instr} {s : St XReg XVal XMem} {t : Verif.X86.St}
    (h : FrI cl i (toX s) t) {slide : BitVec 64} {m : S} (hr : Rel slide t m) :
    XRel m (ofX (xDirty cl i) s t).regs (ofX (xDirty cl i) s t).mem ∧
      (ofX (xDirty cl i) s t).pc.val slide = some m.ip := by
  obtain ⟨h1, h2, h3, h4⟩ := h
  refine ⟨⟨fun r => ?_, fun r => ?_, fun f b hb => ?_, hr.fs, hr.gs, hr.mem⟩, hr.pc⟩
  · rw [← hr.gp r]
    simp only [ofX]
    split
    · exact trunc_zext (by omega) _
    next hk =>
      refine (h1 r ?_).symm
      simp only [mem_xDirty, xOut, List.contains_iff_mem] at hk
      exact hk
  · rw [← hr.vec r]
    simp only [ofX]
    split
    · rfl
    next hk =>
      refine (h4 r ?_).symm
      simp only [mem_xDirty, xOut, List.contains_iff_mem] at hk
      exact hk
  · rw [← hr.fl f b hb]
    have hne : ∀ f, f ≠ .pf → trunc 1 ((ofX (xDirty cl i) s t).regs (.inr (.inl f))) = t.fl f := by
      intro f hf
      simp only [ofX]
      split
      · cases f <;> first | exact absurd rfl hf | exact trunc_zext (by omega) _
      next hk =>
        refine (h2 f ?_).symm
        simp only [mem_xDirty, xOut] at hk
        exact hk
    have hpf : trunc 8 ((ofX (xDirty cl i) s t).regs (.inr (.inl .pf))) = t.pf := by
      simp only [ofX]
      split
      · exact trunc_zext (by omega) _
      next hk =>
        refine (h3 ?_).symm
        simp only [mem_xDirty, xOut] at hk
        exact hk
    cases f
    case pf => simp only [flagOf, hpf]; rfl
    all_goals exact hne _ (by decide)

/-- The first item executes the instruction lifter's model. -/
theorem upd_step {env : Env} {slide : BitVec 64} {i : Inst Instr} {s : St XReg XVal XMem} {m : S}
    {o : Verif.X86.St} (h : Verif.X86.lift env.cfg slide i.payload i.start i.len (toX s) = some { st := o })
    (hr : Rel slide o m) : ∃ s', execItem slide s (xUpd env slide i) = some s' ∧
      XRel m s'.regs s'.mem ∧ s'.pc.val slide = some m.ip ∧
      formOf s'.pc = form false false i.payload i.stop := by
  obtain ⟨-, -, hform, hfr⟩ := lift_static rfl rfl h
  refine ⟨ofX (xDirty env.clobberFlags i.payload) s o, ?_, ?_⟩
  · simp only [xUpd, execItem, h, Option.map_some]
  · obtain ⟨h1, h2⟩ := rel_of_ofX hfr hr
    exact ⟨h1, h2, hform⟩

/-- A call of an external function. -/
theorem call_step {slide : BitVec 64} {g : CPU XReg XVal XMem → Option (CPU XReg XVal XMem)}
    {f : S → Option S} (hg : Implements g f) {m m' : S} {s : St XReg XVal XMem}
    (hr : XRel m s.regs s.mem) (hpc : s.pc.val slide = some m.ip) (hf : f m = some m') :
    ∃ s' v, execItem slide s (.call g) = some s' ∧ XRel m' s'.regs s'.mem ∧
      s'.pc.val slide = some m'.ip ∧ s'.pc = .value v := by
  obtain ⟨c', h1, h2, h3⟩ := hg m m' (s.pack slide) hr hpc hf
  refine ⟨c'.unpack, c'.pc, by simp only [execItem, h1, Option.map_some], h2, ?_, rfl⟩
  show Pc.val slide (.value c'.pc) = _
  rw [h3]
  exact Pc.val_value _ _

theorem form_sys {c b : Bool} {p : Instr} {a : BitVec 64} (h : p ≠ .syscall) :
    form c b p a = form c false p a := by
  cases p <;> first | rfl | exact absurd rfl h

theorem x_correct {env : Env} {ext : Ext} (hx : ExtOK env ext) (slide : BitVec 64)
    (fold : Inst Instr → Option Bool) (i : Inst Instr)
    (hpic : slide = 0 ∨ handled i.payload = true) :
    Correct (xLifter env slide fold) (xGuest env ext) slide XRel i := by
  constructor
  · intro hok m m' s hrel hpc hst
    have hpc : m.ip = i.start + slide := hpc
    have hr : Rel slide (toX { s with pc := .const i.start }) m :=
      toX_rel (s := { s with pc := .const i.start }) hrel
        (by show Pc.val slide (.const i.start) = _; rw [Pc.val_const, hpc])
    -- any instruction but calls and system calls
    have plain : (∀ m1, xTail env ext i.payload m1 = some m1) → i.payload ≠ .syscall → i.payload ≠ .cpuid →
        xItems env slide i = [xUpd env slide i] →
        (form env.callFn.isSome env.sysFn.isSome i.payload i.stop ≠ .returned →
          form env.callFn.isSome env.sysFn.isSome i.payload i.stop = form false false i.payload i.stop) →
        ∃ s', execInst (xLifter env slide fold) slide i s = some s' ∧ XRel m' s'.regs s'.mem ∧
          s'.pc.val slide = some m'.ip ∧
          (form env.callFn.isSome env.sysFn.isSome i.payload i.stop ≠ .returned →
            formOf s'.pc = form env.callFn.isSome env.sysFn.isSome i.payload i.stop) := by
      intro hbind hne hne' hitems hform
      have hst' : Supported env.cfg i.len m i.payload ∧
          (step i.payload i.len m).map (fun m' => Spec.after env.cfg i.len m m' i.payload) = some m' := by
        simp only [xGuest, if_neg hne, if_neg hne'] at hst
        split at hst
        next hs =>
          obtain ⟨m1, h1, h2⟩ := Option.bind_eq_some_iff.1 hst
          rw [hbind m1] at h2
          cases h2
          exact ⟨hs, h1⟩
        · cases hst
      obtain ⟨hs, h1⟩ := hst'
      obtain ⟨m1, h2, rfl⟩ := Option.map_eq_some_iff.1 h1
      obtain ⟨o, ho, hro⟩ := X86_instruction_partial (cfg := env.cfg) (slide := slide) i.payload hs h2
        i.start _ hr hpc
      obtain ⟨s', h3, h4, h5, h6⟩ := upd_step ho hro
      refine ⟨s', ?_, h4, h5, fun hne => by rw [hform hne]; exact h6⟩
      show execItems slide (xItems env slide i) _ = _
      rw [hitems, execItems]
      exact Option.bind_eq_some_iff.2 ⟨s', h3, rfl⟩
    -- calls
    have call : ∀ p, i.payload = p → (∀ m1, xTail env ext p m1 = if env.callFn.isSome then ext.callee m1 else some m1) → p ≠ .syscall → p ≠ .cpuid →
        (∀ g, env.callFn = some g → xItems env slide i = [xUpd env slide i, .call g,
          .upd (fun s => some { s with pc := .check (s.pc.val slide) i.stop }) ∅] ∧
          form true env.sysFn.isSome p i.stop = .check i.stop) →
        (env.callFn = none → xItems env slide i = [xUpd env slide i]) →
        ∃ s', execInst (xLifter env slide fold) slide i s = some s' ∧ XRel m' s'.regs s'.mem ∧
          s'.pc.val slide = some m'.ip ∧
          (form env.callFn.isSome env.sysFn.isSome i.payload i.stop ≠ .returned →
            formOf s'.pc = form env.callFn.isSome env.sysFn.isSome i.payload i.stop) := by
      rintro p rfl hbind hne hne' hsome hnone
      cases hcf : env.callFn with
      | none =>
        have := plain (fun m1 => by rw [hbind m1, hcf]; rfl) hne hne' (hnone hcf)
          (by rw [hcf]; intro _; exact form_sys hne)
        rw [hcf] at this
        exact this
      | some g =>
        obtain ⟨hitems, hform⟩ := hsome g hcf
        have hst' : Supported env.cfg i.len m i.payload ∧ ∃ m1,
            step i.payload i.len m = some m1 ∧ ext.callee (Spec.after env.cfg i.len m m1 i.payload) = some m' := by
          simp only [xGuest, if_neg hne, if_neg hne'] at hst
          split at hst
          next hs =>
            obtain ⟨m1, h1, h2⟩ := Option.bind_eq_some_iff.1 hst
            rw [hbind m1, hcf] at h2
            obtain ⟨m2, h3, rfl⟩ := Option.map_eq_some_iff.1 h1
            exact ⟨hs, m2, h3, h2⟩
          · cases hst
        obtain ⟨hs, m1, h1, h2⟩ := hst'
        obtain ⟨o, ho, hro⟩ := X86_instruction_partial (cfg := env.cfg) (slide := slide) i.payload hs h1
          i.start _ hr hpc
        obtain ⟨s1, h3, h4, h5, -⟩ := upd_step ho hro
        obtain ⟨s2, v, h6, h7, h8, h9⟩ := call_step (hx.call g hcf) h4 h5 h2
        refine ⟨{ s2 with pc := .check (s2.pc.val slide) i.stop }, ?_, h7, ?_, fun _ => ?_⟩
        · show execItems slide (xItems env slide i) _ = _
          rw [hitems]
          simp only [execItems]
          rw [show execItem slide { s with pc := .const ((xLifter env slide fold).startPc i) }
            (xUpd env slide i) = some s1 from h3, Option.bind_some, h6, Option.bind_some]
          rfl
        · show Pc.val slide (.check _ _) = _
          rw [h8]; exact Pc.val_check _ _ _
        · rw [Option.isSome_some, hform]; rfl
    cases hp : i.payload
    case syscall =>
      simp only [xGuest, hp, if_true] at hst
      obtain ⟨m1, hm1, hst⟩ := Option.bind_eq_some_iff.1 hst
      obtain ⟨fl, hfl, rfl⟩ := Option.map_eq_some_iff.1 hm1
      have hr1 : Rel slide (toX { s with pc := .const i.stop }) (m.nx i.len) := by
        refine ⟨hr.gp, hr.vec, hr.fs, hr.gs, hr.mem, ?_, hr.fl⟩
        show Pc.val slide (.const i.stop) = _
        rw [Pc.val_const]
        simp only [S.nx, hpc, Inst.stop, Option.some.injEq]
        ac_rfl
      have hlift : Verif.X86.lift env.cfg slide .syscall i.start i.len (toX { s with pc := .const i.start })
          = some { st := (((toX { s with pc := .const i.stop }).setGp rcx
              ((toX { s with pc := .const i.stop }).ipRel slide)).setGp 11
              (flagAsReg (toX { s with pc := .const i.stop }) .q)) } := rfl
      have hro := (hr1.setGp rcx (m.ip + BitVec.ofNat 64 i.len)).setGp 11 fl
      have e1 : flagAsReg (toX { s with pc := .const i.stop }) .q = some fl := by
        rw [hr1.flagAsReg .q fl hfl]
        exact congrArg some (BitVec.setWidth_eq fl)
      have e2 : (toX { s with pc := .const i.stop }).ipRel slide = some (m.ip + BitVec.ofNat 64 i.len) := by
        simp only [St.ipRel, toX, Pc.get, addrPCBase, hpc, Inst.stop, Option.some.injEq]
        bv_omega
      rw [e1, e2] at hlift
      rw [← hp] at hlift
      obtain ⟨s1, h3, h4, h5, h6⟩ := upd_step hlift hro
      rw [hp] at h6
      cases hsf : env.sysFn with
      | none =>
        rw [hx.nosys hsf] at hst
        cases hst
        refine ⟨s1, ?_, h4, h5, fun _ => ?_⟩
        · show execItems slide (xItems env slide i) _ = _
          have : xItems env slide i = [xUpd env slide i] := by simp only [xItems, hp, hsf]
          rw [this, execItems]
          exact Option.bind_eq_some_iff.2 ⟨s1, h3, rfl⟩
        · simp only [xLifter, hp, hsf]; exact h6
      | some g =>
        obtain ⟨s2, v, h7, h8, h9, h10⟩ := call_step (hx.sys g hsf) h4 h5 hst
        refine ⟨s2, ?_, h8, h9, fun _ => ?_⟩
        · show execItems slide (xItems env slide i) _ = _
          have : xItems env slide i = [xUpd env slide i, .call g] := by simp only [xItems, hp, hsf]
          rw [this]
          simp only [execItems]
          rw [show execItem slide { s with pc := .const ((xLifter env slide fold).startPc i) }
            (xUpd env slide i) = some s1 from h3, Option.bind_some, h7, Option.bind_some]
        · simp only [xLifter, hp, h10, hsf]; rfl
    case cpuid =>
      have hm : m' = Spec.cpuid ext.id i.len m := by
        simp only [xGuest, hp, reduceCtorEq, if_false, if_true, Option.some.injEq] at hst
        exact hst.symm
      subst hm
      obtain ⟨o, ho, hro⟩ := C53_cpuid (cfg := env.cfg) (slide := slide) (len := i.len) (s := m) hx.cpuid
        i.start _ hr hpc
      rw [← hp] at ho
      obtain ⟨s1, h3, h4, h5, h6⟩ := upd_step ho hro
      refine ⟨s1, ?_, h4, h5, fun _ => ?_⟩
      · show execItems slide (xItems env slide i) _ = _
        have : xItems env slide i = [xUpd env slide i] := by simp only [xItems, hp]
        rw [this, execItems]
        exact Option.bind_eq_some_iff.2 ⟨s1, h3, rfl⟩
      · simp only [xLifter, hp]; rw [hp] at h6; exact h6
    case callRel off =>
      refine call _ hp (fun _ => rfl) (by simp) (by simp) (fun g hg => ⟨by simp only [xItems, hp, hg], rfl⟩)
        (fun hn => by simp only [xItems, hp, hn])
    case call r =>
      refine call _ hp (fun _ => rfl) (by simp) (by simp) (fun g hg => ⟨by simp only [xItems, hp, hg], rfl⟩)
        (fun hn => by simp only [xItems, hp, hn])
    case ret pop =>
      refine plain (fun m1 => by rw [hp]; rfl) (by rw [hp]; simp) (by rw [hp]; simp) (by simp only [xItems, hp]) ?_
      rw [hp]
      show (if env.callFn.isSome then Form.returned else .value) ≠ _ →
        (if env.callFn.isSome then Form.returned else .value) = .value
      cases env.callFn.isSome <;> simp
    all_goals
      exact plain (fun m1 => by rw [hp]; rfl) (by rw [hp]; simp) (by rw [hp]; simp) (by simp only [xItems, hp])
        (by rw [hp]; intro _; rfl)
  · intro hok
    have hok' : handled i.payload = false := hok
    rcases hpic with rfl | hpic
    · have hp : i.payload = .unknown := by
        cases hp : i.payload <;> rw [hp] at hok' <;> first | rfl | cases hok'
      have hitems : xItems env 0 i = [xUpd env 0 i] := by simp only [xItems, hp]
      refine ⟨by simp only [xLifter, hp]; rfl, fun m s hrel hpc => ?_⟩
      have hpc : m.ip = i.start + 0 := hpc
      have hr : Rel 0 (toX { s with pc := .const i.start }) m :=
        toX_rel (s := { s with pc := .const i.start }) hrel
          (by show Pc.val 0 (.const i.start) = _; rw [Pc.val_const, hpc])
      have hl : Verif.X86.lift env.cfg 0 i.payload i.start i.len (toX { s with pc := .const i.start })
          = some { st := { toX { s with pc := .const i.start } with pc := .value (some i.start) },
                   lifted := false } := by rw [hp]; rfl
      obtain ⟨-, -, -, hfr⟩ := lift_static rfl rfl hl
      have hro : Rel 0 { toX { s with pc := .const i.start } with pc := .value (some i.start) } m := by
        refine ⟨hr.gp, hr.vec, hr.fs, hr.gs, hr.mem, ?_, hr.fl⟩
        rw [Pc.val_value, hpc]; simp
      obtain ⟨h1, h2⟩ := rel_of_ofX hfr hro
      refine ⟨_, ?_, h1, h2, rfl⟩
      show execItems 0 (xItems env 0 i) _ = _
      rw [hitems, execItems]
      refine Option.bind_eq_some_iff.2 ⟨_, ?_, rfl⟩
      show (Verif.X86.lift env.cfg 0 i.payload i.start i.len (toX { s with pc := .const i.start })).map _ = _
      rw [hl]
      rfl
    · rw [hpic] at hok'; cases hok'

theorem xItems_mem {env : Env} {slide : BitVec 64} {i : Inst Instr} {it : Item XReg XVal XMem}
    (h : it ∈ xItems env slide i) : it = xUpd env slide i ∨
      it = .upd (fun s => some { s with pc := .check (s.pc.val slide) i.stop }) ∅ ∨
      ∃ g, it = .call g ∧ (env.callFn = some g ∨ env.sysFn = some g) := by
  unfold xItems at h
  split at h <;> simp only [List.mem_cons, List.not_mem_nil, or_false] at h
  next hg => rcases h with h | h | h; exacts [.inl h, .inr (.inr ⟨_, h, .inl hg⟩), .inr (.inl h)]
  next hg => rcases h with h | h | h; exacts [.inl h, .inr (.inr ⟨_, h, .inl hg⟩), .inr (.inl h)]
  next hg => rcases h with h | h; exacts [.inl h, .inr (.inr ⟨_, h, .inr hg⟩)]
  · exact .inl h

theorem x_item (env : Env) (slide : BitVec 64) (fold : Inst Instr → Option Bool) (i : Inst Instr) :
    ∀ it ∈ (xLifter env slide fold).items i, ItemOK (Refine.eq XVal XMem) it := by
  have mono : ∀ (f : St XReg XVal XMem → Option (St XReg XVal XMem)) (s t s' : St XReg XVal XMem),
      (Refine.eq XVal XMem).st s t → f s = some s' →
      ∃ t', f t = some t' ∧ (Refine.eq XVal XMem).st s' t' := by
    rintro f ⟨r1, μ1, p1⟩ ⟨r2, μ2, p2⟩ s' ⟨h1, h2, h3⟩ h
    obtain rfl : r1 = r2 := funext h1
    obtain rfl : μ1 = μ2 := h2
    obtain rfl : p1 = p2 := h3
    exact ⟨s', h, fun _ => rfl, rfl, rfl⟩
  intro it hit
  rcases xItems_mem hit with rfl | rfl | ⟨g, rfl, -⟩
  · refine ⟨?_, mono _⟩
    intro s s' h r hr
    obtain ⟨o, ho, rfl⟩ := Option.map_eq_some_iff.1 h
    simp only [ofX, if_neg hr]
  · refine ⟨?_, mono _⟩
    intro s s' h r hr
    cases h; rfl
  · rintro ⟨r1, p1, μ1⟩ ⟨r2, p2, μ2⟩ s' ⟨h1, h2, h3⟩ h
    obtain rfl : r1 = r2 := funext h1
    obtain rfl : μ1 = μ2 := h2
    obtain rfl : p1 = p2 := h3
    exact ⟨s', h, fun _ => rfl, rfl, rfl⟩

theorem x_plain {MS : Type} (G : Guest Instr MS) (exc : Inst Instr → Bool) (env : Env)
    (slide : BitVec 64) (fold : Inst Instr → Option Bool) (i : Inst Instr) :
    PlainFalls (xClassify exc) (xLifter env slide fold).toSLifter G slide i := by
  intro hc hok
  left
  rcases i with ⟨a, len, p⟩
  cases p <;> first | rfl | cases hc | cases hok

theorem x_targets (exc : Inst Instr → Bool) (env : Env) (slide : BitVec 64)
    (fold : Inst Instr → Option Bool) (i : Inst Instr) (hsys : env.sysFn = none → i.payload ≠ .syscall) :
    TargetsKnown (xClassify exc) env.callFn.isSome (xLifter env slide fold).toSLifter i := by
  rcases i with ⟨a, len, p⟩
  have hplain : (xClassify exc ⟨a, len, p⟩).1 = .other →
      form env.callFn.isSome env.sysFn.isSome p (Inst.stop (P := Instr) ⟨a, len, p⟩)
        = (if handled p then .const (Inst.stop (P := Instr) ⟨a, len, p⟩) else .value) →
      TargetsKnown (xClassify exc) env.callFn.isSome (xLifter env slide fold).toSLifter ⟨a, len, p⟩ := by
    intro h1 h2
    right
    intro b hb _
    simp only [xLifter] at hb
    rw [h2] at hb
    right
    refine ⟨.inl h1, ?_⟩
    split at hb
    · simpa [Form.targets] using hb
    · simp [Form.targets] at hb
  have hcall : ∀ q, p = q → (xClassify exc ⟨a, len, q⟩).1 = .call →
      form true env.sysFn.isSome q (Inst.stop (P := Instr) ⟨a, len, q⟩) = .check (Inst.stop (P := Instr) ⟨a, len, q⟩) →
      TargetsKnown (xClassify exc) env.callFn.isSome (xLifter env slide fold).toSLifter ⟨a, len, q⟩ := by
    rintro q rfl h1 h2
    cases hcf : env.callFn.isSome with
    | false => exact .inl ⟨h1, rfl⟩
    | true =>
      right
      intro b hb _
      simp only [xLifter, hcf, h2, Form.targets, List.mem_singleton] at hb
      exact .inr ⟨.inr (.inr ⟨h1, rfl⟩), hb⟩
  have hnone : (form env.callFn.isSome env.sysFn.isSome p (Inst.stop (P := Instr) ⟨a, len, p⟩)).targets = [] →
      TargetsKnown (xClassify exc) env.callFn.isSome (xLifter env slide fold).toSLifter ⟨a, len, p⟩ := by
    intro h
    right
    intro b hb _
    simp only [xLifter] at hb
    rw [h] at hb
    cases hb
  cases p <;> first | exact hplain rfl rfl | exact hcall _ rfl rfl rfl | exact hnone rfl | skip
  case jmpRel off =>
    right
    intro b hb hne
    obtain rfl := List.mem_singleton.1 hb
    exact .inl ⟨hne, rfl⟩
  case ret pop =>
    refine hnone ?_
    show (if env.callFn.isSome then Form.returned else .value).targets = []
    cases env.callFn.isSome <;> rfl
  case syscall =>
    refine hnone ?_
    show (if env.sysFn.isSome then Form.value else .const _).targets = []
    cases h : env.sysFn with
    | none => exact absurd rfl (hsys h)
    | some g => rfl
  all_goals
    right
    intro b hb hne
    rcases List.mem_cons.1 hb with rfl | hb
    · exact .inl ⟨hne, rfl⟩
    · obtain rfl := List.mem_singleton.1 hb
      exact .inr ⟨.inr (.inl rfl), rfl⟩

theorem x_patch : ∀ (m : S) (r r' : XReg → XVal) (μ : XMem), XRel m r μ →
    (∀ x, r x = r' x ∨ r x = none) → XRel m r' μ := by
  intro m r r' μ h hp
  have hreg : ∀ x v, r x = some v → r' x = some v := by
    intro x v hv
    rcases hp x with h1 | h1
    · rw [← h1]; exact hv
    · rw [h1] at hv; cases hv
  have key : ∀ {w : Nat} x (v : BitVec w), trunc w (r x) = some v → trunc w (r' x) = some v := by
    intro w x v hv
    rcases hp x with h1 | h1
    · rw [← h1]; exact hv
    · rw [h1] at hv; cases hv
  refine ⟨fun k => key _ _ (h.gp k), fun k => hreg _ _ (h.vec k), fun f b hb => ?_, h.fs, h.gs, h.mem⟩
  have := h.fl f b hb
  cases f
  case pf =>
    cases hv : trunc 8 (r (.inr (.inl .pf))) with
    | none => simp only [flagOf, hv] at this; cases this
    | some v =>
      simp only [flagOf, hv] at this
      simp only [flagOf, key _ _ hv]
      exact this
  all_goals exact key _ _ this

theorem x_blind {env : Env} {slide : BitVec 64} {fold : Inst Instr → Option Bool}
    (hblind : ∀ f, env.callFn = some f ∨ env.sysFn = some f →
      ∀ c c' d, Patch (· = none) c c' → f c = some d → f c' = some d) :
    Blind (· = none) (xLifter env slide fold) := by
  intro i f hf
  rcases xItems_mem hf with h | h | ⟨f', h, hf'⟩
  · cases h
  · cases h
  · cases h; exact hblind f hf'

/-- C09, C10, C31 and C36 for x86-64: take any code that decodes to modelled instructions, decode it
with any sequence of `ll_func_decode_cfg` calls, or otherwise so that no control-flow edge is missed
(`Counted`, e.g. with one `ll_func_decode_block` call), and lift it, with or without a call function and a
system call function; the code may have been moved by `slide` bytes against the addresses it was decoded
at if all instructions can be lifted.  The external functions do to the CPU struct what `ext` does to the
guest machine; if stores of undefined values are left out (`drop`), they do not depend on undefined
registers.  Call the lifted function on a CPU struct that holds the state of a core standing at the entry
address.  After any number of executed blocks, either the core has reached an instruction outside the
proved set or the lifted function has had no undefined behaviour and is in step with the core: when it
returns, the CPU struct holds exactly the registers, the known flags, memory and the program counter of
the core after some number of instructions.

Missing: x87 instructions and the control registers of SSE, RDTSC, the defects listed in `Supported`, SYSCALL without a
system call function (`C09_syscall_counterexample`), and functions decoded so that edges
are missed. -/
theorem C09_x86_partial (exc : Inst Instr → Bool) {env : Env} {ext : Ext} (hx : ExtOK env ext)
    {code : Decoder Instr}
    {h : List (Call Instr)} {fn : Fn Instr} (H : Hist (xClassify exc) h fn)
    (hcalls : ∀ c ∈ h, c.dec = code) (hcount : Counted (xClassify exc) env.callFn.isSome h fn)
    (slide : BitVec 64) (hpic : slide = 0 ∨ ∀ i ∈ fn.insts, handled i.payload = true)
    (hsys : env.sysFn = none → ∀ i ∈ fn.insts, i.payload ≠ .syscall)
    (fold : Inst Instr → Option Bool) {known : Bool} {g : Graph Instr}
    (hl : lift known (xLifter env slide fold).toSLifter fn = .ok g)
    {regs : List XReg} (hregs : ∀ r, r ∈ regs) {fuel : Nat} {plan : Plan XReg}
    (hplan : optimizePacks (xLifter env slide fold) g (packIds fn) regs fuel = some plan)
    (hfold : ∀ c, FoldOK (xLifter env slide fold) slide g c)
    {drop : XReg → XVal → Bool} (hdrop : ∀ r v, drop r v = true → v = none)
    (hblind : (∀ r v, drop r v = false) ∨ ∀ f, env.callFn = some f ∨ env.sysFn = some f →
      ∀ c c' d, Patch (· = none) c c' → f c = some d → f c' = some d)
    {d : DInstr Instr} (hd : fn.instrs.head? = some d)
    (m : S) (hm : m.ip = d.inst.start + slide) (c : CPU XReg XVal XMem)
    (hc : XRel m c.slot c.mem) (hcpc : c.pc = some m.ip) (out0 : Id → XReg → XVal) (k : Nat) :
    (∃ k' < k, ∃ n m1 q a e, (xGuest env ext).run code slide n m = some m1 ∧
      runSsa (xLifter env slide fold) plan drop slide g k' (ssaStart out0 c)
        = some (.at q (.at a) e) ∧
      InStep g (xGuest env ext) slide XRel m1 (.at q (.at a) e) ∧
      ∃ bb, g (.at a) = some bb ∧ (xGuest env ext).StuckIn code slide bb.body m1) ∨
    ∃ n m1 x, (xGuest env ext).run code slide n m = some m1 ∧
      runSsa (xLifter env slide fold) plan drop slide g k (ssaStart out0 c) = some x ∧
      InStep g (xGuest env ext) slide XRel m1 x ∧ Progress k n x := by
  refine C09_simulation_drop_partial (undef := (· = none)) (cls := xClassify exc)
    (callFn := env.callFn.isSome)
    ⟨H, hcalls, hcount, ⟨known, hl⟩, ⟨regs, fuel, hregs, hplan⟩, ?_, hfold, fun i _ => x_plain _ _ _ _ _ i,
      fun i hi => x_targets _ _ _ _ i (fun h => hsys h i hi), fun i => x_item _ _ _ i, by simp, ?_⟩
    hdrop ?_ ?_ hd m hm c hc hcpc out0 k
  · intro i hi
    exact x_correct hx _ _ i (hpic.imp id (fun h => h i hi))
  · intro m r r' μ μ' h h1 h2
    obtain rfl : r = r' := funext h1
    obtain rfl : μ = μ' := h2
    exact h
  · exact hblind.imp id fun hblind => x_blind hblind
  · exact x_patch

end Verif.Lift.X86
