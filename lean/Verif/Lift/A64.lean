import Verif.Lift.Drop
import Verif.A64.Static
import Mathlib.Data.Fintype.Sum
import Mathlib.Data.Fintype.Basic

/-!
End-to-end theorem for AArch64 (C09, C10, C31, C36): decoding with `ll_func_decode_cfg`, lifting every
instruction with the modelled lifter, placing the stores, and executing the resulting function, with
or without a call function and a system call function.  Instruction
overrides are added in `Lift/Override`.
-/

namespace Verif.Lift.A64

open Verif.Decode Verif.IR Verif.A64 Verif.A64.Spec Verif.Lift

set_option linter.unusedSimpArgs false
set_option linter.constructorNameAsVariable false

/-- `classifyInstr` for AArch64, /repo/src/lldecoder.cc:122-149.  `exc` tells which of the instructions
without a model are HVC, SMC, BRK, HLT or DCPS. -/
def aClassify (exc : Inst Instr → Bool) : Classifier Instr := fun i =>
  match i.payload with
  | .bcond _ off | .cbz _ _ _ off | .tbz _ _ _ _ off => (.condBranch, i.start + off)
  | .b off => (.branch, i.start + off)
  | .br _ => (.branch, 0)
  | .bl _ | .blr _ => (.call, 0)
  | .ret _ | .svc => (.unknown, 0)
  | .unknown => (if exc i then .unknown else .other, 0)
  | _ => (.other, 0)

instance : Fintype Flag := ⟨{.n, .z, .c, .v}, by intro x; cases x <;> simp⟩

/-- The registers of the CPU struct besides the program counter: X0-X30 and SP, V0-V31 and the flags,
/repo/data/rellume/cpustruct-aarch64.json. -/
abbrev AReg := Fin 32 ⊕ Fin 32 ⊕ Flag

/-- Memory and the field TPIDR_EL0 of the CPU struct, which the code accesses like memory. -/
abbrev AMem := VMem × Val 64

/-- One common type of register values is needed; narrower registers use the low bits. -/
abbrev AVal := Val 128

/-- The state of the instruction lifter's model. -/
def toA (s : St AReg AVal AMem) : Verif.A64.St where
  gp := fun k => trunc 64 (s.regs (.inl k))
  vec := fun k => s.regs (.inr (.inl k))
  fl := fun f => trunc 1 (s.regs (.inr (.inr f)))
  tpidr := s.mem.2
  mem := s.mem.1
  pc := s.pc

/-- Is a register written by the code of an instruction? -/
def aOut (cl : Bool) (i : Instr) : AReg → Bool
  | .inl k => (gpOuts i).any (fun x => x.idx == some k)
  | .inr (.inl k) => (vecOuts i).contains k
  | .inr (.inr f) => flOut cl i f

/-- Registers marked dirty by the code of an instruction (`RegFile::Set`). -/
def aDirty (cl : Bool) (i : Instr) : Finset AReg := Finset.univ.filter fun r => aOut cl i r = true

theorem mem_aDirty {cl : Bool} {i : Instr} {r : AReg} : r ∈ aDirty cl i ↔ aOut cl i r = true := by
  simp [aDirty]

/-- Back from the state of the instruction lifter's model: only dirty registers change. -/
def ofA (d : Finset AReg) (s : St AReg AVal AMem) (t : Verif.A64.St) : St AReg AVal AMem where
  regs := fun r => if r ∈ d then (match r with
    | .inl k => zext 128 (t.gp k)
    | .inr (.inl k) => t.vec k
    | .inr (.inr f) => zext 128 (t.fl f)) else s.regs r
  mem := (t.mem, t.tpidr)
  pc := t.pc

/-- Configuration: the two flags and the functions called for BL/BLR and SVC. -/
structure Env where
  clobberFlags : Bool := false
  overflowIntrinsics : Bool := false
  callFn : Option (CPU AReg AVal AMem → Option (CPU AReg AVal AMem)) := none
  sysFn : Option (CPU AReg AVal AMem → Option (CPU AReg AVal AMem)) := none

/-- The configuration of the instruction lifter's model; calls are separate items. -/
def Env.cfg (e : Env) : Verif.A64.Cfg :=
  { clobberFlags := e.clobberFlags, overflowIntrinsics := e.overflowIntrinsics }

/-- The code of an instruction without the call of an external function. -/
def aUpd (env : Env) (slide : BitVec 64) (i : Inst Instr) : Item AReg AVal AMem :=
  .upd (fun s => (Verif.A64.lift env.cfg slide i.payload i.start i.len (toA s)).map
    (fun o => ofA (aDirty env.clobberFlags i.payload) s o.st)) (aDirty env.clobberFlags i.payload)

/-- The code of an instruction, /repo/src/a64/main.cc:51-910; calls at 243-247 and 358-379. -/
def aItems (env : Env) (slide : BitVec 64) (i : Inst Instr) : List (Item AReg AVal AMem) :=
  match i.payload, env.callFn, env.sysFn with
  | .bl _, some g, _ | .blr _, some g, _ =>
    [aUpd env slide i, .call g, .upd (fun s => some { s with pc := .check (s.pc.val slide) i.stop }) ∅]
  | .svc, _, some g => [aUpd env slide i, .call g]
  | _, _, _ => [aUpd env slide i]

/-- The AArch64 lifter.  `fold` tells which branch conditions the IR builder folded to constants. -/
def aLifter (env : Env) (slide : BitVec 64) (fold : Inst Instr → Option Bool) :
    Lifter Instr AReg AVal AMem where
  ok := fun i => handled i.payload
  form := fun i => form env.callFn.isSome i.payload i.start i.stop
  fold := fold
  startPc := fun i => i.start
  items := aItems env slide

/-- What the external functions do to the guest machine. -/
structure Ext where
  callee : S → Option S := some
  sys : S → Option S := some

/-- A call whose callee is run by the call function. -/
def aTail (env : Env) (ext : Ext) (p : Instr) (m : S) : Option S :=
  match p with
  | .bl _ | .blr _ => if env.callFn.isSome then ext.callee m else some m
  | _ => some m

/-- The guest machine: an AArch64 core.  A call whose callee is run by the call function, and a system
call, count as one step.  It stops where the lifter is known to be wrong (`Supported`; SVC in relocated
code). -/
noncomputable def aGuest (env : Env) (ext : Ext) (slide : BitVec 64) : Guest Instr S where
  pc := fun m => m.pc
  step := fun i m => open Classical in
    if i.payload = .svc then
      if slide = 0 then ext.sys { m with pc := m.pc + BitVec.ofNat 64 i.len } else none
    else if Supported env.cfg m i.payload then
      ((step i.payload i.len m).map (fun m' => Spec.after env.cfg m' i.payload)).bind
        (aTail env ext i.payload)
    else none

/-- A CPU struct and memory represent the state of the core. -/
structure ARel (m : S) (regs : AReg → AVal) (mem : AMem) : Prop where
  gp : ∀ r : Fin 31, trunc 64 (regs (.inl ⟨r.val, by omega⟩)) = some (m.x r)
  sp : trunc 64 (regs (.inl 31)) = some m.sp
  vec : ∀ r, regs (.inr (.inl r)) = some (m.vec r)
  fl : ∀ f b, m.fl f = some b → trunc 1 (regs (.inr (.inr f))) = some (BitVec.ofBool b)
  tpidr : mem.2 = some m.tpidr
  mem : mem.1 = m.mem.toV

/-- The external function `g` does what `f` says. -/
def Implements (g : CPU AReg AVal AMem → Option (CPU AReg AVal AMem)) (f : S → Option S) : Prop :=
  ∀ m m' c, ARel m c.slot c.mem → c.pc = some m.pc → f m = some m' →
    ∃ c', g c = some c' ∧ ARel m' c'.slot c'.mem ∧ c'.pc = some m'.pc

/-- The external functions do what the guest machine expects; without a system call function SVC does
nothing (/repo/include/rellume/rellume.h, `ll_config_set_syscall_impl`). -/
structure ExtOK (env : Env) (ext : Ext) : Prop where
  call : ∀ g, env.callFn = some g → Implements g ext.callee
  sys : ∀ g, env.sysFn = some g → Implements g ext.sys
  nosys : env.sysFn = none → ext.sys = some

theorem toA_rel {slide : BitVec 64} {m : S} {s : St AReg AVal AMem} (h : ARel m s.regs s.mem)
    (hpc : s.pc.val slide = some m.pc) : Rel slide (toA s) m :=
  ⟨h.gp, h.sp, h.vec, h.tpidr, h.mem, hpc, h.fl⟩

theorem trunc_zext {w v : Nat} (h : w ≤ v) (x : Val w) : trunc w (zext v x) = x := by
  cases x with
  | none => rfl
  | some x =>
    simp only [trunc, zext, un, Option.map_some, Option.some.injEq]
    rw [BitVec.setWidth_setWidth_of_le x h, BitVec.setWidth_eq]

/-- Reading back what was written. -/
theorem toA_ofA {cl : Bool} {i : Instr} {s : St AReg AVal AMem} {t : Verif.A64.St}
    (h : FrI cl i (toA s) t) : toA (ofA (aDirty cl i) s t) = t := by
  obtain ⟨h1, h2, h3⟩ := h
  rcases t with ⟨gp, vec, fl, tp, mem, pc⟩
  have e1 : (toA (ofA (aDirty cl i) s ⟨gp, vec, fl, tp, mem, pc⟩)).gp = gp := by
    funext k
    simp only [toA, ofA]
    split
    · exact trunc_zext (by omega) _
    next hk =>
      refine (h1 k ?_).symm
      simp only [mem_aDirty, aOut, List.any_eq_true, beq_iff_eq] at hk
      exact hk
  have e2 : (toA (ofA (aDirty cl i) s ⟨gp, vec, fl, tp, mem, pc⟩)).vec = vec := by
    funext k
    simp only [toA, ofA]
    split
    · rfl
    next hk =>
      refine (h2 k ?_).symm
      simp only [mem_aDirty, aOut, List.contains_iff_mem] at hk
      exact hk
  have e3 : (toA (ofA (aDirty cl i) s ⟨gp, vec, fl, tp, mem, pc⟩)).fl = fl := by
    funext k
    simp only [toA, ofA]
    split
    · exact trunc_zext (by omega) _
    next hk =>
      refine (h3 k ?_).symm
      simp only [mem_aDirty, aOut] at hk
      exact hk
  have e4 : toA (ofA (aDirty cl i) s ⟨gp, vec, fl, tp, mem, pc⟩)
      = ⟨(toA (ofA (aDirty cl i) s ⟨gp, vec, fl, tp, mem, pc⟩)).gp,
         (toA (ofA (aDirty cl i) s ⟨gp, vec, fl, tp, mem, pc⟩)).vec,
         (toA (ofA (aDirty cl i) s ⟨gp, vec, fl, tp, mem, pc⟩)).fl, tp, mem, pc⟩ := rfl
  rw [e4, e1, e2, e3]

theorem rel_of_toA {slide : BitVec 64} {m : S} {s : St AReg AVal AMem} (h : Rel slide (toA s) m) :
    ARel m s.regs s.mem ∧ s.pc.val slide = some m.pc :=
  ⟨⟨h.gp, h.sp, h.vec, h.fl, h.tpidr, h.mem⟩, h.pc⟩

/-- The first item executes the instruction lifter's model. -/
theorem upd_step {env : Env} {slide : BitVec 64} {i : Inst Instr} {s : St AReg AVal AMem} {m : S}
    {o : Verif.A64.St} (h : Verif.A64.lift env.cfg slide i.payload i.start i.len (toA s) = some { st := o })
    (hr : Rel slide o m) : ∃ s', execItem slide s (aUpd env slide i) = some s' ∧
      ARel m s'.regs s'.mem ∧ s'.pc.val slide = some m.pc ∧
      formOf s'.pc = form false i.payload i.start i.stop := by
  obtain ⟨-, -, hform, hfr⟩ := lift_static rfl rfl h
  refine ⟨ofA (aDirty env.clobberFlags i.payload) s o, ?_, ?_⟩
  · simp only [aUpd, execItem, h, Option.map_some]
  · have : toA (ofA (aDirty env.clobberFlags i.payload) s o) = o := toA_ofA hfr
    obtain ⟨h1, h2⟩ := rel_of_toA (slide := slide) (m := m)
      (s := ofA (aDirty env.clobberFlags i.payload) s o) (by rw [this]; exact hr)
    exact ⟨h1, h2, hform⟩

/-- A call of an external function. -/
theorem call_step {slide : BitVec 64} {g : CPU AReg AVal AMem → Option (CPU AReg AVal AMem)}
    {f : S → Option S} (hg : Implements g f) {m m' : S} {s : St AReg AVal AMem}
    (hr : ARel m s.regs s.mem) (hpc : s.pc.val slide = some m.pc) (hf : f m = some m') :
    ∃ s' v, execItem slide s (.call g) = some s' ∧ ARel m' s'.regs s'.mem ∧
      s'.pc.val slide = some m'.pc ∧ s'.pc = .value v := by
  obtain ⟨c', h1, h2, h3⟩ := hg m m' (s.pack slide) hr hpc hf
  refine ⟨c'.unpack, c'.pc, by simp only [execItem, h1, Option.map_some], h2, ?_, rfl⟩
  show Pc.val slide (.value c'.pc) = _
  rw [h3]
  exact Pc.val_value _ _

theorem a_correct {env : Env} {ext : Ext} (hx : ExtOK env ext) (slide : BitVec 64)
    (fold : Inst Instr → Option Bool) (i : Inst Instr)
    (hpic : slide = 0 ∨ handled i.payload = true) :
    Correct (aLifter env slide fold) (aGuest env ext slide) slide ARel i := by
  constructor
  · intro hok m m' s hrel hpc hst
    have hpc : m.pc = i.start + slide := hpc
    have hr : Rel slide (toA { s with pc := .const i.start }) m :=
      toA_rel (s := { s with pc := .const i.start }) hrel
        (by show Pc.val slide (.const i.start) = _; rw [Pc.val_const, hpc])
    -- any instruction but calls and system calls
    have plain : (∀ m1, aTail env ext i.payload m1 = some m1) → i.payload ≠ .svc →
        aItems env slide i = [aUpd env slide i] →
        (form env.callFn.isSome i.payload i.start i.stop ≠ .returned →
          form env.callFn.isSome i.payload i.start i.stop = form false i.payload i.start i.stop) →
        ∃ s', execInst (aLifter env slide fold) slide i s = some s' ∧ ARel m' s'.regs s'.mem ∧
          s'.pc.val slide = some m'.pc ∧
          (form env.callFn.isSome i.payload i.start i.stop ≠ .returned →
            formOf s'.pc = form env.callFn.isSome i.payload i.start i.stop) := by
      intro hbind hne hitems hform
      have hst' : Supported env.cfg m i.payload ∧
          (step i.payload i.len m).map (fun m' => Spec.after env.cfg m' i.payload) = some m' := by
        simp only [aGuest, if_neg hne] at hst
        split at hst
        next hs =>
          obtain ⟨m1, h1, h2⟩ := Option.bind_eq_some_iff.1 hst
          rw [hbind m1] at h2
          cases h2
          exact ⟨hs, h1⟩
        · cases hst
      obtain ⟨hs, h1⟩ := hst'
      obtain ⟨m1, h2, rfl⟩ := Option.map_eq_some_iff.1 h1
      obtain ⟨o, ho, hro⟩ := A64_instruction_partial (cfg := env.cfg) (slide := slide) i.payload hs h2
        i.start _ hr hpc
      obtain ⟨s', h3, h4, h5, h6⟩ := upd_step ho hro
      refine ⟨s', ?_, h4, h5, fun hne => by rw [hform hne]; exact h6⟩
      show execItems slide (aItems env slide i) _ = _
      rw [hitems, execItems]
      exact Option.bind_eq_some_iff.2 ⟨s', h3, rfl⟩
    -- calls
    have call : ∀ p, i.payload = p → (∀ m1, aTail env ext p m1 = if env.callFn.isSome then ext.callee m1 else some m1) → p ≠ .svc →
        (∀ g, env.callFn = some g → aItems env slide i = [aUpd env slide i, .call g,
          .upd (fun s => some { s with pc := .check (s.pc.val slide) i.stop }) ∅] ∧
          form true p i.start i.stop = .check i.stop) →
        (env.callFn = none → aItems env slide i = [aUpd env slide i]) →
        ∃ s', execInst (aLifter env slide fold) slide i s = some s' ∧ ARel m' s'.regs s'.mem ∧
          s'.pc.val slide = some m'.pc ∧
          (form env.callFn.isSome i.payload i.start i.stop ≠ .returned →
            formOf s'.pc = form env.callFn.isSome i.payload i.start i.stop) := by
      rintro p rfl hbind hne hsome hnone
      cases hcf : env.callFn with
      | none =>
        have := plain (fun m1 => by rw [hbind m1, hcf]; rfl) hne (hnone hcf) (by rw [hcf]; intro _; rfl)
        rw [hcf] at this
        exact this
      | some g =>
        obtain ⟨hitems, hform⟩ := hsome g hcf
        have hst' : Supported env.cfg m i.payload ∧ ∃ m1,
            step i.payload i.len m = some m1 ∧ ext.callee (Spec.after env.cfg m1 i.payload) = some m' := by
          simp only [aGuest, if_neg hne] at hst
          split at hst
          next hs =>
            obtain ⟨m1, h1, h2⟩ := Option.bind_eq_some_iff.1 hst
            rw [hbind m1, hcf] at h2
            obtain ⟨m2, h3, rfl⟩ := Option.map_eq_some_iff.1 h1
            exact ⟨hs, m2, h3, h2⟩
          · cases hst
        obtain ⟨hs, m1, h1, h2⟩ := hst'
        obtain ⟨o, ho, hro⟩ := A64_instruction_partial (cfg := env.cfg) (slide := slide) i.payload hs h1
          i.start _ hr hpc
        obtain ⟨s1, h3, h4, h5, -⟩ := upd_step ho hro
        obtain ⟨s2, v, h6, h7, h8, h9⟩ := call_step (hx.call g hcf) h4 h5 h2
        refine ⟨{ s2 with pc := .check (s2.pc.val slide) i.stop }, ?_, h7, ?_, fun _ => ?_⟩
        · show execItems slide (aItems env slide i) _ = _
          rw [hitems]
          simp only [execItems]
          rw [show execItem slide { s with pc := .const ((aLifter env slide fold).startPc i) }
            (aUpd env slide i) = some s1 from h3, Option.bind_some, h6, Option.bind_some]
          rfl
        · show Pc.val slide (.check _ _) = _
          rw [h8]; exact Pc.val_check _ _ _
        · rw [Option.isSome_some, hform]; rfl
    rcases hp : i.payload with _ | _ | _ | _ | _ | _ | _ | _ | _ | _ | _ | _ | _ | _ | _ | _ | _ | _ |
      _ | _ | _ | _ | _ | _ | _ | _ | _ | _ | _ | _ | _ | _ | _ | _ | _ | _ | _ | _ | _ | _ | _ | _ |
      _ | _ | _ | _ | _ | _ | _ | _ | _ | _ | _ | _ | _
    case svc =>
      simp only [aGuest, hp, if_true] at hst
      split at hst
      next h0 =>
        subst h0
        have hlift : Verif.A64.lift env.cfg 0 .svc i.start i.len (toA { s with pc := .const i.start })
            = some { st := { toA { s with pc := .const i.start } with pc := .value (some i.stop) } } := rfl
        have hro : Rel 0 { toA { s with pc := .const i.start } with pc := .value (some i.stop) }
            { m with pc := m.pc + BitVec.ofNat 64 i.len } := by
          refine ⟨hr.gp, hr.sp, hr.vec, hr.tpidr, hr.mem, ?_, hr.fl⟩
          simp only [hpc, Pc.val_value, Inst.stop]
          simp
        rw [← hp] at hlift
        obtain ⟨s1, h3, h4, h5, h6⟩ := upd_step hlift hro
        rw [hp] at h6
        cases hsf : env.sysFn with
        | none =>
          rw [hx.nosys hsf] at hst
          cases hst
          refine ⟨s1, ?_, h4, h5, fun _ => ?_⟩
          · show execItems 0 (aItems env 0 i) _ = _
            have : aItems env 0 i = [aUpd env 0 i] := by simp only [aItems, hp, hsf]
            rw [this, execItems]
            exact Option.bind_eq_some_iff.2 ⟨s1, h3, rfl⟩
          · simp only [aLifter, hp]; exact h6
        | some g =>
          obtain ⟨s2, v, h7, h8, h9, h10⟩ := call_step (hx.sys g hsf) h4 h5 hst
          refine ⟨s2, ?_, h8, h9, fun _ => ?_⟩
          · show execItems 0 (aItems env 0 i) _ = _
            have : aItems env 0 i = [aUpd env 0 i, .call g] := by simp only [aItems, hp, hsf]
            rw [this]
            simp only [execItems]
            rw [show execItem 0 { s with pc := .const ((aLifter env 0 fold).startPc i) }
              (aUpd env 0 i) = some s1 from h3, Option.bind_some, h7, Option.bind_some]
          · simp only [aLifter, hp, h10]; rfl
      · cases hst
    case bl off =>
      refine call _ hp (fun _ => rfl) (by simp) (fun g hg => ⟨by simp only [aItems, hp, hg], rfl⟩)
        (fun hn => by simp only [aItems, hp, hn])
    case blr rn =>
      refine call _ hp (fun _ => rfl) (by simp) (fun g hg => ⟨by simp only [aItems, hp, hg], rfl⟩)
        (fun hn => by simp only [aItems, hp, hn])
    case ret rn =>
      refine plain (fun m1 => by rw [hp]; rfl) (by rw [hp]; simp) (by simp only [aItems, hp]) ?_
      rw [hp]
      simp only [form]
      cases env.callFn.isSome <;> simp
    all_goals
      exact plain (fun m1 => by rw [hp]; rfl) (by rw [hp]; simp) (by simp only [aItems, hp])
        (by rw [hp]; intro _; rfl)
  · intro hok
    have hok' : handled i.payload = false := hok
    rcases hpic with rfl | hpic
    · have hf : form env.callFn.isSome i.payload i.start i.stop = .value ∧
          aItems env 0 i = [aUpd env 0 i] := by
        rcases i with ⟨a, len, p⟩
        cases p <;> first | cases hok' | skip
        case msr sys rt => cases sys <;> first | exact ⟨rfl, rfl⟩ | cases hok'
        case mrs sys rt => cases sys <;> first | exact ⟨rfl, rfl⟩ | cases hok'
        case simd => exact ⟨by simp only [form, hok']; rfl, rfl⟩
        case fpu => exact ⟨by simp only [form, hok']; rfl, rfl⟩
        case unknown => exact ⟨rfl, rfl⟩
      refine ⟨hf.1, fun m s hrel hpc => ?_⟩
      have hpc : m.pc = i.start + 0 := hpc
      have hr : Rel 0 (toA { s with pc := .const i.start }) m :=
        toA_rel (s := { s with pc := .const i.start }) hrel
          (by show Pc.val 0 (.const i.start) = _; rw [Pc.val_const, hpc])
      have hl := lift_unhandled (cfg := env.cfg) (slide := 0) (start := i.start) (len := i.len)
        (s := toA { s with pc := .const i.start }) hok'
      obtain ⟨-, -, -, hfr⟩ := lift_static rfl rfl hl
      have := toA_ofA (s := { s with pc := .const i.start }) hfr
      have hro : Rel 0 { toA { s with pc := .const i.start } with pc := .value (some i.start) } m := by
        refine ⟨hr.gp, hr.sp, hr.vec, hr.tpidr, hr.mem, ?_, hr.fl⟩
        rw [Pc.val_value, hpc]; simp
      obtain ⟨h1, h2⟩ := rel_of_toA (slide := 0) (m := m) (s := ofA _ _ _) (by rw [this]; exact hro)
      refine ⟨_, ?_, h1, h2, rfl⟩
      show execItems 0 (aItems env 0 i) _ = _
      rw [hf.2, execItems]
      refine Option.bind_eq_some_iff.2 ⟨_, ?_, rfl⟩
      show (Verif.A64.lift env.cfg 0 i.payload i.start i.len (toA { s with pc := .const i.start })).map _ = _
      rw [hl]
      rfl
    · rw [hpic] at hok'; cases hok'

theorem aItems_mem {env : Env} {slide : BitVec 64} {i : Inst Instr} {it : Item AReg AVal AMem}
    (h : it ∈ aItems env slide i) : it = aUpd env slide i ∨
      it = .upd (fun s => some { s with pc := .check (s.pc.val slide) i.stop }) ∅ ∨
      ∃ g, it = .call g ∧ (env.callFn = some g ∨ env.sysFn = some g) := by
  unfold aItems at h
  split at h <;> simp only [List.mem_cons, List.not_mem_nil, or_false] at h
  next hg => rcases h with h | h | h; exacts [.inl h, .inr (.inr ⟨_, h, .inl hg⟩), .inr (.inl h)]
  next hg => rcases h with h | h | h; exacts [.inl h, .inr (.inr ⟨_, h, .inl hg⟩), .inr (.inl h)]
  next hg => rcases h with h | h; exacts [.inl h, .inr (.inr ⟨_, h, .inr hg⟩)]
  · exact .inl h

theorem a_item (env : Env) (slide : BitVec 64) (fold : Inst Instr → Option Bool) (i : Inst Instr) :
    ∀ it ∈ (aLifter env slide fold).items i, ItemOK (Refine.eq AVal AMem) it := by
  have mono : ∀ (f : St AReg AVal AMem → Option (St AReg AVal AMem)) (s t s' : St AReg AVal AMem),
      (Refine.eq AVal AMem).st s t → f s = some s' →
      ∃ t', f t = some t' ∧ (Refine.eq AVal AMem).st s' t' := by
    rintro f ⟨r1, μ1, p1⟩ ⟨r2, μ2, p2⟩ s' ⟨h1, h2, h3⟩ h
    obtain rfl : r1 = r2 := funext h1
    obtain rfl : μ1 = μ2 := h2
    obtain rfl : p1 = p2 := h3
    exact ⟨s', h, fun _ => rfl, rfl, rfl⟩
  intro it hit
  rcases aItems_mem hit with rfl | rfl | ⟨g, rfl, -⟩
  · refine ⟨?_, mono _⟩
    intro s s' h r hr
    obtain ⟨o, ho, rfl⟩ := Option.map_eq_some_iff.1 h
    simp only [ofA, if_neg hr]
  · refine ⟨?_, mono _⟩
    intro s s' h r hr
    cases h; rfl
  · rintro ⟨r1, p1, μ1⟩ ⟨r2, p2, μ2⟩ s' ⟨h1, h2, h3⟩ h
    obtain rfl : r1 = r2 := funext h1
    obtain rfl : μ1 = μ2 := h2
    obtain rfl : p1 = p2 := h3
    exact ⟨s', h, fun _ => rfl, rfl, rfl⟩

theorem a_plain {MS : Type} (G : Guest Instr MS) (exc : Inst Instr → Bool) (env : Env)
    (slide : BitVec 64) (fold : Inst Instr → Option Bool) (i : Inst Instr) :
    PlainFalls (aClassify exc) (aLifter env slide fold).toSLifter G slide i := by
  intro hc hok
  left
  rcases i with ⟨a, len, p⟩
  simp only [aLifter] at hok ⊢
  unfold aClassify at hc
  cases p <;> simp only [form] at hc ⊢ <;> first
    | rw [if_pos hok]
    | cases hc

theorem a_targets (exc : Inst Instr → Bool) (env : Env) (slide : BitVec 64)
    (fold : Inst Instr → Option Bool) (i : Inst Instr) :
    TargetsKnown (aClassify exc) env.callFn.isSome (aLifter env slide fold).toSLifter i := by
  rcases i with ⟨a, len, p⟩
  have hplain : (aClassify exc ⟨a, len, p⟩).1 = .other →
      form env.callFn.isSome p a (Inst.stop (P := Instr) ⟨a, len, p⟩)
        = (if handled p then .const (Inst.stop (P := Instr) ⟨a, len, p⟩) else .value) →
      TargetsKnown (aClassify exc) env.callFn.isSome (aLifter env slide fold).toSLifter ⟨a, len, p⟩ := by
    intro h1 h2
    right
    intro b hb _
    simp only [aLifter] at hb
    rw [h2] at hb
    right
    refine ⟨.inl h1, ?_⟩
    split at hb
    · simpa [Form.targets] using hb
    · simp [Form.targets] at hb
  have hcall : ∀ q, p = q → (aClassify exc ⟨a, len, q⟩).1 = .call →
      form true q a (Inst.stop (P := Instr) ⟨a, len, q⟩) = .check (Inst.stop (P := Instr) ⟨a, len, q⟩) →
      TargetsKnown (aClassify exc) env.callFn.isSome (aLifter env slide fold).toSLifter ⟨a, len, q⟩ := by
    rintro q rfl h1 h2
    cases hcf : env.callFn.isSome with
    | false => exact .inl ⟨h1, rfl⟩
    | true =>
      right
      intro b hb _
      simp only [aLifter, hcf, h2, Form.targets, List.mem_singleton] at hb
      exact .inr ⟨.inr (.inr ⟨h1, rfl⟩), hb⟩
  have hnone : (form env.callFn.isSome p a (Inst.stop (P := Instr) ⟨a, len, p⟩)).targets = [] →
      TargetsKnown (aClassify exc) env.callFn.isSome (aLifter env slide fold).toSLifter ⟨a, len, p⟩ := by
    intro h
    right
    intro b hb _
    simp only [aLifter] at hb
    rw [h] at hb
    cases hb
  cases p <;> first | exact hplain rfl rfl | exact hcall _ rfl rfl rfl | exact hnone rfl | skip
  case b off =>
    right
    intro b hb hne
    simp only [aLifter, form, Form.targets, List.mem_singleton] at hb
    subst hb
    exact .inl ⟨hne, rfl⟩
  case ret rn =>
    refine hnone ?_
    simp only [form]
    cases env.callFn.isSome <;> rfl
  all_goals
    right
    intro b hb hne
    simp only [aLifter, form, Form.targets, List.mem_cons, List.not_mem_nil, or_false] at hb
  all_goals
    rcases hb with rfl | rfl
    · exact .inl ⟨hne, rfl⟩
    · exact .inr ⟨.inr (.inl rfl), rfl⟩

theorem a_patch : ∀ (m : S) (r r' : AReg → AVal) (μ : AMem), ARel m r μ →
    (∀ x, r x = r' x ∨ r x = none) → ARel m r' μ := by
  intro m r r' μ h hp
  have key : ∀ {w : Nat} x (v : BitVec w), trunc w (r x) = some v → trunc w (r' x) = some v := by
    intro w x v hv
    rcases hp x with h1 | h1
    · rw [← h1]; exact hv
    · rw [h1] at hv; cases hv
  refine ⟨fun k => key _ _ (h.gp k), key _ _ h.sp, fun k => ?_, fun f b hb => key _ _ (h.fl f b hb),
    h.tpidr, h.mem⟩
  rcases hp (.inr (.inl k)) with h1 | h1
  · rw [← h1]; exact h.vec k
  · rw [h.vec k] at h1; cases h1

theorem a_blind {env : Env} {slide : BitVec 64} {fold : Inst Instr → Option Bool}
    (hblind : ∀ f, env.callFn = some f ∨ env.sysFn = some f →
      ∀ c c' d, Patch (· = none) c c' → f c = some d → f c' = some d) :
    Blind (· = none) (aLifter env slide fold) := by
  intro i f hf
  rcases aItems_mem hf with h | h | ⟨f', h, hf'⟩
  · cases h
  · cases h
  · cases h; exact hblind f hf'

/-- C09, C10, C31 and C36 for AArch64: take any code that decodes to modelled instructions, decode it with any
sequence of `ll_func_decode_cfg` calls, or otherwise so that no control-flow edge is missed
(`Counted`, e.g. with one `ll_func_decode_block` call), and lift it, with or without a call function and a system call
function; the code may have been moved by `slide` bytes against the addresses it was decoded at if all
instructions can be lifted.  The external functions do to the CPU struct what `ext` does to the guest
machine; if stores of undefined values are left out (`drop`), they do not depend on undefined registers.  Call the lifted function
on a CPU struct that holds the state of a core standing at the entry address.  After any number of
executed blocks, either the core has reached an instruction outside the proved set
or the lifted function has had no undefined behaviour and is in step
with the core: when it returns, the CPU struct holds exactly the registers, the known flags, memory and
the program counter of the core after some number of instructions.

Missing: the instructions that the lifter rejects, the defects listed in `Supported`, and
functions decoded so that edges are missed. -/
theorem C09_a64_partial (exc : Inst Instr → Bool) {env : Env} {ext : Ext} (hx : ExtOK env ext)
    {code : Decoder Instr}
    {h : List (Call Instr)} {fn : Fn Instr} (H : Hist (aClassify exc) h fn)
    (hcalls : ∀ c ∈ h, c.dec = code) (hcount : Counted (aClassify exc) env.callFn.isSome h fn)
    (slide : BitVec 64) (hpic : slide = 0 ∨ ∀ i ∈ fn.insts, handled i.payload = true)
    (fold : Inst Instr → Option Bool) {known : Bool} {g : Graph Instr}
    (hl : lift known (aLifter env slide fold).toSLifter fn = .ok g)
    {regs : List AReg} (hregs : ∀ r, r ∈ regs) {fuel : Nat} {plan : Plan AReg}
    (hplan : optimizePacks (aLifter env slide fold) g (packIds fn) regs fuel = some plan)
    (hfold : ∀ c, FoldOK (aLifter env slide fold) slide g c)
    {drop : AReg → AVal → Bool} (hdrop : ∀ r v, drop r v = true → v = none)
    (hblind : (∀ r v, drop r v = false) ∨ ∀ f, env.callFn = some f ∨ env.sysFn = some f →
      ∀ c c' d, Patch (· = none) c c' → f c = some d → f c' = some d)
    {d : DInstr Instr} (hd : fn.instrs.head? = some d)
    (m : S) (hm : m.pc = d.inst.start + slide) (c : CPU AReg AVal AMem)
    (hc : ARel m c.slot c.mem) (hcpc : c.pc = some m.pc) (out0 : Id → AReg → AVal) (k : Nat) :
    (∃ k' < k, ∃ n m1 q a e, (aGuest env ext slide).run code slide n m = some m1 ∧
      runSsa (aLifter env slide fold) plan drop slide g k' (ssaStart out0 c)
        = some (.at q (.at a) e) ∧
      InStep g (aGuest env ext slide) slide ARel m1 (.at q (.at a) e) ∧
      ∃ bb, g (.at a) = some bb ∧ (aGuest env ext slide).StuckIn code slide bb.body m1) ∨
    ∃ n m1 x, (aGuest env ext slide).run code slide n m = some m1 ∧
      runSsa (aLifter env slide fold) plan drop slide g k (ssaStart out0 c) = some x ∧
      InStep g (aGuest env ext slide) slide ARel m1 x ∧ Progress k n x := by
  refine C09_simulation_drop_partial (undef := (· = none)) (cls := aClassify exc)
    (callFn := env.callFn.isSome)
    ⟨H, hcalls, hcount, ⟨known, hl⟩, ⟨regs, fuel, hregs, hplan⟩, ?_, hfold, fun i _ => a_plain _ _ _ _ _ i,
      fun i _ => a_targets _ _ _ _ i, fun i => a_item _ _ _ i, by simp, ?_⟩
    hdrop ?_ ?_ hd m hm c hc hcpc out0 k
  · intro i hi
    exact a_correct hx _ _ i (hpic.imp id (fun h => h i hi))
  · intro m r r' μ μ' h h1 h2
    obtain rfl : r = r' := funext h1
    obtain rfl : μ = μ' := h2
    exact h
  · exact hblind.imp id fun hblind => a_blind hblind
  · exact a_patch

end Verif.Lift.A64
