import Verif.Conc.OrderRun
import Verif.Conc.Explore
import Verif.Conc.RV64Props
import Verif.Conc.X86Props
import Verif.Conc.A64Props

/-!
C63 fails: messages that are passed with ordinary loads and stores, as the guest architectures allow.  One thread stores 42 at 64 and
then 1 at 128, the other loads from 128 and then from 64.
-/

namespace Verif.Conc

open Verif.IR

/-- The trace of an execution in which the byte read is `undef`, although the thread has found the flag set before. -/
def Bad {σ : Type} (prog : Bool → σ → Code σ) (y : System Bool σ) (flag : σ → Option (BitVec 64)) : Prop :=
  ∃ schedule tr y' r m, System.trace prog schedule y = some (tr, y') ∧ tr.has r (fun e => e.thread = true ∧ e.addr = 64#64) ∧
    y'.threads true = .done m ∧ flag m = some 1#64 ∧ tr.undefAt 64#64 r

/-- For executions that can be computed. -/
def badAt {σ : Type} (prog : Bool → σ → Code σ) (y : System Bool σ) (flag : σ → Option (BitVec 64)) (schedule : List Bool) (i r : Nat) : Bool :=
  match System.trace prog schedule y with
  | some (tr, y') =>
    (match tr[r]? with
      | some e => e.thread && e.addr = 64#64
      | none => false) &&
    (match y'.threads true with
      | .done m => flag m = some 1#64
      | _ => false) && racyShape (tr.map Ev.shape) 64#64 i r
  | none => false

theorem bad_of {σ : Type} {prog : Bool → σ → Code σ} {y : System Bool σ} {flag : σ → Option (BitVec 64)} (schedule : List Bool) (i r : Nat)
    (h : badAt prog y flag schedule i r = true) : Bad prog y flag := by
  unfold badAt at h
  split at h
  · rename_i tr y' htr
    simp only [Bool.and_eq_true] at h
    obtain ⟨⟨h1, h2⟩, h3⟩ := h
    split at h1
    · rename_i e he
      simp only [Bool.and_eq_true, decide_eq_true_eq] at h1
      split at h2
      · rename_i m hm
        exact ⟨schedule, tr, y', r, m, htr, ⟨e, he, h1⟩, hm, of_decide_eq_true h2, undef_of_shape h3⟩
      · cases h2
    · cases h1
  · cases h

/-! ### x86-64 -/

namespace X86

open Verif.X86 Verif.X86.Spec

/-- `mov [rbx], rax; mov [rdx], rcx` and `mov rsi, [rdx]; mov rdi, [rbx]`. -/
def mpCode (pc : BitVec 64) : Option (Instr × Nat) :=
  if pc = 0x1000#64 then some (.mov .q .q (.mem { base := .reg 3 }) (.reg 0), 3)
  else if pc = 0x1003#64 then some (.mov .q .q (.mem { base := .reg 2 }) (.reg 1), 3)
  else if pc = 0x2000#64 then some (.mov .q .q (.reg 6) (.mem { base := .reg 2 }), 3)
  else if pc = 0x2003#64 then some (.mov .q .q (.reg 7) (.mem { base := .reg 3 }), 3)
  else none

/-- x86-64 processors with store buffers (x86-TSO): a store goes to the end of the buffer, a load looks in the processor's own buffer
first, and the oldest store of a buffer goes to memory at any time.  Specified for MOV of 64 bits between a register and memory. -/
structure Tso where
  cpu : Bool → S
  mem : Mem
  buf : Bool → List (Addr × BitVec 64)

/-- Memory as processor `t` sees it. -/
def Tso.view (g : Tso) (t : Bool) : Mem := (g.buf t).foldl (fun m e => m.write e.1 8 e.2) g.mem

/-- `(t, false)`: processor `t` executes an instruction; `(t, true)`: a store leaves its buffer. -/
def Tso.step (fetch : BitVec 64 → Option (Instr × Nat)) : Bool × Bool → Tso → Option Tso
  | (t, true), g =>
    match g.buf t with
    | [] => none
    | e :: rest => some { g with mem := g.mem.write e.1 8 e.2, buf := fun u => if u = t then rest else g.buf u }
  | (t, false), g =>
    match fetch (g.cpu t).ip with
    | some (.mov .q .q (.mem a) (.reg r), len) =>
      let s := { g.cpu t with ip := (g.cpu t).ip + BitVec.ofNat 64 len }
      some { g with
        cpu := fun u => if u = t then s else g.cpu u
        buf := fun u => if u = t then g.buf t ++ [(s.ea a, s.gp r)] else g.buf u }
    | some (.mov .q .q (.reg r) (.mem a), len) =>
      let s := { g.cpu t with ip := (g.cpu t).ip + BitVec.ofNat 64 len }
      some { g with
        cpu := fun u => if u = t then { s with gp := fun q => if q = r then (g.view t).read (s.ea a) 8 else s.gp q } else g.cpu u }
    | _ => none

def mpS (t : Bool) : S :=
  { gp := fun r => if r = 0 then 42#64 else if r = 3 then 64#64 else if r = 1 then 1#64 else if r = 2 then 128#64 else 0#64
    fl := fun _ => some false, vec := fun _ => 0, fs := 0, gs := 0, mem := fun _ => 0#8, ip := if t then 0x2000#64 else 0x1000#64 }

def mpTso : Tso := { cpu := mpS, mem := fun _ => 0#8, buf := fun _ => [] }

def mpRegs (t : Bool) : St :=
  { gp := fun r => some ((mpS t).gp r), fl := fun _ => some 0#1, pf := some 1#8, vec := fun _ => some 0, fs := some 0, gs := some 0
    mem := fun _ => none, pc := .const (mpS t).ip }

/-- If the flag has been read, so have been the data. -/
def mpOk (g : Tso) : Bool := !((g.cpu true).ip = 0x2006#64 && (g.cpu true).gp 6 = 1#64) || (g.cpu true).gp 7 = 42#64

/-- C63 fails for x86-64: on the processors stores become visible in the order of the program and loads are executed in order, so that
who reads the flag reads the data; the lifted code has ordinary loads and stores, for which LLVM does not guarantee this, and the data
are `undef`. -/
theorem C63_x86_message_counterexample :
    (∀ t, Rel 0 { mpRegs t with mem := mpTso.mem.toV } { mpTso.cpu t with mem := mpTso.mem }) ∧
    (∀ order g, runG (Tso.step mpCode) order mpTso = some g → mpOk g = true) ∧
    Bad (fun _ => xProg 0 {} mpCode) { threads := fun t => .done (mpRegs t), mem := mpTso.mem.toV } (·.gp 6) := by
  refine ⟨fun t => ⟨fun _ => rfl, fun _ => rfl, rfl, rfl, rfl, ?_, ?_⟩, fun order g h => ?_, ?_⟩
  · cases t <;> rfl
  · intro f b hb
    cases hb
    revert t
    cases f <;> decide
  · exact explore_sound (labels := [(false, false), (false, true), (true, false), (true, true)]) (by rintro ⟨_ | _, _ | _⟩ <;> simp) 6 mpTso (by decide +kernel) order g h
  · exact bad_of [false, false, false, false, true, true, true, true] 0 3 (by decide +kernel)

/-- The state in question is reached. -/
example : ((runG (Tso.step mpCode) [(false, false), (false, false), (false, true), (false, true), (true, false), (true, false)] mpTso).map
    fun g => ((g.cpu true).ip, (g.cpu true).gp 6, (g.cpu true).gp 7)) = some (0x2006#64, 1#64, 42#64) := by decide +kernel

end X86

/-! ### RV64 -/

namespace RV64

open Verif.RV64

/-- `sd x1, (x2); fence rw, rw; sd x3, (x4)` and `ld x6, (x4); fence rw, rw; ld x5, (x2)`. -/
def mpCode (pc : BitVec 64) : Option (Frv × Nat) :=
  if pc = 0x1000#64 then some (⟨.sd, 0, 2, 1, 0#32, 0, 0⟩, 4)
  else if pc = 0x1004#64 then some (⟨.fence, 0, 0, 0, 0x33#32, 0, 0⟩, 4)
  else if pc = 0x1008#64 then some (⟨.sd, 0, 4, 3, 0#32, 0, 0⟩, 4)
  else if pc = 0x2000#64 then some (⟨.ld, 6, 4, 0, 0#32, 0, 0⟩, 4)
  else if pc = 0x2004#64 then some (⟨.fence, 0, 0, 0, 0x33#32, 0, 0⟩, 4)
  else if pc = 0x2008#64 then some (⟨.ld, 5, 2, 0, 0#32, 0, 0⟩, 4)
  else none

def mpHarts : Harts Bool where
  hart t :=
    { gp := fun r => if r = 1 then 42#64 else if r = 2 then 64#64 else if r = 3 then 1#64 else if r = 4 then 128#64 else 0#64
      fp := fun _ => 0#64
      mem := fun _ => 0#8
      pc := if t then 0x2000#64 else 0x1000#64 }
  mem := fun _ => 0#8
  res _ := none

def mpRegs (t : Bool) : St :=
  { gp := fun r => some ((mpHarts.hart t).gp r), fp := fun _ => some 0#64, mem := fun _ => none, pc := .const (mpHarts.hart t).pc }

def mpOk (g : Harts Bool) : Bool := !((g.hart true).pc = 0x200c#64 && (g.hart true).gp 6 = 1#64) || (g.hart true).gp 5 = 42#64

/-- C63 fails for RV64: FENCE emits nothing and ordinary loads and stores are not atomic.  With a full fence between the accesses the
order of the instructions is that of the accesses on the harts, so that who reads the flag reads the data; in the lifted code the data
are `undef`. -/
theorem C63_rv64_fence_counterexample :
    (∀ t, Rel 0 { mpRegs t with mem := mpHarts.mem.toV } (mpHarts.at t)) ∧
    (∀ order g, runG (Harts.step mpCode) order mpHarts = some g → mpOk g = true) ∧
    Bad (fun _ => prog mpCode 0) { threads := fun t => .done (mpRegs t), mem := mpHarts.mem.toV } (·.gp 6) := by
  refine ⟨fun t => ⟨⟨rfl, rfl, rfl⟩, ?_⟩, fun order g h => ?_, ?_⟩
  · cases t <;> decide
  · exact explore_sound (labels := [false, true]) (by decide) 6 mpHarts (by decide +kernel) order g h
  · exact bad_of [false, false, false, false, false, true, true, true, true, true] 0 3 (by decide +kernel)

/-- The state in question is reached. -/
example : ((runG (Harts.step mpCode) [false, false, false, true, true, true] mpHarts).map fun g =>
    ((g.hart true).pc, (g.hart true).gp 6, (g.hart true).gp 5)) = some (0x200c#64, 1#64, 42#64) := by decide +kernel

end RV64

/-! ### AArch64 -/

namespace A64

open Verif.A64 Verif.A64.Spec

/-- `str x1, [x2]; dmb ish; str x3, [x4]` and `ldr x6, [x4]; dmb ish; ldr x5, [x2]`. -/
def mpCode (pc : BitVec 64) : Option (Instr × Nat × Bool) :=
  if pc = 0x1000#64 then some (.str false .uxtx .simple false none (.x 1) (.x 2), 4, false)
  else if pc = 0x1004#64 then some (.dmb 11, 4, false)
  else if pc = 0x1008#64 then some (.str false .uxtx .simple false none (.x 3) (.x 4), 4, false)
  else if pc = 0x2000#64 then some (.ldr false .uxtx .simple false (.x 6) (.x 4), 4, false)
  else if pc = 0x2004#64 then some (.dmb 11, 4, false)
  else if pc = 0x2008#64 then some (.ldr false .uxtx .simple false (.x 5) (.x 2), 4, false)
  else none

def mpCpus : Cpus Bool where
  cpu t :=
    { x := fun r => if r = 1 then 42#64 else if r = 2 then 64#64 else if r = 3 then 1#64 else if r = 4 then 128#64 else 0#64
      sp := 0#64, vec := fun _ => 0#128, fl := fun _ => none, tpidr := 0#64, mem := fun _ => 0#8
      pc := if t then 0x2000#64 else 0x1000#64 }
  mem := fun _ => 0#8
  mark _ := none

def mpRegs (t : Bool) : St :=
  { gp := fun r => if r = 1 then some 42#64 else if r = 2 then some 64#64 else if r = 3 then some 1#64 else if r = 4 then some 128#64
      else some 0#64
    vec := fun _ => some 0#128, fl := fun _ => none, tpidr := some 0#64, mem := fun _ => none
    pc := .const (if t then 0x2000#64 else 0x1000#64) }

def mpOk (g : Cpus Bool) : Bool := !((g.cpu true).pc = 0x200c#64 && (g.cpu true).x 6 = 1#64) || (g.cpu true).x 5 = 42#64

/-- C63 fails for AArch64: DMB becomes a fence, but LLVM's fences order only atomic accesses, and ordinary loads and stores are not
atomic.  With a full barrier between the accesses the order of the instructions is that of the accesses on the processors, so that who
reads the flag reads the data; in the lifted code the data are `undef`. -/
theorem C63_a64_dmb_counterexample :
    (∀ t, Rel 0 { mpRegs t with mem := mpCpus.mem.toV } (mpCpus.at t)) ∧
    (∀ order g, runG (Cpus.step {} mpCode) order mpCpus = some g → mpOk g = true) ∧
    Bad (fun _ => aProg 0 {} mpCode) { threads := fun t => .done (mpRegs t), mem := mpCpus.mem.toV } (·.gp 6) := by
  refine ⟨fun t => ⟨?_, rfl, fun _ => rfl, rfl, rfl, ?_, fun _ _ h => by cases h⟩, fun order g h => ?_, ?_⟩
  · revert t; decide
  · cases t <;> decide
  · exact explore_sound (labels := [false, true]) (by decide) 6 mpCpus (by decide +kernel) order g h
  · exact bad_of [false, false, false, false, false, false, true, true, true, true, true, true] 0 5 (by decide +kernel)

/-- The state in question is reached. -/
example : ((runG (Cpus.step {} mpCode) [false, false, false, true, true, true] mpCpus).map fun g =>
    ((g.cpu true).pc, (g.cpu true).x 6, (g.cpu true).x 5)) = some (0x200c#64, 1#64, 42#64) := by decide +kernel

end A64

end Verif.Conc
