import Verif.Lift.X86

/-!
Concrete functions: an instance of the end-to-end theorem for x86-64, and a counterexample for SYSCALL
without a system call function.
-/

namespace Verif.Lift.X86

set_option maxRecDepth 4000

open Verif.Decode Verif.IR Verif.X86 Verif.X86.Spec Verif.Lift

/-- A loop with a call.
```
1000: dec   rcx
1003: call  2000
1008: jnz   1000
100a: paddd xmm1, xmm2
100e: ret
``` -/
def loopCode : Decoder Instr := fun a =>
  if a = 0x1000#64 then some (3, .incdec true .q false (.reg 1))
  else if a = 0x1003#64 then some (5, .callRel 0xff8#64)
  else if a = 0x1008#64 then some (2, .jcc .nz (-10#64))
  else if a = 0x100a#64 then some (4, .sse (.bin .add false false .d 1 (.x 2)))
  else if a = 0x100e#64 then some (1, .ret none)
  else none

/-- A call function whose callee adds 3 to RDX and returns. -/
def loopEnv : Env where
  callFn := some fun c => (trunc 64 (c.slot (.inl 4))).map fun sp =>
    { slot := fun r =>
        if r = .inl 2 then zext 128 (IR.add (trunc 64 (c.slot (.inl 2))) (some 3#64))
        else if r = .inl 4 then zext 128 (some (sp + 8#64)) else c.slot r
      pc := VMem.read c.mem.1 sp 8
      mem := c.mem }

def loopExt : Ext where
  callee := fun m => some { m with
    gp := fun k => if k = 2 then m.gp 2 + 3#64 else if k = 4 then m.gp 4 + 8#64 else m.gp k
    ip := m.mem.read (m.gp 4) 8 }

theorem loop_ext : ExtOK loopEnv loopExt := by
  refine ⟨?_, fun g h => (by cases h), fun _ => rfl, fun _ _ => rfl⟩
  intro g hg
  cases hg
  intro m m' c hr hpc h
  cases h
  refine ⟨_, Option.map_eq_some_iff.2 ⟨_, hr.gp 4, rfl⟩, ⟨?_, hr.vec, ?_, hr.fs, hr.gs, hr.mem⟩, ?_⟩
  · intro r
    simp only [Sum.inl.injEq]
    split
    · rw [hr.gp 2]; exact trunc_zext (by omega) _
    · split
      · exact trunc_zext (by omega) _
      · exact hr.gp r
  · intro f b hb
    have := hr.fl f b hb
    cases f <;> exact this
  · show VMem.read c.mem.1 (m.gp 4) 8 = some (m.mem.read (m.gp 4) 8)
    rw [hr.mem, VMem.read_toV]

def noExc : Inst Instr → Bool := fun _ => false

def noFold : Inst Instr → Option Bool := fun _ => none

def loopCall : Call Instr := ⟨loopCode, 0x1000#64, .all, true⟩

def loopFn : Fn Instr := (runFn (xClassify noExc) 40 loopCall (Fn.init _)).getD (Fn.init _)

theorem loopFn_hist : Hist (xClassify noExc) [loopCall] loopFn := by
  refine .call _ .init (runFn_returns (n := 40) ?_)
  have : (runFn (xClassify noExc) 40 loopCall (Fn.init _)).isSome = true := by decide +kernel
  obtain ⟨f, hf⟩ := Option.isSome_iff_exists.1 this
  simp only [loopFn, hf, Option.getD_some]

deriving instance DecidableEq for Inst

theorem loopFn_insts : loopFn.insts =
    [⟨0x1000#64, 3, .incdec true .q false (.reg 1)⟩, ⟨0x1003#64, 5, .callRel 0xff8#64⟩,
     ⟨0x1008#64, 2, .jcc .nz (-10#64)⟩, ⟨0x100a#64, 4, .sse (.bin .add false false .d 1 (.x 2))⟩,
     ⟨0x100e#64, 1, .ret none⟩] := by
  decide +kernel

/-- Initial state of the core: RCX = 4, RSP = 0x8000, everything else zero, no flag known. -/
def loopState (slide : BitVec 64) : S where
  gp := fun k => if k = 1 then 4#64 else if k = 4 then 0x8000#64 else 0#64
  fl := fun _ => none
  vec := fun k => BitVec.ofNat 128 (k.val * 0xc0000000)
  fs := 0
  gs := 0
  mem := fun _ => 0#8
  ip := 0x1000#64 + slide

/-- The CPU struct with this state; the flags are undefined. -/
def loopCpu (slide : BitVec 64) : CPU XReg XVal XMem where
  slot := fun r => match r with
    | .inl k => some (if k = 1 then 4#128 else if k = 4 then 0x8000#128 else 0#128)
    | .inr (.inl _) => none
    | .inr (.inr k) => some (BitVec.ofNat 128 (k.val * 0xc0000000))
  pc := some (0x1000#64 + slide)
  mem := (Mem.toV (fun _ => 0#8), some 0, some 0)

theorem loop_rel (slide : BitVec 64) : XRel (loopState slide) (loopCpu slide).slot (loopCpu slide).mem :=
  ⟨fun r => by
    show trunc 64 (some (if r = 1 then 4#128 else if r = 4 then 0x8000#128 else 0#128)) =
      some (if r = 1 then 4#64 else if r = 4 then 0x8000#64 else 0#64)
    split
    · rfl
    · split <;> rfl, fun _ => rfl, fun f b h => (by cases h), rfl, rfl, rfl⟩

theorem loop_handled : ∀ i ∈ loopFn.insts, handled i.payload = true := by
  rw [loopFn_insts]; decide

theorem loop_lifts (slide : BitVec 64) :
    ∃ g, lift true (xLifter loopEnv slide noFold).toSLifter loopFn = .ok g := by
  have hL : Liftable (xClassify noExc) (xLifter loopEnv slide noFold).toSLifter loopFn := by
    refine ⟨by decide +kernel, ?_, ?_⟩
    · show ∀ i ∈ loopFn.insts, ∀ a ∈ (form true false i.payload i.stop).targets, reserved a = false
      rw [loopFn_insts]
      intro i hi
      have h : ((form true false i.payload i.stop).targets.all (fun a => reserved a == false)) = true := by
        revert i; decide
      intro a ha
      simpa using List.all_eq_true.1 h a ha
    · show ∀ i ∈ loopFn.insts, (xClassify noExc i).1 = .other → handled i.payload = true →
        form true false i.payload i.stop ≠ .returned
      rw [loopFn_insts]; decide
  obtain ⟨h1, h2⟩ := C39_null_iff_partial loopFn_hist true hL
  cases hl : lift true (xLifter loopEnv slide noFold).toSLifter loopFn with
  | ok g => exact ⟨g, rfl⟩
  | ub => exact absurd hl h1
  | null =>
    exfalso
    have : ¬ (loopFn.instrs = [] ∨ true = false ∨
        ∃ d, loopFn.instrs.head? = some d ∧ (xLifter loopEnv slide noFold).toSLifter.ok d.inst = false) := by
      show ¬ (loopFn.instrs = [] ∨ true = false ∨
        ∃ d, loopFn.instrs.head? = some d ∧ handled d.inst.payload = false)
      rintro (h | h | ⟨d, hd, h⟩)
      · have : loopFn.instrs.length = 5 := by decide +kernel
        rw [h] at this; cases this
      · cases h
      · have := loop_handled d.inst (List.mem_map.2 ⟨d, List.mem_of_mem_head? hd, rfl⟩)
        rw [h] at this; cases this
    exact this (h2.1 hl)

/-- All registers. -/
def allRegs : List XReg := (List.finRange 16).map .inl
  ++ ([Flag.of, .sf, .zf, .af, .pf, .cf, .df].map (.inr ∘ .inl) ++ (List.finRange 16).map (.inr ∘ .inr))

theorem mem_allRegs (r : XReg) : r ∈ allRegs := by
  unfold allRegs
  rcases r with k | f | k
  · exact List.mem_append_left _ (List.mem_map.2 ⟨k, List.mem_finRange k, rfl⟩)
  · exact List.mem_append_right _ (List.mem_append_left _ (List.mem_map.2 ⟨f, by cases f <;> simp, rfl⟩))
  · exact List.mem_append_right _ (List.mem_append_right _ (List.mem_map.2 ⟨k, List.mem_finRange k, rfl⟩))

/-- All hypotheses of `C09_x86_partial` are met by the loop, at any load address. -/
example (slide : BitVec 64) (out0 : Id → XReg → XVal) : ∃ g plan, ∀ k,
    (∃ k' < k, ∃ n m1 q a e, (xGuest loopEnv loopExt).run loopCode slide n (loopState slide) = some m1 ∧
      runSsa (xLifter loopEnv slide noFold) plan (fun _ _ => false) slide g k'
        (ssaStart out0 (loopCpu slide)) = some (.at q (.at a) e) ∧
      InStep g (xGuest loopEnv loopExt) slide XRel m1 (.at q (.at a) e) ∧
      ∃ bb, g (.at a) = some bb ∧ (xGuest loopEnv loopExt).StuckIn loopCode slide bb.body m1) ∨
    ∃ n m1 x, (xGuest loopEnv loopExt).run loopCode slide n (loopState slide) = some m1 ∧
      runSsa (xLifter loopEnv slide noFold) plan (fun _ _ => false) slide g k
        (ssaStart out0 (loopCpu slide)) = some x ∧
      InStep g (xGuest loopEnv loopExt) slide XRel m1 x ∧
      Progress k n x := by
  obtain ⟨g, hg⟩ := loop_lifts slide
  obtain ⟨N, hN⟩ := C15_packs_terminate loopFn_hist hg allRegs
  obtain ⟨plan, hp⟩ := hN N (Nat.le_refl _)
  have hh : loopFn.instrs.head?.map (fun d => d.inst.start) = some 0x1000#64 := by decide +kernel
  obtain ⟨d, hd, hs⟩ := Option.map_eq_some_iff.1 hh
  refine ⟨g, plan, fun k => ?_⟩
  exact C09_x86_partial noExc loop_ext loopFn_hist
    (by intro c hc; rw [List.mem_singleton.1 hc]; rfl)
    (counted_cfg loopFn_hist (by intro c hc; rw [List.mem_singleton.1 hc]; exact ⟨rfl, rfl⟩))
    slide (.inr loop_handled) (by intro _; rw [loopFn_insts]; decide) noFold hg mem_allRegs hp
    (by intro c k b s bb s' i v _ _ _ _ h; cases h)
    (by intro r v h; cases h) (.inl fun _ _ => rfl) hd (loopState slide)
    (by rw [hs]; rfl) (loopCpu slide) (loop_rel slide) rfl out0 k

/-- Lift a decoded function and run it for `k` blocks on the given registers (all flags clear); the
result are the general-purpose registers, the XMM registers and the pc in the CPU struct if the lifted
function has returned. -/
def runLifted (L : Lifter Instr XReg XVal XMem) (fn : Fn Instr) (x : Fin 16 → BitVec 64)
    (pc : BitVec 64) (k : Nat) : Option ((Fin 16 → Val 64) × (Fin 16 → Val 128) × Val 64) :=
  match lift true L.toSLifter fn with
  | .ok g =>
    match optimizePacks L g (packIds fn) allRegs 1000 with
    | none => none
    | some plan =>
      match runSsa L plan (fun _ v => v == none) 0 g k (ssaStart (fun _ _ => some 0)
        ⟨fun r => match r with
          | .inl k => some ((x k).setWidth 128)
          | .inr (.inl .pf) => some 1
          | .inr (.inl _) => some 0
          | .inr (.inr k) => some (BitVec.ofNat 128 (k.val * 0xc0000000)), some pc, (fun _ => some 0#8, some 0, some 0)⟩) with
      | some (.done _ c) => some (fun k => trunc 64 (c.slot (.inl k)), fun k => c.slot (.inr (.inr k)), c.pc)
      | _ => none
  | _ => none

/-- The loop in numbers: the lifted function leaves RCX = 0, RDX = 12, RSP = 0x8008, and XMM1 with
32-bit elements added. -/
example : ((runFn (xClassify noExc) 40 loopCall (Fn.init _)).bind (fun fn =>
    runLifted (xLifter loopEnv 0 noFold) fn (fun k => if k = 1 then 4 else if k = 4 then 0x8000 else 0)
      0x1000#64 30)).map (fun r => (r.1 1, r.1 2, r.1 4, r.2.1 1, r.2.2))
    = some (some 0#64, some 12#64, some 0x8008#64, some 0x140000000#128, some 0#64) := by
  decide +kernel

/-! ### SYSCALL without a system call function -/

/-- ```
1000: jmp  1013
1002: mov  byte [5000], 1
100a: mov  rdx, 7
1011: syscall
1013: mov  rbx, rdx
1016: cmp  byte [5000], 0
101e: jz   1002
1020: jmp  rax
``` -/
def sysCode : Decoder Instr := fun a =>
  if a = 0x1000#64 then some (2, .jmpRel 0x11#64)
  else if a = 0x1002#64 then some (8, .mov .b .b (.mem { off := 0x5000#64 }) (.imm 1))
  else if a = 0x100a#64 then some (7, .mov .q .q (.reg 2) (.imm 7))
  else if a = 0x1011#64 then some (2, .syscall)
  else if a = 0x1013#64 then some (3, .mov .q .q (.reg 3) (.reg 2))
  else if a = 0x1016#64 then some (8, .arith .cmp .b false (.mem { off := 0x5000#64 }) (.imm 0))
  else if a = 0x101e#64 then some (2, .jcc .z (-30#64))
  else if a = 0x1020#64 then some (2, .jmp (.reg 0))
  else none

def sysCall : Call Instr := ⟨sysCode, 0x1000#64, .all, false⟩

/-- The core; SYSCALL does nothing but set RCX and R11. -/
def core : Guest Instr S where
  pc := fun m => m.ip
  step := fun i m => if i.payload = .syscall then sysEntry i.len m else step i.payload i.len m

/-- RDX = 5, all flags clear. -/
def sysState : S where
  gp := fun k => if k = 2 then 5#64 else 0#64
  fl := fun _ => some false
  vec := fun _ => 0#128
  fs := 0
  gs := 0
  mem := fun _ => 0#8
  ip := 0x1000#64

/-- **C09 is false for SYSCALL without a system call function**: the lifted function returns with
RBX = 5, while the core leaves the code with RBX = 7.  The block at 1013 is the target of one decoded jump
and of the fall-through behind SYSCALL, which the decoder does not count as a predecessor, so that the
block takes its registers from the decoded jump alone. -/
theorem C09_syscall_counterexample : ∃ fn, Hist (xClassify noExc) [sysCall] fn ∧
    (runLifted (xLifter {} 0 noFold) fn (fun k => if k = 2 then 5 else 0) 0x1000#64 10).map
      (fun r => (r.1 3, r.2.2)) = some (some 5#64, some 0#64) ∧
    ∀ n m, core.run sysCode 0 n sysState = some m → sysCode m.ip = none → m.gp 3 = 7#64 := by
  have hs : (runFn (xClassify noExc) 40 sysCall (Fn.init _)).isSome = true := by decide +kernel
  obtain ⟨fn, hfn⟩ := Option.isSome_iff_exists.1 hs
  refine ⟨fn, .call _ .init (runFn_returns hfn), ?_, ?_⟩
  · have : ((runFn (xClassify noExc) 40 sysCall (Fn.init _)).bind (fun fn =>
        (runLifted (xLifter {} 0 noFold) fn (fun k => if k = 2 then 5 else 0) 0x1000#64 10).map
          (fun r => (r.1 3, r.2.2)))) = some (some 5#64, some 0#64) := by decide +kernel
    rw [hfn] at this
    exact this
  · intro n m h hm
    by_cases hn : n < 13
    · have key : ∀ n < 13, (core.run sysCode 0 n sysState).all
          (fun m => (sysCode m.ip).isSome || m.gp 3 == 7#64) = true := by decide +kernel
      have := key n hn
      rw [h] at this
      simp only [Option.all_some, hm, Option.isSome_none, Bool.false_or, beq_iff_eq] at this
      exact this
    · exfalso
      have h6 : (core.run sysCode 0 13 sysState).isNone = true := by decide +kernel
      obtain ⟨j, rfl⟩ : ∃ j, n = 13 + j := ⟨n - 13, by omega⟩
      simp only [Option.isNone_iff_eq_none] at h6
      rw [run_add, h6] at h
      cases h

end Verif.Lift.X86
