import Verif.Lift.OverrideArch
import Verif.Lift.ExamplesX86
import Verif.Lift.Examples

/-!
Concrete functions with overridden instructions and markers (C57, C58), and counterexamples.
-/

namespace Verif.Lift.X86

set_option maxRecDepth 4000

open Verif.Decode Verif.IR Verif.X86 Verif.X86.Spec Verif.Lift

/-- A loop with an instruction that the lifter does not know.
```
1000: dec   rcx
1003: <unknown>
1006: jnz   1000
1008: ret
``` -/
def ovCode : Decoder Instr := fun a =>
  if a = 0x1000#64 then some (3, .incdec true .q false (.reg 1))
  else if a = 0x1003#64 then some (3, .unknown)
  else if a = 0x1006#64 then some (2, .jcc .nz (-8#64))
  else if a = 0x1008#64 then some (1, .ret none)
  else none

/-- The function for the unknown instruction adds 3 to RDX and leaves everything else alone, including the
program counter. -/
def add3 (c : CPU XReg XVal XMem) : Option (CPU XReg XVal XMem) := some
  { c with slot := fun r =>
      if r = .inl 2 then zext 128 (IR.add (trunc 64 (c.slot (.inl 2))) (some 3#64)) else c.slot r }

def ovFns (i : Inst Instr) : Option (CPU XReg XVal XMem → Option (CPU XReg XVal XMem)) :=
  if i.payload = .unknown then some add3 else none

/-- The unknown instruction adds 3 to RDX. -/
def ovGuest (i : Inst Instr) : Option (S → Option S) :=
  if i.payload = .unknown then
    some fun m => some { m with gp := fun k => if k = 2 then m.gp 2 + 3#64 else m.gp k
                                ip := m.ip + BitVec.ofNat 64 i.len }
  else none

theorem ov_ok (G : Guest Instr S) (hG : G.pc = S.ip) (slide : BitVec 64) (is : List (Inst Instr)) :
    OverridesOK (xClassify noExc) G XRel slide Inst.stop is ovFns ovGuest := by
  intro i _
  by_cases hp : i.payload = .unknown
  · simp only [ovFns, ovGuest, if_pos hp]
    refine ⟨_, rfl, ?_, ?_⟩
    · intro m m' c hr hpc hcpc h
      cases h
      rw [hG] at hpc ⊢
      refine ⟨_, rfl, ⟨?_, hr.vec, ?_, hr.fs, hr.gs, hr.mem⟩, ?_⟩
      · intro r
        simp only [Sum.inl.injEq]
        split
        · rw [hr.gp 2]; exact trunc_zext (by omega) _
        · exact hr.gp r
      · intro f b hb
        have := hr.fl f b hb
        cases f <;> exact this
      · show c.pc = _
        rw [hcpc, hpc]
        simp only [Inst.stop, Option.some.injEq]
        ac_rfl
    · intro _ m m' hpc h
      cases h
      rw [hG] at hpc ⊢
      simp only [hpc, Inst.stop]
      ac_rfl
  · simp only [ovFns, ovGuest, if_neg hp]

def ovCall : Call Instr := ⟨ovCode, 0x1000#64, .all, false⟩

def ovFn : Fn Instr := (runFn (xClassify noExc) 40 ovCall (Fn.init _)).getD (Fn.init _)

theorem ovFn_hist : Hist (xClassify noExc) [ovCall] ovFn := by
  refine .call _ .init (runFn_returns (n := 40) ?_)
  have : (runFn (xClassify noExc) 40 ovCall (Fn.init _)).isSome = true := by decide +kernel
  obtain ⟨f, hf⟩ := Option.isSome_iff_exists.1 this
  simp only [ovFn, hf, Option.getD_some]

theorem ovFn_insts : ovFn.insts =
    [⟨0x1000#64, 3, .incdec true .q false (.reg 1)⟩, ⟨0x1003#64, 3, .unknown⟩,
     ⟨0x1006#64, 2, .jcc .nz (-8#64)⟩, ⟨0x1008#64, 1, .ret none⟩] := by
  decide +kernel

def ovLifter (slide : BitVec 64) : Lifter Instr XReg XVal XMem :=
  (xLifter {} slide noFold).override Inst.stop ovFns

theorem ov_lifts (slide : BitVec 64) : ∃ g, lift true (ovLifter slide).toSLifter ovFn = .ok g := by
  have hform : ∀ i, (ovLifter slide).form i
      = if i.payload = .unknown then .value else form false false i.payload i.stop := by
    intro i
    simp only [ovLifter, Lifter.override, ovFns, xLifter]
    split <;> simp_all
  have hokd : ∀ i ∈ ovFn.insts, (ovLifter slide).ok i = true := by
    show ∀ i ∈ ovFn.insts, ((ovFns i).isSome || handled i.payload) = true
    rw [ovFn_insts]; decide
  have hL : Liftable (xClassify noExc) (ovLifter slide).toSLifter ovFn := by
    refine ⟨by decide +kernel, ?_, ?_⟩
    · rw [ovFn_insts]
      intro i hi
      rw [hform]
      have h : (((if i.payload = .unknown then .value else form false false i.payload i.stop).targets.all
        (fun a => reserved a == false))) = true := by
        revert i; decide
      intro a ha
      simpa using List.all_eq_true.1 h a ha
    · intro i hi hc hk
      rw [hform]
      clear hk
      revert i
      rw [ovFn_insts]; decide
  obtain ⟨h1, h2⟩ := C39_null_iff_partial ovFn_hist true hL
  cases hl : lift true (ovLifter slide).toSLifter ovFn with
  | ok g => exact ⟨g, rfl⟩
  | ub => exact absurd hl h1
  | null =>
    exfalso
    rcases h2.1 hl with h | h | ⟨d, hd, h⟩
    · have : ovFn.instrs.length = 4 := by decide +kernel
      rw [h] at this; cases this
    · cases h
    · have := hokd d.inst (List.mem_map.2 ⟨d, List.mem_of_mem_head? hd, rfl⟩)
      rw [this] at h; cases h

theorem noExt : ExtOK {} {} := ⟨fun g h => (by cases h), fun g h => (by cases h), fun _ => rfl, fun _ _ => rfl⟩

/-- All hypotheses of `C57_x86_partial` are met by the loop, at any load address. -/
example (slide : BitVec 64) (out0 : Id → XReg → XVal) : ∃ g plan, ∀ k,
    (∃ k' < k, ∃ n m1 q a e, ((xGuest {} {}).override ovGuest).run ovCode slide n (loopState slide) = some m1 ∧
      runSsa (ovLifter slide) plan (fun _ _ => false) slide g k'
        (ssaStart out0 (loopCpu slide)) = some (.at q (.at a) e) ∧
      InStep g ((xGuest {} {}).override ovGuest) slide XRel m1 (.at q (.at a) e) ∧
      ∃ bb, g (.at a) = some bb ∧ ((xGuest {} {}).override ovGuest).StuckIn ovCode slide bb.body m1) ∨
    ∃ n m1 x, ((xGuest {} {}).override ovGuest).run ovCode slide n (loopState slide) = some m1 ∧
      runSsa (ovLifter slide) plan (fun _ _ => false) slide g k
        (ssaStart out0 (loopCpu slide)) = some x ∧
      InStep g ((xGuest {} {}).override ovGuest) slide XRel m1 x ∧
      Progress k n x := by
  obtain ⟨g, hg⟩ := ov_lifts slide
  obtain ⟨N, hN⟩ := C15_packs_terminate ovFn_hist hg allRegs
  obtain ⟨plan, hp⟩ := hN N (Nat.le_refl _)
  have hh : ovFn.instrs.head?.map (fun d => d.inst.start) = some 0x1000#64 := by decide +kernel
  obtain ⟨d, hd, hs⟩ := Option.map_eq_some_iff.1 hh
  refine ⟨g, plan, fun k => ?_⟩
  exact C57_x86_partial noExc noExt ovFn_hist
    (by intro c hc; rw [List.mem_singleton.1 hc]; rfl)
    (counted_cfg ovFn_hist (by intro c hc; rw [List.mem_singleton.1 hc]; exact ⟨rfl, rfl⟩))
    slide (ov_ok _ rfl slide _) (.inr (by rw [ovFn_insts]; decide)) (by intro _; rw [ovFn_insts]; decide)
    noFold hg mem_allRegs hp
    (by
      intro c k b s bb s' i v _ _ _ _ h
      simp only [Lifter.override, xLifter, noFold] at h
      split at h <;> cases h)
    (by intro r v h; cases h) (.inl fun _ _ => rfl) hd (loopState slide)
    (by rw [hs]; rfl) (loopCpu slide) (loop_rel slide) rfl out0 k

/-- All hypotheses of `C58_x86_partial` are met by the loop, at any load address. -/
example (slide : BitVec 64) (out0 : Id → XReg → XVal) : ∃ g plan, ∀ k v c',
    runSsa ((ovLifter slide).mark slide Inst.stop) plan (fun _ _ => false) slide g k
      (ssaStart out0 ⟨(loopCpu slide).slot, (loopCpu slide).pc, ((loopCpu slide).mem, [])⟩) = some (.done v c') →
    (∃ n m1 i, i ∈ ovFn.insts ∧ ((xGuest {} {}).override ovGuest).run ovCode slide n (loopState slide) = some m1 ∧
      m1.ip = i.start + slide ∧ ((xGuest {} {}).override ovGuest).step i m1 = none) ∨
    ∃ n m1, ((xGuest {} {}).override ovGuest).run ovCode slide n (loopState slide) = some m1 ∧
      c'.pc = some m1.ip ∧ XRel m1 c'.slot c'.mem.1 ∧
      c'.mem.2 = [] ++ ((xGuest {} {}).override ovGuest).trace ovCode slide Inst.stop n (loopState slide) := by
  obtain ⟨g, hg⟩ := ov_lifts slide
  obtain ⟨N, hN⟩ := C15_packs_terminate (L := (ovLifter slide).mark slide Inst.stop) ovFn_hist hg allRegs
  obtain ⟨plan, hp⟩ := hN N (Nat.le_refl _)
  have hh : ovFn.instrs.head?.map (fun d => d.inst.start) = some 0x1000#64 := by decide +kernel
  obtain ⟨d, hd, hs⟩ := Option.map_eq_some_iff.1 hh
  refine ⟨g, plan, fun k v c' hret => ?_⟩
  exact C58_x86_partial noExc noExt ovFn_hist
    (by intro c hc; rw [List.mem_singleton.1 hc]; rfl)
    (counted_cfg ovFn_hist (by intro c hc; rw [List.mem_singleton.1 hc]; exact ⟨rfl, rfl⟩))
    slide (ov_ok _ rfl slide _) (.inr (by rw [ovFn_insts]; decide)) (by intro _; rw [ovFn_insts]; decide)
    (by rw [ovFn_insts]; decide)
    noFold hg mem_allRegs hp
    (by
      intro c k b s bb s' i v _ _ _ _ h
      simp only [Lifter.mark, Lifter.override, xLifter, noFold] at h
      split at h <;> cases h)
    (by intro r v h; cases h) (.inl fun _ _ => rfl) hd (loopState slide)
    (by rw [hs]; rfl) ⟨(loopCpu slide).slot, (loopCpu slide).pc, ((loopCpu slide).mem, [])⟩
    (loop_rel slide) rfl out0 k v c' hret

/-- The loop in numbers: the unknown instruction has added 3 four times. -/
example : (runLifted (ovLifter 0) ovFn (fun k => if k = 1 then 4 else if k = 4 then 0x8000 else 0)
      0x1000#64 30).map (fun r => (r.1 1, r.1 2, r.1 4, r.2.2))
    = some (some 0#64, some 12#64, some 0x8008#64, some 0#64) := by
  decide +kernel

/-- Lift a decoded function with a marker function and run it for `k` blocks; the result are the pc and the
log of the marker function if the lifted function has returned. -/
def runMarked (L : Lifter Instr XReg XVal XMem) (fn : Fn Instr) (x : Fin 16 → BitVec 64)
    (pc : BitVec 64) (k : Nat) : Option (Val 64 × List (BitVec 64)) :=
  let L := L.mark 0 Inst.stop
  match lift true L.toSLifter fn with
  | .ok g =>
    match optimizePacks L g (packIds fn) allRegs 1000 with
    | none => none
    | some plan =>
      match runSsa L plan (fun _ v => v == none) 0 g k (ssaStart (fun _ _ => some 0)
        ⟨fun r => match r with
          | .inl k => some ((x k).setWidth 128)
          | .inr (.inl .pf) => some 1
          | .inr (.inl _) => some 0
          | .inr (.inr _) => some 0, some pc, ((fun _ => some 0#8, some 0, some 0), [])⟩) with
      | some (.done _ c) => some (c.pc, c.mem.2)
      | _ => none
  | _ => none

/-- The log of the loop, for two rounds. -/
example : runMarked (ovLifter 0) ovFn (fun k => if k = 1 then 2 else if k = 4 then 0x8000 else 0)
    0x1000#64 30 = some (some 0#64, [0x1003#64, 0x1006#64, 0x1008#64, 0x1003#64, 0x1006#64, 0x1008#64,
      0x1009#64]) := by
  decide +kernel

/-- **C58 is false for instructions that cannot be lifted**: the marker function is called for the unknown
instruction at 1003 although the lifted function returns without having executed it, with its address in
the program counter; whoever continues there and lifts it again is told of it twice. -/
theorem C58_failed_counterexample :
    runMarked (xLifter {} 0 noFold) ovFn (fun k => if k = 1 then 2 else 0) 0x1000#64 30
      = some (some 0x1003#64, [0x1003#64, 0x1006#64]) := by
  decide +kernel

/-- The function for the unknown instruction continues at 1008. -/
def redirect (c : CPU XReg XVal XMem) : Option (CPU XReg XVal XMem) := some { c with pc := some 0x1008#64 }

/-- **C57 is false for functions that jump, given for an instruction that is not a jump**: the function
given for the unknown instruction at 1003 continues at 1008, so that the core leaves the loop in the first
round with RCX = 3, but the lifted code goes on with the next instruction. -/
theorem C57_redirect_counterexample :
    (runLifted ((xLifter {} 0 noFold).override Inst.stop
        (fun i => if i.payload = .unknown then some redirect else none)) ovFn
      (fun k => if k = 1 then 4 else if k = 4 then 0x8000 else 0) 0x1000#64 30).map (fun r => r.1 1)
      = some (some 0#64) ∧
    ((core.override (fun i => if i.payload = .unknown then some (fun m => some { m with ip := 0x1008#64 })
        else none)).run ovCode 0 3
      { sysState with gp := fun k => if k = 1 then 4 else if k = 4 then 0x8000 else 0 }).map
        (fun m => (m.gp 1, m.ip)) = some (3#64, 0#64) := by
  decide +kernel

end Verif.Lift.X86

namespace Verif.Lift.RV64

open Verif.Decode Verif.IR Verif.RV64 Verif.Lift

/-- ```
1000: addi x2, x2, 1
``` -/
def oneCode : Decoder Frv := fun a => if a = 0x1000#64 then some (4, ⟨.addi, 2, 2, 0, 1, 0, 7⟩) else none

def oneFn : Fn Frv := (runFn rvClassify 20 ⟨oneCode, 0x1000#64, .all, true⟩ (Fn.init _)).getD (Fn.init _)

/-- A function for ADDI that does the same as in `C57_x86_partial`: everything but the program counter. -/
def addTwo (c : CPU RvReg (Val 64) VMem) : Option (CPU RvReg (Val 64) VMem) :=
  some { c with slot := fun r => if r = .inl 2 then IR.add (c.slot r) (some 2#64) else c.slot r }

/-- **A function that only changes registers is not enough on RV64 and AArch64**: the register is changed
but the lifted function returns with the address of the overridden instruction itself, which will be
executed again; with the lifter's own code it returns with the address of the next one. -/
theorem C57_rv64_pc_counterexample :
    (runLifted ((rvLifterC {} 0 noFold).override Inst.start (fun _ => some addTwo)) oneFn (fun _ => 5)
      0x1000#64 20).map (fun r => (r.1 2, r.2)) = some (some 7#64, some 0x1000#64) ∧
    (runLifted (rvLifterC {} 0 noFold) oneFn (fun _ => 5) 0x1000#64 20).map (fun r => (r.1 2, r.2))
      = some (some 6#64, some 0x1004#64) := by
  decide +kernel

/-- The same function with the program counter advanced. -/
def addTwoPc (c : CPU RvReg (Val 64) VMem) : Option (CPU RvReg (Val 64) VMem) :=
  (addTwo c).map (fun c => { c with pc := IR.add c.pc (some 4#64) })

/-- It meets the hypothesis of `C57_rv64_partial` and `C58_rv64_partial` for every four-byte ADDI. -/
example (G : Guest Frv Spec.State) (hG : G.pc = Spec.State.pc) (slide : BitVec 64) (is : List (Inst Frv))
    (hlen : ∀ i ∈ is, i.payload.mnem = .addi → i.len = 4) :
    OverridesOK rvClassify G rvRelF slide Inst.start is
      (fun i => if i.payload.mnem = .addi then some addTwoPc else none)
      (fun i => if i.payload.mnem = .addi then some (fun m => some
        { m with gp := fun k => if k = 2 then m.gp 2 + 2#64 else m.gp k, pc := m.pc + 4#64 }) else none) := by
  intro i hi
  by_cases hp : i.payload.mnem = .addi
  · simp only [if_pos hp]
    refine ⟨_, rfl, ?_, ?_⟩
    · intro m m' c hr hpc hcpc h
      cases h
      rw [hG] at hpc ⊢
      obtain ⟨h1, h2, h3, h4, h5⟩ := hr
      refine ⟨_, rfl, ⟨fun j => ?_, fun j hj => ?_, h3, h4, h5⟩, ?_⟩
      · by_cases hj : j = 2
        · subst hj
          have := h1 2
          simp only [if_true]
          rw [this]
          rfl
        · have hj' : (j : Nat) ≠ 2 := fun h => hj (Fin.ext h)
          simp [hj, hj', h1]
      · have : j ≠ 2 := by omega
        simp only [this, if_false]
        exact h2 j hj
      · show IR.add c.pc _ = _
        rw [hcpc, hpc]
        rfl
    · intro _ m m' hpc h
      cases h
      rw [hG] at hpc ⊢
      simp only [hpc, Inst.stop, hlen i hi hp]
      show _ + 4#64 = _ + BitVec.ofNat 64 4 + _
      ac_rfl
  · simp only [if_neg hp]

end Verif.Lift.RV64
