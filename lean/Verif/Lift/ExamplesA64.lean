import Verif.Lift.A64

/-!
A concrete function: an instance of the end-to-end theorem for AArch64.
-/

namespace Verif.Lift.A64

open Verif.Decode Verif.IR Verif.A64 Verif.A64.Spec Verif.Lift

/-- A loop with a call.
```
1000: subs x0, x0, #1
1004: bl   2000
1008: b.ne 1000
100c: ret  x5
``` -/
def loopCode : Decoder Instr := fun a =>
  if a = 0x1000#64 then some (4, .bin .sub false true false (.x 0) (.x 0) (.imm 1))
  else if a = 0x1004#64 then some (4, .bl 0xffc#64)
  else if a = 0x1008#64 then some (4, .bcond .ne (-8#64))
  else if a = 0x100c#64 then some (4, .ret (.x 5))
  else none

/-- A call function whose callee adds 3 to X2 and returns. -/
def loopEnv : Env where
  callFn := some fun c => some
    { slot := fun r => if r = .inl 2 then zext 128 (IR.add (trunc 64 (c.slot (.inl 2))) (some 3#64)) else c.slot r
      pc := trunc 64 (c.slot (.inl 30))
      mem := c.mem }

def loopExt : Ext where
  callee := fun m => some { m with
    x := fun k => if k = 2 then m.x 2 + 3#64 else m.x k
    pc := m.x 30 }

theorem loop_ext : ExtOK loopEnv loopExt := by
  refine ⟨?_, fun g h => (by cases h), fun _ => rfl⟩
  intro g hg
  cases hg
  intro m m' c hr hpc h
  cases h
  refine ⟨_, rfl, ⟨?_, ?_, ?_, ?_, hr.tpidr, hr.mem⟩, hr.gp 30⟩
  · intro r
    by_cases h2 : r = 2
    · subst h2
      have := hr.gp 2
      simp only [show (⟨((2 : Fin 31) : Nat), by omega⟩ : Fin 32) = 2 from rfl] at this ⊢
      simp only [if_true]
      rw [trunc_zext (by omega), this]
      rfl
    · have : (Sum.inl ⟨r.val, by omega⟩ : AReg) ≠ .inl 2 := by
        intro h
        apply h2
        simp only [Sum.inl.injEq, Fin.ext_iff] at h
        exact Fin.ext h
      simp only [if_neg this, if_neg h2]
      exact hr.gp r
  · simp only [if_neg (show (Sum.inl 31 : AReg) ≠ .inl 2 by decide)]; exact hr.sp
  · intro r; simp only [reduceCtorEq, if_false]; exact hr.vec r
  · intro f b hb; simp only [reduceCtorEq, if_false]; exact hr.fl f b hb

def noExc : Inst Instr → Bool := fun _ => false

def noFold : Inst Instr → Option Bool := fun _ => none

def loopCall : Call Instr := ⟨loopCode, 0x1000#64, .all, true⟩

def loopFn : Fn Instr := (runFn (aClassify noExc) 40 loopCall (Fn.init _)).getD (Fn.init _)

theorem loopFn_hist : Hist (aClassify noExc) [loopCall] loopFn := by
  refine .call _ .init (runFn_returns (n := 40) ?_)
  have : (runFn (aClassify noExc) 40 loopCall (Fn.init _)).isSome = true := by decide +kernel
  obtain ⟨f, hf⟩ := Option.isSome_iff_exists.1 this
  simp only [loopFn, hf, Option.getD_some]

deriving instance DecidableEq for Inst

theorem loopFn_insts : loopFn.insts =
    [⟨0x1000#64, 4, .bin .sub false true false (.x 0) (.x 0) (.imm 1)⟩, ⟨0x1004#64, 4, .bl 0xffc#64⟩,
     ⟨0x1008#64, 4, .bcond .ne (-8#64)⟩, ⟨0x100c#64, 4, .ret (.x 5)⟩] := by
  decide +kernel

/-- Initial state of the core: X0 = 4, X5 = 0x2000, everything else zero, no flag known. -/
def loopState (slide : BitVec 64) : S where
  x := fun k => if k = 0 then 4#64 else if k = 5 then 0x2000#64 else 0#64
  sp := 0
  vec := fun _ => 0
  fl := fun _ => none
  tpidr := 0
  mem := fun _ => 0#8
  pc := 0x1000#64 + slide

/-- The CPU struct with this state; the flags are undefined. -/
def loopCpu (slide : BitVec 64) : CPU AReg AVal AMem where
  slot := fun r => match r with
    | .inl k => some (if k = 0 then 4#128 else if k = 5 then 0x2000#128 else 0#128)
    | .inr (.inl _) => some 0#128
    | .inr (.inr _) => none
  pc := some (0x1000#64 + slide)
  mem := (Mem.toV (fun _ => 0#8), some 0)

theorem loop_rel (slide : BitVec 64) : ARel (loopState slide) (loopCpu slide).slot (loopCpu slide).mem := by
  refine ⟨?_, rfl, fun _ => rfl, fun f b h => (by cases h), rfl, rfl⟩
  intro k
  simp only [loopCpu, loopState]
  revert k; decide

theorem loop_handled : ∀ i ∈ loopFn.insts, handled i.payload = true := by
  rw [loopFn_insts]; decide

theorem loop_lifts (slide : BitVec 64) :
    ∃ g, lift true (aLifter loopEnv slide noFold).toSLifter loopFn = .ok g := by
  have hL : Liftable (aClassify noExc) (aLifter loopEnv slide noFold).toSLifter loopFn := by
    refine ⟨by decide +kernel, ?_, ?_⟩
    · show ∀ i ∈ loopFn.insts, ∀ a ∈ (form true i.payload i.start i.stop).targets, reserved a = false
      rw [loopFn_insts]
      intro i hi
      have h : ((form true i.payload i.start i.stop).targets.all (fun a => reserved a == false)) = true := by
        revert i; decide
      intro a ha
      simpa using List.all_eq_true.1 h a ha
    · show ∀ i ∈ loopFn.insts, (aClassify noExc i).1 = .other → handled i.payload = true →
        form true i.payload i.start i.stop ≠ .returned
      rw [loopFn_insts]; decide
  obtain ⟨h1, h2⟩ := C39_null_iff_partial loopFn_hist true hL
  cases hl : lift true (aLifter loopEnv slide noFold).toSLifter loopFn with
  | ok g => exact ⟨g, rfl⟩
  | ub => exact absurd hl h1
  | null =>
    exfalso
    have : ¬ (loopFn.instrs = [] ∨ true = false ∨
        ∃ d, loopFn.instrs.head? = some d ∧ (aLifter loopEnv slide noFold).toSLifter.ok d.inst = false) := by
      show ¬ (loopFn.instrs = [] ∨ true = false ∨
        ∃ d, loopFn.instrs.head? = some d ∧ handled d.inst.payload = false)
      rintro (h | h | ⟨d, hd, h⟩)
      · have : loopFn.instrs.length = 4 := by decide +kernel
        rw [h] at this; cases this
      · cases h
      · have := loop_handled d.inst (List.mem_map.2 ⟨d, List.mem_of_mem_head? hd, rfl⟩)
        rw [h] at this; cases this
    exact this (h2.1 hl)

/-- All registers. -/
def allRegs : List AReg := (List.finRange 32).map .inl ++ (List.finRange 32).map (fun k => .inr (.inl k))
  ++ [Flag.n, .z, .c, .v].map (fun f => .inr (.inr f))

theorem mem_allRegs (r : AReg) : r ∈ allRegs := by
  unfold allRegs
  rcases r with k | k | f
  · exact List.mem_append_left _ (List.mem_append_left _ (List.mem_map.2 ⟨k, List.mem_finRange k, rfl⟩))
  · exact List.mem_append_left _ (List.mem_append_right _ (List.mem_map.2 ⟨k, List.mem_finRange k, rfl⟩))
  · exact List.mem_append_right _ (List.mem_map.2 ⟨f, by cases f <;> simp, rfl⟩)

/-- All hypotheses of `C09_a64_partial` are met by the loop, at any load address. -/
example (slide : BitVec 64) (out0 : Id → AReg → AVal) : ∃ g plan, ∀ k,
    (∃ k' < k, ∃ n m1 q a e, (aGuest loopEnv loopExt slide).run loopCode slide n (loopState slide) = some m1 ∧
      runSsa (aLifter loopEnv slide noFold) plan (fun _ _ => false) slide g k'
        (ssaStart out0 (loopCpu slide)) = some (.at q (.at a) e) ∧
      InStep g (aGuest loopEnv loopExt slide) slide ARel m1 (.at q (.at a) e) ∧
      ∃ bb, g (.at a) = some bb ∧ (aGuest loopEnv loopExt slide).StuckIn loopCode slide bb.body m1) ∨
    ∃ n m1 x, (aGuest loopEnv loopExt slide).run loopCode slide n (loopState slide) = some m1 ∧
      runSsa (aLifter loopEnv slide noFold) plan (fun _ _ => false) slide g k
        (ssaStart out0 (loopCpu slide)) = some x ∧
      InStep g (aGuest loopEnv loopExt slide) slide ARel m1 x ∧
      Progress k n x := by
  obtain ⟨g, hg⟩ := loop_lifts slide
  obtain ⟨N, hN⟩ := C15_packs_terminate loopFn_hist hg allRegs
  obtain ⟨plan, hp⟩ := hN N (Nat.le_refl _)
  have hh : loopFn.instrs.head?.map (fun d => d.inst.start) = some 0x1000#64 := by decide +kernel
  obtain ⟨d, hd, hs⟩ := Option.map_eq_some_iff.1 hh
  refine ⟨g, plan, fun k => ?_⟩
  exact C09_a64_partial noExc loop_ext loopFn_hist
    (by intro c hc; rw [List.mem_singleton.1 hc]; rfl)
    (counted_cfg loopFn_hist (by intro c hc; rw [List.mem_singleton.1 hc]; exact ⟨rfl, rfl⟩))
    slide (.inr loop_handled) noFold hg mem_allRegs hp (by intro c k b s bb s' i v _ _ _ _ h; cases h)
    (by intro r v h; cases h) (.inl fun _ _ => rfl) hd (loopState slide)
    (by rw [hs]; rfl) (loopCpu slide) (loop_rel slide) rfl out0 k

/-- Lift a decoded function and run it for `k` blocks on the given X registers; the result are the
X registers and the pc in the CPU struct if the lifted function has returned. -/
def runLifted (L : Lifter Instr AReg AVal AMem) (fn : Fn Instr) (x : Fin 32 → BitVec 64)
    (pc : BitVec 64) (k : Nat) : Option ((Fin 32 → Val 64) × Val 64) :=
  match lift true L.toSLifter fn with
  | .ok g =>
    match optimizePacks L g (packIds fn) allRegs 1000 with
    | none => none
    | some plan =>
      match runSsa L plan (fun _ v => v == none) 0 g k (ssaStart (fun _ _ => some 0)
        ⟨fun r => match r with
          | .inl k => some ((x k).setWidth 128)
          | .inr (.inl _) => some 0
          | .inr (.inr _) => none, some pc, (fun _ => some 0#8, some 0)⟩) with
      | some (.done _ c) => some (fun k => trunc 64 (c.slot (.inl k)), c.pc)
      | _ => none
  | _ => none

/-- The loop in numbers: the lifted function leaves X0 = 0, X2 = 12, X30 = 0x1008 and pc = X5. -/
example : ((runFn (aClassify noExc) 40 loopCall (Fn.init _)).bind (fun fn =>
    runLifted (aLifter loopEnv 0 noFold) fn (fun k => if k = 0 then 4 else if k = 5 then 0x2000 else 0)
      0x1000#64 30)).map (fun r => (r.1 0, r.1 2, r.1 30, r.2))
    = some (some 0#64, some 12#64, some 0x1008#64, some 0x2000#64) := by
  decide +kernel

end Verif.Lift.A64
