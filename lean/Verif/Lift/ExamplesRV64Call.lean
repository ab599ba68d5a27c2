import Verif.Lift.RV64Call
import Verif.Lift.Examples

/-!
The hypotheses of `C09_rv64_call_partial` are satisfiable: a loop with a call and a system call.
-/

namespace Verif.Lift.RV64

open Verif.Decode Verif.IR Verif.RV64 Verif.Lift Verif.Lift.RV64

/-- ```
1000: addi  x2, x2, -1
1004: jal   x1, 2000
1008: bne   x2, x0, 1000
100c: beq   x3, x0, 1014
1010: ecall
1014: jalr  x0, 0(x5)
``` -/
def ccInsts : List (BitVec 64 × Frv) :=
  [(0x1000#64, ⟨.addi, 2, 2, 0, -1, 0, 7⟩), (0x1004#64, ⟨.jal, 1, regInv, 0, 0xffc, 0, 7⟩),
   (0x1008#64, ⟨.bne, 0, 2, 0, -8, 0, 7⟩), (0x100c#64, ⟨.beq, 0, 3, 0, 8, 0, 7⟩),
   (0x1010#64, ⟨.ecall, 0, 0, 0, 0, 0, 7⟩), (0x1014#64, ⟨.jalr, 0, 5, 0, 0, 0, 7⟩)]

def ccCode : Decoder Frv := fun a => (ccInsts.find? (fun p => p.1 == a)).map (fun p => (4, p.2))

theorem ccCode_decoded : ∀ a len p, ccCode a = some (len, p) → Decoded p := by
  intro a len p h
  obtain ⟨q, hq, he⟩ := Option.map_eq_some_iff.1 h
  have h1 := List.mem_of_find?_eq_some hq
  cases he
  have : ∀ q ∈ ccInsts, Decoded q.2 := by decide
  exact this q h1

/-- Add `d` to a register of the CPU struct and continue at `pc`. -/
def bump (k : Fin 32) (d : Val 64) (pc : Val 64) (c : CPU RvReg (Val 64) VMem) : CPU RvReg (Val 64) VMem where
  slot := fun r => if r = .inl k then IR.add (c.slot r) d else c.slot r
  pc := pc
  mem := c.mem

/-- Add `d` to a register of the hart and continue at `pc`. -/
def bumpS (k : Fin 32) (d : BitVec 64) (pc : BitVec 64) (m : Spec.State) : Spec.State :=
  { m with gp := fun j => if j = k then m.gp j + d else m.gp j, pc := pc }

/-- The callee of the call function adds 3 to `x10` and returns; the system call adds `x10` to `x11`. -/
def ccEnv : Env where
  callFn := some fun c => some (bump 10 (some 3#64) (c.slot (.inl 1)) c)
  sysFn := some fun c => some (bump 11 (c.slot (.inl 10)) c.pc c)

def ccExt : Ext where
  callee := fun m => some (bumpS 10 3#64 (m.gp 1) m)
  sys := fun m => some (bumpS 11 (m.gp 10) m.pc m)

theorem bump_rel {m : Spec.State} {c : CPU RvReg (Val 64) VMem} (h : rvRelF m c.slot c.mem) (k : Fin 32)
    (d pc : BitVec 64) : rvRelF (bumpS k d pc m) (bump k (some d) (some pc) c).slot c.mem := by
  obtain ⟨h1, h2, h3, h4, h5⟩ := h
  refine ⟨fun j => ?_, fun j hj => ?_, fun j => h3 j, h4, h5⟩
  · by_cases hj : j = k
    · subst hj; simp [bump, bumpS, h1, IR.add, bin]
    · have : (j : Nat) ≠ k := fun h => hj (Fin.ext h)
      simp [bump, bumpS, hj, this, h1]
  · have : j ≠ (k : Nat) := by have := k.isLt; omega
    simp only [bumpS, this, if_false]
    exact h2 j hj

theorem cc_ext : ExtOK ccEnv ccExt := by
  refine ⟨?_, ?_, fun h => by cases h⟩
  · intro g hg
    cases hg
    intro m m' c hr hpc h
    cases h
    refine ⟨_, rfl, ?_, hr.1 1⟩
    rw [show c.slot (.inl 1) = some (m.gp 1) from hr.1 1]
    exact bump_rel hr 10 _ _
  · intro g hg
    cases hg
    intro m m' c hr hpc h
    cases h
    refine ⟨_, rfl, ?_, hpc⟩
    rw [show c.slot (.inl 10) = some (m.gp 10) from hr.1 10, hpc]
    exact bump_rel hr 11 _ _

def ccCall : Call Frv := ⟨ccCode, 0x1000#64, .all, true⟩

def ccFn : Fn Frv := (runFn rvClassify 80 ccCall (Fn.init _)).getD (Fn.init _)

theorem ccFn_hist : Hist rvClassify [ccCall] ccFn := by
  refine .call _ .init (runFn_returns (n := 80) ?_)
  have : (runFn rvClassify 80 ccCall (Fn.init _)).isSome = true := by decide +kernel
  obtain ⟨f, hf⟩ := Option.isSome_iff_exists.1 this
  simp only [ccFn, hf, Option.getD_some]

theorem ccFn_insts : ccFn.insts = ccInsts.map (fun p => ⟨p.1, 4, p.2⟩) := by
  decide +kernel

/-- Initial state of the hart: `x2 = 4`, `x3 = 1` if a system call is wanted, `x5 = 0x3000`. -/
def ccState (sys : BitVec 64) (slide : BitVec 64) : Spec.State where
  gp := fun k => if k = 2 then 4#64 else if k = 3 then sys else if k = 5 then 0x3000#64 else 0#64
  fp := fun _ => 0#64
  mem := fun _ => 0#8
  pc := 0x1000#64 + slide

/-- The CPU struct with this state. -/
def ccCpu (sys : BitVec 64) (slide : BitVec 64) : CPU RvReg (Val 64) VMem where
  slot := fun r => match r with
    | .inl k => some (if k = 2 then 4#64 else if k = 3 then sys else if k = 5 then 0x3000#64 else 0#64)
    | .inr _ => some 0#64
  pc := some (0x1000#64 + slide)
  mem := Mem.toV (fun _ => 0#8)

theorem cc_rel (sys slide : BitVec 64) : rvRelF (ccState sys slide) (ccCpu sys slide).slot (ccCpu sys slide).mem := by
  refine ⟨?_, ?_, fun k => .inl rfl, fun k hk => .inl rfl, rfl⟩
  · intro k
    simp only [ccCpu, ccState, Option.some.injEq]
    have e : ∀ n : Nat, n < 32 → ((k : Nat) = n ↔ k = Fin.ofNat 32 n) := by
      intro n hn
      rw [Fin.ext_iff]; simp [Nat.mod_eq_of_lt hn]
    have e2 := e 2 (by omega); have e3 := e 3 (by omega); have e5 := e 5 (by omega)
    simp only [Fin.ofNat, Nat.reduceMod] at e2 e3 e5
    simp only [e2, e3, e5]
    rfl
  · intro k hk
    simp only [ccState]
    rw [if_neg (by omega), if_neg (by omega), if_neg (by omega)]

theorem cc_handled : ∀ i ∈ ccFn.insts, handled i.payload = true := by
  rw [ccFn_insts]; decide

theorem cc_lifts (slide : BitVec 64) :
    ∃ g, lift true (rvLifterC ccEnv slide noFold).toSLifter ccFn = .ok g := by
  have hL : Liftable rvClassify (rvLifterC ccEnv slide noFold).toSLifter ccFn := by
    refine ⟨by decide +kernel, ?_, ?_⟩
    · show ∀ i ∈ ccFn.insts, ∀ a ∈ (formC true i.payload i.start i.stop).targets, reserved a = false
      rw [ccFn_insts]
      intro i hi
      have h : ((formC true i.payload i.start i.stop).targets.all (fun a => reserved a == false)) = true := by
        revert i; decide
      intro a ha
      simpa using List.all_eq_true.1 h a ha
    · show ∀ i ∈ ccFn.insts, (rvClassify i).1 = .other → handled i.payload = true →
        formC true i.payload i.start i.stop ≠ .returned
      rw [ccFn_insts]; decide
  obtain ⟨h1, h2⟩ := C39_null_iff_partial ccFn_hist true hL
  cases hl : lift true (rvLifterC ccEnv slide noFold).toSLifter ccFn with
  | ok g => exact ⟨g, rfl⟩
  | ub => exact absurd hl h1
  | null =>
    exfalso
    have : ¬ (ccFn.instrs = [] ∨ true = false ∨
        ∃ d, ccFn.instrs.head? = some d ∧ (rvLifterC ccEnv slide noFold).toSLifter.ok d.inst = false) := by
      show ¬ (ccFn.instrs = [] ∨ true = false ∨
        ∃ d, ccFn.instrs.head? = some d ∧ handled d.inst.payload = false)
      rintro (h | h | ⟨d, hd, h⟩)
      · have : ccFn.instrs.length = 6 := by decide +kernel
        rw [h] at this; cases this
      · cases h
      · have := cc_handled d.inst (List.mem_map.2 ⟨d, List.mem_of_mem_head? hd, rfl⟩)
        rw [h] at this; cases this
    exact this (h2.1 hl)

/-- All hypotheses of `C09_rv64_call_partial` are met by the loop, at any load address. -/
example (sys slide : BitVec 64) (out0 : Id → RvReg → Val 64) : ∃ g plan, ∀ k,
    (∃ k' < k, ∃ n m1 q a e, (rvGuestC ccEnv ccExt slide).run ccCode slide n (ccState sys slide) = some m1 ∧
      runSsa (rvLifterC ccEnv slide noFold) plan (fun _ _ => false) slide g k' (ssaStart out0 (ccCpu sys slide))
        = some (.at q (.at a) e) ∧
      InStep g (rvGuestC ccEnv ccExt slide) slide rvRelF m1 (.at q (.at a) e) ∧
      ∃ bb, g (.at a) = some bb ∧ (rvGuestC ccEnv ccExt slide).StuckIn ccCode slide bb.body m1) ∨
    ∃ n m1 x, (rvGuestC ccEnv ccExt slide).run ccCode slide n (ccState sys slide) = some m1 ∧
      runSsa (rvLifterC ccEnv slide noFold) plan (fun _ _ => false) slide g k (ssaStart out0 (ccCpu sys slide))
        = some x ∧
      InStep g (rvGuestC ccEnv ccExt slide) slide rvRelF m1 x ∧ Progress k n x := by
  obtain ⟨g, hg⟩ := cc_lifts slide
  obtain ⟨N, hN⟩ := C15_packs_terminate ccFn_hist hg allRegs
  obtain ⟨plan, hp⟩ := hN N (Nat.le_refl _)
  have hh : ccFn.instrs.head?.map (fun d => d.inst.start) = some 0x1000#64 := by decide +kernel
  obtain ⟨d, hd, hs⟩ := Option.map_eq_some_iff.1 hh
  refine ⟨g, plan, fun k => ?_⟩
  exact C09_rv64_call_partial cc_ext ccCode_decoded ccFn_hist
    (by intro c hc; rw [List.mem_singleton.1 hc]; rfl)
    (counted_cfg ccFn_hist (by intro c hc; rw [List.mem_singleton.1 hc]; exact ⟨rfl, rfl⟩))
    (.inr (by rw [ccFn_insts]; decide))
    slide (.inr cc_handled) noFold hg mem_allRegs hp (by intro c k b s bb s' i v _ _ _ _ h; cases h)
    (by intro r v h; cases h) (.inl fun _ _ => rfl) hd (ccState sys slide)
    (by rw [hs]; rfl) (ccCpu sys slide) (cc_rel sys slide) rfl out0 k

/-- The hart does not stop: after the loop and the system call it has `x10 = 12`, `x11 = 12` and stands
behind the ECALL; without the system call it returns to `x5`. -/
example : ((rvGuestC ccEnv ccExt 0).run ccCode 0 14 (ccState 1 0)).map (fun m => (m.gp 10, m.gp 11, m.pc))
      = some (12#64, 12#64, 0x1014#64) ∧
    ((rvGuestC ccEnv ccExt 0).run ccCode 0 14 (ccState 0 0)).map (fun m => (m.gp 10, m.gp 11, m.pc))
      = some (12#64, 0#64, 0x3000#64) := by
  decide +kernel

/-- The lifted function in numbers: it returns with the same values. -/
example : (runLifted (rvLifterC ccEnv 0 noFold) ccFn
      (fun k => if k = 2 then 4 else if k = 3 then 1 else 0) 0x1000#64 20).map (fun r => (r.1 10, r.1 11, r.2))
      = some (some 12#64, some 12#64, some 0x1014#64) ∧
    (runLifted (rvLifterC ccEnv 0 noFold) ccFn
      (fun k => if k = 2 then 4 else if k = 5 then 0x3000 else 0) 0x1000#64 20).map (fun r => (r.1 10, r.1 11, r.2))
      = some (some 12#64, some 0#64, some 0x3000#64) := by
  decide +kernel

end Verif.Lift.RV64
