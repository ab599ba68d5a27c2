import Verif.Lift.RV64Fp
import Verif.Lift.Examples

/-!
The hypotheses of `C09_rv64_fp_partial` are satisfiable: a loop that adds single-precision numbers.
-/

namespace Verif.Lift.RV64

open Verif.Decode Verif.IR Verif.RV64 Verif.Lift Verif.Lift.RV64

/-- ```
1000: fmv.w.x  f1, x0
1004: fcvt.s.w f2, x1
1008: fdiv.s   f2, f2, f3
100c: fadd.s   f1, f1, f2
1010: addi     x1, x1, -1
1014: bne      x1, x0, 1004
1018: fcvt.l.s x2, f1, rup
101c: jalr     x0, 0(x5)
``` -/
def fsumInsts : List (BitVec 64 × Frv) :=
  [(0x1000#64, ⟨.fmvwx, 1, 0, 0, 0, 0, 7⟩), (0x1004#64, ⟨.fp (.ofInt false true) .s, 2, 1, 0, 0, 0, 7⟩),
   (0x1008#64, ⟨.fp (.arith .div) .s, 2, 2, 3, 0, 0, 7⟩), (0x100c#64, ⟨.fp (.arith .add) .s, 1, 1, 2, 0, 0, 7⟩),
   (0x1010#64, ⟨.addi, 1, 1, 0, -1, 0, 7⟩), (0x1014#64, ⟨.bne, 0, 1, 0, -16, 0, 7⟩),
   (0x1018#64, ⟨.fp (.toInt true true) .s, 2, 1, 0, 0, 0, 3⟩), (0x101c#64, ⟨.jalr, 0, 5, 0, 0, 0, 7⟩)]

def fsumCode : Decoder Frv := fun a => (fsumInsts.find? (fun p => p.1 == a)).map (fun p => (4, p.2))

theorem fsumCode_decoded : ∀ a len p, fsumCode a = some (len, p) → Decoded p := by
  intro a len p h
  obtain ⟨q, hq, he⟩ := Option.map_eq_some_iff.1 h
  have h1 := List.mem_of_find?_eq_some hq
  cases he
  have : ∀ q ∈ fsumInsts, Decoded q.2 := by decide
  exact this q h1

def fsumCall : Call Frv := ⟨fsumCode, 0x1000#64, .all, false⟩

def fsumFn : Fn Frv := (runFn rvClassify 80 fsumCall (Fn.init _)).getD (Fn.init _)

theorem fsumFn_hist : Hist rvClassify [fsumCall] fsumFn := by
  refine .call _ .init (runFn_returns (n := 80) ?_)
  have : (runFn rvClassify 80 fsumCall (Fn.init _)).isSome = true := by decide +kernel
  obtain ⟨f, hf⟩ := Option.isSome_iff_exists.1 this
  simp only [fsumFn, hf, Option.getD_some]

theorem fsumFn_insts : fsumFn.insts = fsumInsts.map (fun p => ⟨p.1, 4, p.2⟩) := by
  decide +kernel

/-- Initial state of the hart: `x1 = 4`, `x5 = 0x2000`, `f3 = 8.0`. -/
def fsumState (slide : BitVec 64) : Spec.State where
  gp := fun k => if k = 1 then 4#64 else if k = 5 then 0x2000#64 else 0#64
  fp := fun k => if k = 3 then 0xffffffff41000000#64 else 0#64
  mem := fun _ => 0#8
  pc := 0x1000#64 + slide

/-- A CPU struct with this state, `f3` not NaN-boxed. -/
def fsumCpu (slide : BitVec 64) : CPU RvReg (Val 64) VMem where
  slot := fun r => match r with
    | .inl k => some (if k = 1 then 4#64 else if k = 5 then 0x2000#64 else 0#64)
    | .inr k => some (if k = 3 then 0x41000000#64 else 0#64)
  pc := some (0x1000#64 + slide)
  mem := Mem.toV (fun _ => 0#8)

theorem fsum_rel (slide : BitVec 64) : rvRelF (fsumState slide) (fsumCpu slide).slot (fsumCpu slide).mem := by
  refine ⟨?_, ?_, ?_, ?_, rfl⟩
  · intro k
    simp only [fsumCpu, fsumState, Option.some.injEq]
    revert k; decide
  · intro k hk
    simp only [fsumState]
    rw [if_neg (by omega), if_neg (by omega)]
  · intro k
    by_cases h : k = 3
    · right; subst h; exact ⟨0x41000000#32, rfl, rfl⟩
    · left
      have h' : (k : Nat) ≠ 3 := fun h' => h (Fin.ext h')
      simp only [fsumCpu, fsumState, h, h', if_false]
  · intro k hk
    left
    simp only [fsumState]
    rw [if_neg (by omega)]

theorem fsum_handled : ∀ i ∈ fsumFn.insts, handled i.payload = true := by
  rw [fsumFn_insts]; decide

theorem fsum_lifts (slide : BitVec 64) :
    ∃ g, lift true (rvLifter slide noFold).toSLifter fsumFn = .ok g := by
  have hL : Liftable rvClassify (rvLifter slide noFold).toSLifter fsumFn := by
    refine ⟨by decide +kernel, ?_, ?_⟩
    · show ∀ i ∈ fsumFn.insts, ∀ a ∈ (form i.payload i.start i.stop).targets, reserved a = false
      rw [fsumFn_insts]
      intro i hi
      have h : ((form i.payload i.start i.stop).targets.all (fun a => reserved a == false)) = true := by
        revert i; decide
      intro a ha
      simpa using List.all_eq_true.1 h a ha
    · show ∀ i ∈ fsumFn.insts, (rvClassify i).1 = .other → handled i.payload = true →
        form i.payload i.start i.stop ≠ .returned
      rw [fsumFn_insts]; decide
  obtain ⟨h1, h2⟩ := C39_null_iff_partial fsumFn_hist true hL
  cases hl : lift true (rvLifter slide noFold).toSLifter fsumFn with
  | ok g => exact ⟨g, rfl⟩
  | ub => exact absurd hl h1
  | null =>
    exfalso
    have : ¬ (fsumFn.instrs = [] ∨ true = false ∨
        ∃ d, fsumFn.instrs.head? = some d ∧ (rvLifter slide noFold).toSLifter.ok d.inst = false) := by
      show ¬ (fsumFn.instrs = [] ∨ true = false ∨
        ∃ d, fsumFn.instrs.head? = some d ∧ handled d.inst.payload = false)
      rintro (h | h | ⟨d, hd, h⟩)
      · have : fsumFn.instrs.length = 8 := by decide +kernel
        rw [h] at this; cases this
      · cases h
      · have := fsum_handled d.inst (List.mem_map.2 ⟨d, List.mem_of_mem_head? hd, rfl⟩)
        rw [h] at this; cases this
    exact this (h2.1 hl)

/-- All hypotheses of `C09_rv64_fp_partial` are met by the loop, at any load address. -/
example (slide : BitVec 64) (out0 : Id → RvReg → Val 64) : ∃ g plan, ∀ k,
    (∃ k' < k, ∃ n m1 q a e, rvGuestF.run fsumCode slide n (fsumState slide) = some m1 ∧
      runSsa (rvLifter slide noFold) plan (fun _ _ => false) slide g k' (ssaStart out0 (fsumCpu slide))
        = some (.at q (.at a) e) ∧
      InStep g rvGuestF slide rvRelF m1 (.at q (.at a) e) ∧
      ∃ bb, g (.at a) = some bb ∧ rvGuestF.StuckIn fsumCode slide bb.body m1) ∨
    ∃ n m1 x, rvGuestF.run fsumCode slide n (fsumState slide) = some m1 ∧
      runSsa (rvLifter slide noFold) plan (fun _ _ => false) slide g k (ssaStart out0 (fsumCpu slide))
        = some x ∧
      InStep g rvGuestF slide rvRelF m1 x ∧ Progress k n x := by
  obtain ⟨g, hg⟩ := fsum_lifts slide
  obtain ⟨N, hN⟩ := C15_packs_terminate fsumFn_hist hg allRegs
  obtain ⟨plan, hp⟩ := hN N (Nat.le_refl _)
  have hh : fsumFn.instrs.head?.map (fun d => d.inst.start) = some 0x1000#64 := by decide +kernel
  obtain ⟨d, hd, hs⟩ := Option.map_eq_some_iff.1 hh
  refine ⟨g, plan, fun k => ?_⟩
  exact C09_rv64_fp_partial fsumCode_decoded fsumFn_hist
    (by intro c hc; rw [List.mem_singleton.1 hc]; rfl)
    (counted_cfg fsumFn_hist (by intro c hc; rw [List.mem_singleton.1 hc]; exact ⟨rfl, rfl⟩))
    slide (.inr fsum_handled) noFold hg mem_allRegs hp (noFold_ok slide g) hd (fsumState slide)
    (by rw [hs]; rfl) (fsumCpu slide) (fsum_rel slide) rfl out0 k

/-- The hart does not stop: after all 23 instructions it has `f1 = 1.25`, `x2 = 2` and `pc = x5`. -/
example : (rvGuestF.run fsumCode 0 23 (fsumState 0)).map (fun m => (m.fp 1, m.gp 2, m.pc))
    = some (0xffffffff3fa00000#64, 2#64, 0x2000#64) := by
  decide +kernel

end Verif.Lift.RV64
