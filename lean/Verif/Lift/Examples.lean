import Verif.Lift.RV64
import Verif.Lift.Relift
import Verif.Lift.FillPhisProps

/-!
Concrete functions: instances of the whole-function theorems, and counterexamples to the properties
outside the proved scope.
-/

namespace Verif.Lift.RV64

open Verif.Decode Verif.IR Verif.RV64 Verif.Lift

deriving instance DecidableEq for Frv
deriving instance DecidableEq for Inst

/-- All registers. -/
def allRegs : List RvReg := (List.finRange 32).map .inl ++ (List.finRange 32).map .inr

theorem mem_allRegs (r : RvReg) : r ∈ allRegs := by
  unfold allRegs
  cases r with
  | inl k => exact List.mem_append_left _ (List.mem_map.2 ⟨k, List.mem_finRange k, rfl⟩)
  | inr k => exact List.mem_append_right _ (List.mem_map.2 ⟨k, List.mem_finRange k, rfl⟩)

/-- No constant folding of branch conditions. -/
def noFold : Inst Frv → Option Bool := fun _ => none

theorem noFold_ok (slide : BitVec 64) (g : Graph Frv) (c : CPU RvReg (Val 64) VMem) :
    FoldOK (rvLifter slide noFold) slide g c := by
  intro k b s bb s' i v _ _ _ _ h
  cases h

/-! ### A loop -/

/-- A program: a counting loop and a return.
```
1000: addi x2, x2, 3
1004: addi x1, x1, -1
1008: bne  x1, x0, 1000
100c: jalr x0, 0(x5)
``` -/
def loopCode : Decoder Frv := fun a =>
  if a = 0x1000#64 then some (4, ⟨.addi, 2, 2, 0, 3, 0, 7⟩)
  else if a = 0x1004#64 then some (4, ⟨.addi, 1, 1, 0, -1, 0, 7⟩)
  else if a = 0x1008#64 then some (4, ⟨.bne, 0, 1, 0, -8, 0, 7⟩)
  else if a = 0x100c#64 then some (4, ⟨.jalr, 0, 5, 0, 0, 0, 7⟩)
  else none

theorem loopCode_decoded : ∀ a len p, loopCode a = some (len, p) → Decoded p := by
  intro a len p h
  simp only [loopCode] at h
  split at h
  · cases h; decide
  · split at h
    · cases h; decide
    · split at h
      · cases h; decide
      · split at h
        · cases h; decide
        · cases h

def loopCall : Call Frv := ⟨loopCode, 0x1000#64, .all, false⟩

def loopFn : Fn Frv := (runFn rvClassify 40 loopCall (Fn.init _)).getD (Fn.init _)

theorem loopFn_hist : Hist rvClassify [loopCall] loopFn := by
  refine .call _ .init (runFn_returns (n := 40) ?_)
  have : (runFn rvClassify 40 loopCall (Fn.init _)).isSome = true := by decide +kernel
  obtain ⟨f, hf⟩ := Option.isSome_iff_exists.1 this
  simp only [loopFn, hf, Option.getD_some]

theorem loopFn_insts : loopFn.insts =
    [⟨0x1000#64, 4, ⟨.addi, 2, 2, 0, 3, 0, 7⟩⟩, ⟨0x1004#64, 4, ⟨.addi, 1, 1, 0, -1, 0, 7⟩⟩,
     ⟨0x1008#64, 4, ⟨.bne, 0, 1, 0, -8, 0, 7⟩⟩, ⟨0x100c#64, 4, ⟨.jalr, 0, 5, 0, 0, 0, 7⟩⟩] := by
  decide +kernel

theorem loopFn_blocks : loopFn.instrs.map (fun d => d.newBlock) = [true, false, false, true] := by
  decide +kernel

/-- Initial state of the hart: `x1 = 4`, `x5 = 0x2000`, at the first instruction loaded `slide` bytes
higher. -/
def loopState (slide : BitVec 64) : Spec.State where
  gp := fun k => if k = 1 then 4#64 else if k = 5 then 0x2000#64 else 0#64
  fp := fun _ => 0#64
  mem := fun _ => 0#8
  pc := 0x1000#64 + slide

/-- The CPU struct with this state. -/
def loopCpu (slide : BitVec 64) : CPU RvReg (Val 64) VMem where
  slot := fun r => match r with
    | .inl k => some (if k = 1 then 4#64 else if k = 5 then 0x2000#64 else 0#64)
    | .inr _ => some 0#64
  pc := some (0x1000#64 + slide)
  mem := Mem.toV (fun _ => 0#8)

theorem loop_rel (slide : BitVec 64) : rvRel (loopState slide) (loopCpu slide).slot (loopCpu slide).mem := by
  refine ⟨?_, ?_, fun _ => rfl, fun _ _ => rfl, rfl⟩
  · intro k
    simp only [loopCpu, loopState, Option.some.injEq]
    revert k; decide
  · intro k hk
    simp only [loopState]
    rw [if_neg (by omega), if_neg (by omega)]

theorem loop_handled : ∀ i ∈ loopFn.insts, handled i.payload = true := by
  rw [loopFn_insts]; decide

theorem loop_lifts (slide : BitVec 64) :
    ∃ g, lift true (rvLifter slide noFold).toSLifter loopFn = .ok g := by
  have hL : Liftable rvClassify (rvLifter slide noFold).toSLifter loopFn := by
    refine ⟨by decide +kernel, ?_, ?_⟩
    · show ∀ i ∈ loopFn.insts, ∀ a ∈ (form i.payload i.start i.stop).targets, reserved a = false
      rw [loopFn_insts]
      intro i hi
      have h : ((form i.payload i.start i.stop).targets.all (fun a => reserved a == false)) = true := by
        revert i; decide
      intro a ha
      simpa using List.all_eq_true.1 h a ha
    · show ∀ i ∈ loopFn.insts, (rvClassify i).1 = .other → handled i.payload = true →
        form i.payload i.start i.stop ≠ .returned
      rw [loopFn_insts]; decide
  obtain ⟨h1, h2⟩ := C39_null_iff_partial loopFn_hist true hL
  cases hl : lift true (rvLifter slide noFold).toSLifter loopFn with
  | ok g => exact ⟨g, rfl⟩
  | ub => exact absurd hl h1
  | null =>
    exfalso
    have : ¬ (loopFn.instrs = [] ∨ true = false ∨
        ∃ d, loopFn.instrs.head? = some d ∧ (rvLifter slide noFold).toSLifter.ok d.inst = false) := by
      show ¬ (loopFn.instrs = [] ∨ true = false ∨
        ∃ d, loopFn.instrs.head? = some d ∧ handled d.inst.payload = false)
      rintro (h | h | ⟨d, hd, h⟩)
      · have : loopFn.instrs.length = 4 := by decide +kernel
        rw [h] at this; cases this
      · cases h
      · have := loop_handled d.inst (List.mem_map.2 ⟨d, List.mem_of_mem_head? hd, rfl⟩)
        rw [h] at this; cases this
    exact this (h2.1 hl)

/-- All hypotheses of `C09_rv64_partial` are met by the loop, at any load address. -/
example (slide : BitVec 64) (out0 : Id → RvReg → Val 64) : ∃ g plan, ∀ k,
    (∃ k' < k, ∃ n m1 q a e, rvGuest.run loopCode slide n (loopState slide) = some m1 ∧
      runSsa (rvLifter slide noFold) plan (fun _ _ => false) slide g k' (ssaStart out0 (loopCpu slide))
        = some (.at q (.at a) e) ∧
      InStep g rvGuest slide rvRel m1 (.at q (.at a) e) ∧
      ∃ bb, g (.at a) = some bb ∧ rvGuest.StuckIn loopCode slide bb.body m1) ∨
    ∃ n m1 x, rvGuest.run loopCode slide n (loopState slide) = some m1 ∧
      runSsa (rvLifter slide noFold) plan (fun _ _ => false) slide g k (ssaStart out0 (loopCpu slide))
        = some x ∧
      InStep g rvGuest slide rvRel m1 x ∧ Progress k n x := by
  obtain ⟨g, hg⟩ := loop_lifts slide
  obtain ⟨N, hN⟩ := C15_packs_terminate loopFn_hist hg allRegs
  obtain ⟨plan, hp⟩ := hN N (Nat.le_refl _)
  have hh : loopFn.instrs.head?.map (fun d => d.inst.start) = some 0x1000#64 := by decide +kernel
  obtain ⟨d, hd, hs⟩ := Option.map_eq_some_iff.1 hh
  refine ⟨g, plan, fun k => ?_⟩
  exact C09_rv64_partial loopCode_decoded loopFn_hist
    (by intro c hc; rw [List.mem_singleton.1 hc]; rfl)
    (counted_cfg loopFn_hist (by intro c hc; rw [List.mem_singleton.1 hc]; exact ⟨rfl, rfl⟩))
    slide (.inr loop_handled) noFold hg mem_allRegs hp (noFold_ok slide g) hd (loopState slide)
    (by rw [hs]; rfl) (loopCpu slide) (loop_rel slide) rfl out0 k

/-- The loop decoded with a single `ll_func_decode_block` call: no edge is missed, so the same theorem
applies; the block is its own predecessor. -/
example : ∃ fn, Hist rvClassify [⟨loopCode, 0x1000#64, .block, false⟩] fn ∧
    Counted rvClassify false [⟨loopCode, 0x1000#64, .block, false⟩] fn ∧
    fn.insts.map Inst.start = [0x1000#64, 0x1004#64, 0x1008#64] ∧
    fn.edgeCount rvClassify false 0x1000#64 = 1 := by
  have h : ((runFn rvClassify 40 ⟨loopCode, 0x1000#64, .block, false⟩ (Fn.init _)).map
      (fun f => (f.insts.map Inst.len, f.insts.map Inst.start, f.edgeCount rvClassify false 0x1000#64)))
      = some ([4, 4, 4], [0x1000#64, 0x1004#64, 0x1008#64], 1) := by decide +kernel
  obtain ⟨f, hf, he⟩ := Option.map_eq_some_iff.1 h
  simp only [Prod.mk.injEq] at he
  have hr := runFn_returns hf
  refine ⟨f, .call _ .init hr, C08_counted_one_block hr rfl ?_ ?_, he.2.1, he.2.2⟩
  · intro i hi
    have : i.len ∈ f.insts.map Inst.len := List.mem_map.2 ⟨i, hi, rfl⟩
    rw [he.1] at this
    simp only [List.mem_cons, List.not_mem_nil, or_false] at this
    omega
  · rw [totalLen, he.1]; decide

/-! ### Running a lifted function on concrete input -/

/-- Lift a decoded function and run it for `k` blocks on the given `x` registers, with memory and
floating-point registers zero; the result are the values of the `x` registers and the pc in the CPU
struct if the lifted function has returned. -/
def runLifted (L : Lifter Frv RvReg (Val 64) VMem) (fn : Fn Frv) (x : Fin 32 → BitVec 64)
    (pc : BitVec 64) (k : Nat) : Option ((Fin 32 → Val 64) × Val 64) :=
  match lift true L.toSLifter fn with
  | .ok g =>
    match optimizePacks L g (packIds fn) allRegs 1000 with
    | none => none
    | some plan =>
      match runSsa L plan (fun _ _ => false) 0 g k (ssaStart (fun _ _ => some 0#64)
        ⟨fun r => Sum.elim (fun k => some (x k)) (fun _ => some 0#64) r, some pc, fun _ => some 0#8⟩) with
      | some (.done _ c) => some (fun k => c.slot (.inl k), c.pc)
      | _ => none
  | _ => none

/-- Running the hart. -/
def runHart (code : Decoder Frv) (x : Fin 32 → BitVec 64) (pc : BitVec 64) (n : Nat) :
    Option (Nat → BitVec 64) :=
  (rvGuest.run code 0 n ⟨fun k => if h : k < 32 then x ⟨k, h⟩ else 0#64, fun _ => 0#64,
    fun _ => 0#8, pc⟩).map (fun m => m.gp)

/-- The loop in numbers: the lifted function leaves `x1 = 0`, `x2 = 12` and `pc = x5`. -/
example : ((runFn rvClassify 40 loopCall (Fn.init _)).bind (fun fn =>
    runLifted (rvLifter 0 noFold) fn (fun k => if k = 1 then 4 else if k = 5 then 0x2000 else 0)
      0x1000#64 20)).map (fun r => (r.1 1, r.1 2, r.2)) = some (some 0#64, some 12#64, some 0x2000#64) := by
  decide +kernel

/-! ### C55: lifting again -/

/-- The block at 100c decoded alone and lifted; then the loop decoded with `ll_func_decode_cfg`, and
lifted again. -/
example : ∃ f1 f2, Hist rvClassify [⟨loopCode, 0x100c#64, .block, false⟩] f1 ∧
    Hist rvClassify [loopCall, ⟨loopCode, 0x100c#64, .block, false⟩] f2.lifted ∧
    Returns rvClassify loopCall f1.lifted f2 ∧
    f2.insts.map Inst.start = [0x100c#64, 0x1000#64, 0x1004#64, 0x1008#64] ∧
    f1.predsOf 0x100c#64 = 0 ∧ f2.predsOf 0x100c#64 = 2 ∧ f2.lifted.predsOf 0x100c#64 = 3 := by
  have h : ((runFn rvClassify 40 ⟨loopCode, 0x100c#64, .block, false⟩ (Fn.init _)).bind (fun f1 =>
      (runFn rvClassify 40 loopCall f1.lifted).map (fun f2 => (f2.insts.map Inst.start,
        f1.predsOf 0x100c#64, f2.predsOf 0x100c#64, f2.lifted.predsOf 0x100c#64)))) =
      some ([0x100c#64, 0x1000#64, 0x1004#64, 0x1008#64], 0, 2, 3) := by decide +kernel
  obtain ⟨f1, h1, h2⟩ := Option.bind_eq_some_iff.1 h
  obtain ⟨f2, h3, h4⟩ := Option.map_eq_some_iff.1 h2
  simp only [Prod.mk.injEq] at h4
  have H1 : Hist rvClassify [⟨loopCode, 0x100c#64, .block, false⟩] f1 :=
    .call _ .init (runFn_returns h1)
  exact ⟨f1, f2, H1, (Hist.call _ H1.lift (runFn_returns h3)).lift, runFn_returns h3, h4.1, h4.2.1,
    h4.2.2.1, h4.2.2.2⟩

/-- How the register file of a block starts in the lifted function. -/
def initAt (fn : Fn Frv) (b : Id) : Option (Option Init) :=
  match lift true (rvLifter 0 noFold).toSLifter fn with
  | .ok g => (g b).map BB.init
  | _ => none

/-- The block at 100c alone: lifted first, it takes over the registers from the entry block; lifted
again, it has PHI nodes. -/
example : ((runFn rvClassify 40 ⟨loopCode, 0x100c#64, .block, false⟩ (Fn.init _)).map (fun f =>
    (initAt f (.at 0x100c#64), initAt f.lifted (.at 0x100c#64)))) =
    some (some (some (.parent .entry)), some (some .phis)) := by
  decide +kernel

/-- All hypotheses of `C55_lift_again_ssa_partial` but those about the run are met by the loop. -/
example (slide : BitVec 64) (n : Nat) : ∃ g g' fuel plan plan',
    lift true (rvLifter slide noFold).toSLifter loopFn = .ok g ∧
    lift true (rvLifter slide noFold).toSLifter (liftedN n loopFn) = .ok g' ∧
    optimizePacks (rvLifter slide noFold) g (packIds loopFn) allRegs fuel = some plan ∧
    optimizePacks (rvLifter slide noFold) g' (packIds (liftedN n loopFn)) allRegs fuel = some plan' ∧
    Counted rvClassify false [loopCall] loopFn := by
  obtain ⟨g, hg⟩ := loop_lifts slide
  have h1 := C55_lift_again loopFn_hist n true (rvLifter slide noFold)
  rw [hg] at h1
  cases hg' : lift true (rvLifter slide noFold).toSLifter (liftedN n loopFn) with
  | null => rw [hg'] at h1; exact absurd h1 id
  | ub => rw [hg'] at h1; exact absurd h1 id
  | ok g' =>
    obtain ⟨N, hN⟩ := C15_packs_terminate loopFn_hist hg allRegs
    obtain ⟨N', hN'⟩ := C15_packs_terminate (hist_liftedN loopFn_hist n) hg' allRegs
    obtain ⟨plan, hp⟩ := hN (max N N') (Nat.le_max_left ..)
    obtain ⟨plan', hp'⟩ := hN' (max N N') (Nat.le_max_right ..)
    exact ⟨g, g', _, plan, plan', hg, rfl, hp, hp',
      counted_cfg loopFn_hist (by intro c hc; rw [List.mem_singleton.1 hc]; exact ⟨rfl, rfl⟩)⟩

/-- In numbers: lifted a third time, the loop still leaves `x1 = 0`, `x2 = 12` and `pc = x5`. -/
example : ((runFn rvClassify 40 loopCall (Fn.init _)).bind (fun fn =>
    runLifted (rvLifter 0 noFold) (liftedN 2 fn) (fun k => if k = 1 then 4 else if k = 5 then 0x2000 else 0)
      0x1000#64 20)).map (fun r => (r.1 1, r.1 2, r.2)) = some (some 0#64, some 12#64, some 0x2000#64) := by
  decide +kernel

/-! ### PHI nodes of the loop -/

/-- Accesses while the loop is lifted: read and write `x2` and `x1` in the loop, read `x5` behind it;
store `x2` in the exit block. -/
def loopAccs : List (PhiAcc RvReg) :=
  [.read (.at 0x1000#64) (.inl 2), .write (.at 0x1000#64) (.inl 2), .read (.at 0x1000#64) (.inl 1),
   .write (.at 0x1000#64) (.inl 1), .read (.at 0x100c#64) (.inl 5), .read .exit (.inl 2)]

/-- PHI nodes (register number and incoming blocks) after filling. -/
def phisAt (fn : Fn Frv) (as : List (PhiAcc RvReg)) (b : Id) : Option (List (RvReg × List Id)) :=
  match lift true (rvLifter 0 noFold).toSLifter fn with
  | .ok g =>
    (runAccs (rvLifter 0 noFold) g 6 (phiInit g) as).bind (fun st =>
      (fillLoop (rvLifter 0 noFold) g 6 (packIds fn) 20 st).map (fun st =>
        (st b).phis.map (fun p => (p.reg, p.incoming))))
  | _ => none

/-- The loop head gets PHI nodes for `x2`, `x1` and (from the code behind the loop) `x5`, each with a
value from the entry block and one from the loop itself.  The block behind the loop and the exit block
have one predecessor each and no PHI nodes. -/
example : ([Id.at 0x1000#64, .at 0x100c#64, .exit].map (fun b =>
    (runFn rvClassify 40 loopCall (Fn.init _)).bind (fun fn => phisAt fn loopAccs b))) =
    [some [(.inl 2, [.entry, .at 0x1000#64]), (.inl 1, [.entry, .at 0x1000#64]),
      (.inl 5, [.entry, .at 0x1000#64])], some [], some []] := by
  decide +kernel

/-- All hypotheses of `C50_phi_nodes` are met by the loop. -/
example (slide : BitVec 64) : ∃ g, lift true (rvLifter slide noFold).toSLifter loopFn = .ok g ∧
    (∀ b r, PhiAcc.read b r ∈ ([.read .entry (.inl 1)] : List (PhiAcc RvReg)) → (g b).isSome) ∧
    ∀ b, (g b).isSome → b ≠ .entry → b ∈ packIds loopFn := by
  obtain ⟨g, hg⟩ := loop_lifts slide
  obtain ⟨e, bs, g0, -, hf, hs, HG, rfl⟩ := lift_inv loopFn_hist hg
  refine ⟨_, hg, ?_, ?_⟩
  · intro b r hm
    simp only [List.mem_singleton, PhiAcc.read.injEq] at hm
    rw [hm.1, sealExit_ne (by simp), HG.entryB]; rfl
  · intro b hb hne
    cases b with
    | entry => exact absurd rfl hne
    | exit => simp [packIds]
    | «at» a =>
      rw [sealExit_ne (by simp)] at hb
      obtain ⟨bb, hbb⟩ := Option.isSome_iff_exists.1 hb
      exact mem_packIds (HG.valid _ _ hbb).2.2.1

/-! ### C09 and C14 fail for functions decoded block by block -/

/-- ```
1000: beq  x1, x0, 1010
1004: add  x3, x2, x0
1008: jalr x0, 0(x1)
1010: addi x2, x0, 7
1014: jal  x0, 1004
``` -/
def joinCode : Decoder Frv := fun a =>
  if a = 0x1000#64 then some (4, ⟨.beq, 0, 1, 0, 0x10, 0, 7⟩)
  else if a = 0x1004#64 then some (4, ⟨.add, 3, 2, 0, 0, 0, 7⟩)
  else if a = 0x1008#64 then some (4, ⟨.jalr, 0, 1, 0, 0, 0, 7⟩)
  else if a = 0x1010#64 then some (4, ⟨.addi, 2, 0, 0, 7, 0, 7⟩)
  else if a = 0x1014#64 then some (4, ⟨.jal, 0, regInv, 0, -0x10, 0, 7⟩)
  else none

/-- Three calls of `ll_func_decode_block`. -/
def joinCalls : List (Call Frv) :=
  [⟨joinCode, 0x1010#64, .block, false⟩, ⟨joinCode, 0x1004#64, .block, false⟩,
   ⟨joinCode, 0x1000#64, .block, false⟩]

def joinFn : Option (Fn Frv) :=
  ((runFn rvClassify 20 ⟨joinCode, 0x1000#64, .block, false⟩ (Fn.init _)).bind
   (runFn rvClassify 20 ⟨joinCode, 0x1004#64, .block, false⟩)).bind
   (runFn rvClassify 20 ⟨joinCode, 0x1010#64, .block, false⟩)

theorem joinFn_hist {fn : Fn Frv} (h : joinFn = some fn) : Hist rvClassify joinCalls fn := by
  obtain ⟨f2, h12, h3⟩ := Option.bind_eq_some_iff.1 h
  obtain ⟨f1, h1, h2⟩ := Option.bind_eq_some_iff.1 h12
  exact .call _ (.call _ (.call _ .init (runFn_returns h1)) (runFn_returns h2)) (runFn_returns h3)

/-- **C09 and C14 are false for functions decoded with `ll_func_decode_block`**: with `x1 = 0` and
`x2 = 5` the lifted function returns `x3 = 5`, although in the hart's run `x3` is 0 until it is set
to 7 (the hart leaves the function after 5 instructions).  The block at 1004 was decoded when only one
of its two predecessors was known, and takes its registers from that one. -/
theorem C09_decode_block_counterexample : ∃ fn, Hist rvClassify joinCalls fn ∧
    (runLifted (rvLifter 0 noFold) fn (fun k => if k = 2 then 5 else 0) 0x1000#64 10).map
      (fun r => (r.1 3, r.2)) = some (some 5#64, some 0#64) ∧
    ∀ n gp, runHart joinCode (fun k => if k = 2 then 5 else 0) 0x1000#64 n = some gp →
      gp 3 = 0#64 ∨ gp 3 = 7#64 := by
  have hs : joinFn.isSome = true := by decide +kernel
  obtain ⟨fn, hfn⟩ := Option.isSome_iff_exists.1 hs
  refine ⟨fn, joinFn_hist hfn, ?_, ?_⟩
  · have : (joinFn.bind (fun fn => (runLifted (rvLifter 0 noFold) fn
        (fun k => if k = 2 then 5 else 0) 0x1000#64 10).map (fun r => (r.1 3, r.2))))
        = some (some 5#64, some 0#64) := by decide +kernel
    rw [hfn] at this
    exact this
  · intro n gp h
    by_cases hn : n < 6
    · have key : ∀ n < 6, (runHart joinCode (fun k => if k = 2 then 5 else 0) 0x1000#64 n).all
          (fun gp => gp 3 == 0#64 || gp 3 == 7#64) = true := by decide +kernel
      have := key n hn
      rw [h] at this
      simpa using this
    · exfalso
      have h6 : (runHart joinCode (fun k => if k = 2 then 5 else 0) 0x1000#64 6).isNone = true := by
        decide +kernel
      obtain ⟨j, rfl⟩ : ∃ j, n = 6 + j := ⟨n - 6, by omega⟩
      simp only [runHart, Option.isNone_map, Option.isNone_iff_eq_none] at h6
      simp only [runHart, run_add, h6, Option.bind_none, Option.map_none] at h
      cases h

/-- The same code decoded with one call of `ll_func_decode_cfg` gives 7. -/
example : ((runFn rvClassify 40 ⟨joinCode, 0x1000#64, .all, false⟩ (Fn.init _)).bind (fun fn =>
    runLifted (rvLifter 0 noFold) fn (fun k => if k = 2 then 5 else 0) 0x1000#64 10)).map
      (fun r => (r.1 3, r.2)) = some (some 7#64, some 0#64) := by decide +kernel

/-! ### C55 fails for functions decoded so that an edge to the entry is missed -/

/-- ```
 ff0: ld   x3, 0(x10)
 ff4: addi x3, x3, -1
 ff8: sd   x3, 0(x10)
 ffc: beq  x3, x5, 2000
1000: addi x2, x2, 1
1004: jal  x0, ff0
``` -/
def againCode : Decoder Frv := fun a =>
  if a = 0xff0#64 then some (4, ⟨.ld, 3, 10, 0, 0, 0, 7⟩)
  else if a = 0xff4#64 then some (4, ⟨.addi, 3, 3, 0, -1, 0, 7⟩)
  else if a = 0xff8#64 then some (4, ⟨.sd, 0, 10, 3, 0, 0, 7⟩)
  else if a = 0xffc#64 then some (4, ⟨.beq, 0, 3, 5, 0x1004, 0, 7⟩)
  else if a = 0x1000#64 then some (4, ⟨.addi, 2, 2, 0, 1, 0, 7⟩)
  else if a = 0x1004#64 then some (4, ⟨.jal, 0, regInv, 0, -0x14, 0, 7⟩)
  else none

def againCalls : List (Call Frv) :=
  [⟨againCode, 0xff0#64, .block, false⟩, ⟨againCode, 0x1000#64, .block, false⟩]

def againFn : Option (Fn Frv) :=
  (runFn rvClassify 20 ⟨againCode, 0x1000#64, .block, false⟩ (Fn.init _)).bind
   (runFn rvClassify 20 ⟨againCode, 0xff0#64, .block, false⟩)

/-- Registers of the example: `x2 = 5`, `x5 = -2`, `x10 = 0x5000`. -/
def againX (k : Fin 32) : BitVec 64 := if k = 2 then 5 else if k = 5 then -2 else if k = 10 then 0x5000 else 0

/-- **C55 is false for functions decoded with `ll_func_decode_block`**, when an edge to the entry is
missed: the loop runs twice, so the hart leaves it with `x2 = 7`.  The function lifted first returns
`x2 = 6`, the one lifted by a second `ll_func_lift` on the same object 7: with the entry counted
twice, its block gets PHI nodes. -/
theorem C55_missed_edge_counterexample : ∃ fn, Hist rvClassify againCalls fn ∧
    (runLifted (rvLifter 0 noFold) fn againX 0x1000#64 10).map (fun r => (r.1 2, r.2)) =
      some (some 6#64, some 0x2000#64) ∧
    (runLifted (rvLifter 0 noFold) fn.lifted againX 0x1000#64 10).map (fun r => (r.1 2, r.2)) =
      some (some 7#64, some 0x2000#64) ∧
    (runHart againCode againX 0x1000#64 12).map (fun gp => gp 2) = some 7#64 := by
  have h : (againFn.map (fun fn =>
      ((runLifted (rvLifter 0 noFold) fn againX 0x1000#64 10).map (fun r => (r.1 2, r.2)),
       (runLifted (rvLifter 0 noFold) fn.lifted againX 0x1000#64 10).map (fun r => (r.1 2, r.2))))) =
      some (some (some 6#64, some 0x2000#64), some (some 7#64, some 0x2000#64)) := by decide +kernel
  obtain ⟨fn, hfn, h1⟩ := Option.map_eq_some_iff.1 h
  simp only [Prod.mk.injEq] at h1
  obtain ⟨f1, h2, h3⟩ := Option.bind_eq_some_iff.1 hfn
  exact ⟨fn, .call _ (.call _ .init (runFn_returns h2)) (runFn_returns h3), h1.1, h1.2,
    by decide +kernel⟩

/-! ### C09 fails for direct jumps that the decoder takes for calls -/

/-- The lifter with a call function for code without calls: a `JAL` whose destination register is
neither 0 nor a link register only sets the program counter, /repo/src/rv64/lifter.cc:389-413. -/
def rvLifterCall (f : RV64.St → Option RV64.St) : Lifter Frv RvReg (Val 64) VMem :=
  { rvLifter 0 noFold with
    items := fun i => [.upd (fun s =>
      (RV64.lift { callFunction := some f } 0 i.payload i.start i.len (toRv s)).map
        (fun o => ofRv o.st)) (rvDirty i.payload)] }

/-- ```
1000: beq  x1, x0, 1010
1004: add  x3, x2, x0
1008: jalr x0, 0(x7)
1010: addi x2, x0, 7
1014: jal  x6, 1004
``` -/
def jalCode : Decoder Frv := fun a =>
  if a = 0x1000#64 then some (4, ⟨.beq, 0, 1, 0, 0x10, 0, 7⟩)
  else if a = 0x1004#64 then some (4, ⟨.add, 3, 2, 0, 0, 0, 7⟩)
  else if a = 0x1008#64 then some (4, ⟨.jalr, 0, 7, 0, 0, 0, 7⟩)
  else if a = 0x1010#64 then some (4, ⟨.addi, 2, 0, 0, 7, 0, 7⟩)
  else if a = 0x1014#64 then some (4, ⟨.jal, 6, regInv, 0, -0x10, 0, 7⟩)
  else none

/-- **C09 is false with a call function and `JAL` to another register than x0, x1, x5**: the code is
decoded with a single `ll_func_decode_cfg`.  With `x1 = 0`, `x2 = 5` the hart sets `x2` to 7, jumps
back and copies 7 to `x3`.  The lifted function executes the jump as a branch, too, but the decoder
has classified it as a call, so its target has one recorded predecessor and takes its registers from
the first block: the lifted function returns with `x3 = 5`. -/
theorem C09_jal_counterexample :
    ((runFn rvClassify 60 ⟨jalCode, 0x1000#64, .all, true⟩ (Fn.init _)).bind (fun fn =>
      runLifted (rvLifterCall (fun s => some s)) fn
        (fun k => if k = 2 then 5 else 0) 0x1000#64 10)).map
      (fun r => (r.1 3, r.2)) = some (some 5#64, some 0#64) ∧
    (runHart jalCode (fun k => if k = 2 then 5 else 0) 0x1000#64 5).map
      (fun gp => gp 3) = some 7#64 := by
  decide +kernel

end Verif.Lift.RV64

namespace Verif.Lift

open Verif.Decode

/-! ### C39: code at address 0 -/

/-- A program at address 0, and one that reaches address 0. -/
def zeroDec (start : Addr) : Decoder (Kind × Addr) := fun a =>
  if a = start then some (4, .other, 0) else if a = start + 4 then some (4, .unknown, 0) else none

def zeroLifter : SLifter (Kind × Addr) where
  ok := fun _ => true
  form := fun i => match i.payload.1 with | .other => .const i.stop | _ => .value
  fold := fun _ => none

/-- **C39 is false for code at address 0**: `ll_func_decode_cfg(0)` succeeds and decodes two
instructions, but lifting them branches to the exit block before it exists. -/
theorem C39_address_zero_counterexample :
    ((runFn exCls 20 ⟨zeroDec 0, 0, .all, true⟩ (Fn.init _)).map (fun fn =>
      (fn.insts.map Inst.start, match lift true zeroLifter fn with | .ub => true | _ => false)))
      = some ([0#64, 4#64], true) ∧
    ((runFn exCls 20 ⟨zeroDec (-4), -4, .all, true⟩ (Fn.init _)).map (fun fn =>
      (fn.insts.map Inst.start, match lift true zeroLifter fn with | .ub => true | _ => false)))
      = some ([-4#64, 0#64], false) := by
  decide +kernel

end Verif.Lift
