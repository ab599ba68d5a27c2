import Verif.Lift.Props
import Verif.RV64.Exec
import Mathlib.Data.Fintype.Sum
import Mathlib.Data.Fintype.Basic

/-!
End-to-end theorem for RV64 (C09, C10, C36): decoding with `ll_func_decode_cfg`, lifting every
instruction with the modelled lifter, placing the stores, and executing the resulting function.
Configuration: no call function, no system call function, no instruction overrides.
-/

namespace Verif.Lift.RV64

open Verif.Decode Verif.IR Verif.RV64 Verif.Lift

set_option linter.unusedSimpArgs false

/-- `classifyInstr` for RV64, /repo/src/lldecoder.cc:95-120. -/
def rvClassify : Classifier Frv := fun i =>
  match i.payload.mnem with
  | .beq | .bne | .blt | .bge | .bltu | .bgeu => (.condBranch, i.start + i.payload.imm64)
  | .jal => if i.payload.rd ≠ 0 then (.call, 0) else (.branch, i.start + i.payload.imm64)
  | .jalr => (if i.payload.rd ≠ 0 then .call else .branch, 0)
  | .ecall => (.unknown, 0)
  | _ => (.other, 0)

/-- The registers of the CPU struct besides the program counter: `x0`-`x31` and `f0`-`f31`,
/repo/data/rellume/cpustruct-rv64.json. -/
abbrev RvReg := Fin 32 ⊕ Fin 32

/-- The state of the instruction lifter's model.  Register numbers that do not exist read as zero. -/
def toRv (s : St RvReg (Val 64) VMem) : RV64.St where
  gp := fun k => if h : k < 32 then s.regs (.inl ⟨k, h⟩) else some 0#64
  fp := fun k => if h : k < 32 then s.regs (.inr ⟨k, h⟩) else some 0#64
  mem := s.mem
  pc := s.pc

def ofRv (s : RV64.St) : St RvReg (Val 64) VMem where
  regs := fun r => match r with | .inl k => s.gp k | .inr k => s.fp k
  mem := s.mem
  pc := s.pc

/-- Registers marked dirty by the code of an instruction (`RegFile::Set`). -/
def rvDirty (i : Frv) : Finset RvReg :=
  Finset.univ.filter (fun r => Sum.elim (fun k => setsGp i && k.val == i.rd)
    (fun k => setsFp i && k.val == i.rd) r = true)

/-- The RV64 lifter, /repo/src/rv64/lifter.cc:363-650.  `fold` tells which branch conditions the IR
builder folded to constants. -/
def rvLifter (slide : BitVec 64) (fold : Inst Frv → Option Bool) :
    Lifter Frv RvReg (Val 64) VMem where
  ok := fun i => handled i.payload
  form := fun i => form i.payload i.start i.stop
  fold := fold
  startPc := fun i => i.start
  items := fun i => [.upd (fun s =>
      (RV64.lift {} slide i.payload i.start i.len (toRv s)).map (fun o => ofRv o.st))
    (rvDirty i.payload)]

/-- The guest machine: an RV64 hart; it stops where the lifter is known to be wrong. -/
def rvGuest : Guest Frv Spec.State where
  pc := fun m => m.pc
  step := fun i m => if NoDefect i.payload m then Spec.exec i.payload i.len m else none

/-- A CPU struct and memory represent the state of the hart. -/
def rvRel (m : Spec.State) (regs : RvReg → Val 64) (mem : VMem) : Prop :=
  (∀ k : Fin 32, regs (.inl k) = some (m.gp k)) ∧ (∀ k ≥ 32, m.gp k = 0#64) ∧
  (∀ k : Fin 32, regs (.inr k) = some (m.fp k)) ∧ (∀ k ≥ 32, m.fp k = 0#64) ∧ mem = m.mem.toV

theorem toRv_rel {m : Spec.State} {s : St RvReg (Val 64) VMem} (h : rvRel m s.regs s.mem) :
    RegRel (toRv s) m := by
  obtain ⟨h1, h2, h3, h4, h5⟩ := h
  refine ⟨?_, ?_, h5⟩ <;> funext k
  · by_cases hk : k < 32
    · simp only [toRv, hk, dif_pos]; exact h1 ⟨k, hk⟩
    · simp only [toRv, hk, dif_neg, not_false_eq_true, h2 k (by omega)]
  · by_cases hk : k < 32
    · simp only [toRv, hk, dif_pos]; exact h3 ⟨k, hk⟩
    · simp only [toRv, hk, dif_neg, not_false_eq_true, h4 k (by omega)]

theorem rv_exec (slide : BitVec 64) (fold : Inst Frv → Option Bool) (i : Inst Frv)
    (s : St RvReg (Val 64) VMem) : execInst (rvLifter slide fold) slide i s
      = (RV64.lift {} slide i.payload i.start i.len (toRv { s with pc := .const i.start })).map
          (fun o => ofRv o.st) := by
  simp only [execInst, rvLifter, execItems, execItem]
  cases RV64.lift {} slide i.payload i.start i.len (toRv { s with pc := .const i.start }) <;> rfl

theorem rv_correct (slide : BitVec 64) (fold : Inst Frv → Option Bool) (i : Inst Frv)
    (hd : Decoded i.payload) (hpic : slide = 0 ∨ handled i.payload = true) :
    Correct (rvLifter slide fold) rvGuest slide rvRel i := by
  constructor
  · intro hok m m' s hrel hpc hst
    simp only [rvGuest] at hst hpc ⊢
    split at hst
    next hnd =>
      have hr : Rel slide (toRv { s with pc := .const i.start }) m := by
        refine ⟨toRv_rel (s := { s with pc := .const i.start }) hrel, ?_⟩
        show Pc.val slide (.const i.start) = _
        rw [Pc.val_const, hpc]
      obtain ⟨o, ho, hro⟩ := lift_exec slide i.payload i.start i.len _ m m' hr hpc hd hnd hst
      obtain ⟨-, -, hform, hfr⟩ := lift_static ho
      refine ⟨ofRv o, by rw [rv_exec, ho]; rfl, ⟨?_, ?_, ?_, ?_, hro.1.2.2⟩, hro.2, fun _ => hform⟩
      · intro k; simp only [ofRv, hro.1.1]
      · intro k hk
        have := hfr.1 k (by rintro ⟨-, rfl⟩; exact absurd hd.1 (by omega))
        simp only [hro.1.1, toRv, dif_neg (show ¬ k < 32 by omega), Option.some.injEq] at this
        exact this
      · intro k; simp only [ofRv, hro.1.2.1]
      · intro k hk
        have := hfr.2 k (by rintro ⟨-, rfl⟩; exact absurd hd.1 (by omega))
        simp only [hro.1.2.1, toRv, dif_neg (show ¬ k < 32 by omega), Option.some.injEq] at this
        exact this
    · cases hst
  · intro hok
    have hok' : handled i.payload = false := hok
    rcases hpic with rfl | hpic
    · constructor
      · have := lift_static (lift_unhandled (slide := 0) (start := i.start) (len := i.len)
          (s := toRv ⟨fun _ => none, fun _ => none, .const 0⟩) hok')
        exact this.2.2.1.symm
      · intro m s hrel hpc
        refine ⟨_, by rw [rv_exec, lift_unhandled hok']; rfl, ?_, ?_, rfl⟩
        · have := toRv_rel (s := { s with pc := .const i.start }) hrel
          refine ⟨?_, hrel.2.1, ?_, hrel.2.2.2.1, this.2.2⟩
          · intro k; simp only [ofRv, this.1]
          · intro k; simp only [ofRv, this.2.1]
        · simp only [rvGuest] at hpc
          simp only [ofRv, rvGuest, hpc, Pc.val_value]
          simp
    · rw [hpic] at hok'; cases hok'

theorem rv_item (slide : BitVec 64) (fold : Inst Frv → Option Bool) (i : Inst Frv) :
    ∀ it ∈ (rvLifter slide fold).items i, ItemOK (Refine.eq (Val 64) VMem) it := by
  intro it hit
  simp only [rvLifter, List.mem_singleton] at hit
  subst hit
  refine ⟨?_, ?_⟩
  · intro s s' h r hr
    obtain ⟨o, ho, rfl⟩ := Option.map_eq_some_iff.1 h
    obtain ⟨-, -, -, hfr⟩ := lift_static ho
    simp only [rvDirty, Finset.mem_filter, Finset.mem_univ, true_and] at hr
    cases r with
    | inl k =>
      have := hfr.1 k (by simpa using hr)
      simpa only [ofRv, toRv, k.isLt, dif_pos, Fin.eta] using this
    | inr k =>
      have := hfr.2 k (by simpa using hr)
      simpa only [ofRv, toRv, k.isLt, dif_pos, Fin.eta] using this
  · rintro ⟨r1, μ1, p1⟩ ⟨r2, μ2, p2⟩ s' ⟨h1, h2, h3⟩ h
    obtain rfl : r1 = r2 := funext h1
    obtain rfl : μ1 = μ2 := h2
    obtain rfl : p1 = p2 := h3
    exact ⟨s', h, fun _ => rfl, rfl, rfl⟩

theorem rv_falls (slide : BitVec 64) (fold : Inst Frv → Option Bool) (i : Inst Frv)
    (hc : (rvClassify i).1 = .other) (hok : (rvLifter slide fold).ok i = true) :
    (rvLifter slide fold).form i = .const i.stop := by
  rcases i with ⟨a, len, mn, rd, rs1, rs2, imm, rs3, misc⟩
  simp only [rvLifter] at hok ⊢
  unfold form
  unfold rvClassify at hc
  cases mn <;> simp only at hc ⊢ <;> first
    | rw [if_pos hok]
    | (split at hc <;> cases hc)
    | cases hc

theorem rv_plain {MS : Type} (G : Guest Frv MS) (slide : BitVec 64) (fold : Inst Frv → Option Bool)
    (i : Inst Frv) : PlainFalls rvClassify (rvLifter slide fold).toSLifter G slide i :=
  fun hc hok => .inl (rv_falls slide fold i hc hok)

theorem rv_targets (slide : BitVec 64) (fold : Inst Frv → Option Bool) (i : Inst Frv)
    (hd : Decoded i.payload) :
    TargetsKnown rvClassify false (rvLifter slide fold).toSLifter i := by
  rcases i with ⟨a, len, mn, rd, rs1, rs2, imm, rs3, misc⟩
  have hplain : (rvClassify ⟨a, len, mn, rd, rs1, rs2, imm, rs3, misc⟩).1 = .other →
      form ⟨mn, rd, rs1, rs2, imm, rs3, misc⟩ a (Inst.stop (P := Frv) ⟨a, len, mn, rd, rs1, rs2, imm, rs3, misc⟩)
        = (if handled ⟨mn, rd, rs1, rs2, imm, rs3, misc⟩ then .const (Inst.stop (P := Frv)
            ⟨a, len, mn, rd, rs1, rs2, imm, rs3, misc⟩) else .value) →
      TargetsKnown rvClassify false (rvLifter slide fold).toSLifter ⟨a, len, mn, rd, rs1, rs2, imm, rs3, misc⟩ := by
    intro h1 h2
    right
    intro b hb _
    simp only [rvLifter] at hb
    rw [h2] at hb
    right
    refine ⟨.inl h1, ?_⟩
    split at hb
    · simpa [Form.targets] using hb
    · simp [Form.targets] at hb
  cases mn <;> first | exact hplain rfl rfl | skip
  · -- jal
    by_cases h0 : rd = 0
    · right
      intro b hb hne
      obtain rfl : rs1 = regInv := hd.2.1 rfl
      simp only [rvLifter, form, ne_eq, not_true_eq_false, if_false, Form.targets,
        List.mem_singleton] at hb
      left
      subst hb
      simpa [rvClassify, h0] using hne
    · left; simp [rvClassify, h0]
  · -- jalr
    right
    intro b hb hne
    have h1 : rs1 ≠ regInv := hd.2.2.1 rfl
    simp [rvLifter, form, h1, Form.targets] at hb
  all_goals
    right
    intro b hb hne
    simp only [rvLifter, form, Form.targets, List.mem_cons, List.not_mem_nil, or_false] at hb
  all_goals try
    rcases hb with rfl | rfl
    · exact .inl ⟨hne, rfl⟩
    · exact .inr ⟨.inr (.inl rfl), rfl⟩

/-- C09, C10 and C36 for RV64: take any code that decodes to modelled instructions, decode it with any
sequence of `ll_func_decode_cfg` calls, or otherwise so that no control-flow edge is missed
(`Counted`, e.g. with one `ll_func_decode_block` call), and lift it; the code may have been moved by `slide` bytes
against the addresses it was decoded at if all instructions can be lifted.  Call the lifted function
on a CPU struct that holds the state of a hart standing at the entry address.  After any number of
executed blocks, either the hart has reached an instruction outside the proved set (`ECALL`, CSR
access, misaligned access, ...) or the lifted function has had no undefined behaviour and is in step
with the hart: when it returns, the CPU struct holds exactly the registers, memory and program counter
of the hart after some number of instructions. -/
theorem C09_rv64_partial {code : Decoder Frv} (hcode : ∀ a len p, code a = some (len, p) → Decoded p)
    {h : List (Call Frv)} {fn : Fn Frv} (H : Hist rvClassify h fn)
    (hcalls : ∀ c ∈ h, c.dec = code) (hcount : Counted rvClassify false h fn)
    (slide : BitVec 64) (hpic : slide = 0 ∨ ∀ i ∈ fn.insts, handled i.payload = true)
    (fold : Inst Frv → Option Bool) {known : Bool} {g : Graph Frv}
    (hl : lift known (rvLifter slide fold).toSLifter fn = .ok g)
    {regs : List RvReg} (hregs : ∀ r, r ∈ regs) {fuel : Nat} {plan : Plan RvReg}
    (hplan : optimizePacks (rvLifter slide fold) g (packIds fn) regs fuel = some plan)
    (hfold : ∀ c, FoldOK (rvLifter slide fold) slide g c)
    {d : DInstr Frv} (hd : fn.instrs.head? = some d)
    (m : Spec.State) (hm : m.pc = d.inst.start + slide) (c : CPU RvReg (Val 64) VMem)
    (hc : rvRel m c.slot c.mem) (hcpc : c.pc = some m.pc) (out0 : Id → RvReg → Val 64) (k : Nat) :
    (∃ k' < k, ∃ n m1 q a e, rvGuest.run code slide n m = some m1 ∧
      runSsa (rvLifter slide fold) plan (fun _ _ => false) slide g k' (ssaStart out0 c)
        = some (.at q (.at a) e) ∧
      InStep g rvGuest slide rvRel m1 (.at q (.at a) e) ∧
      ∃ bb, g (.at a) = some bb ∧ rvGuest.StuckIn code slide bb.body m1) ∨
    ∃ n m1 x, rvGuest.run code slide n m = some m1 ∧
      runSsa (rvLifter slide fold) plan (fun _ _ => false) slide g k (ssaStart out0 c) = some x ∧
      InStep g rvGuest slide rvRel m1 x ∧ Progress k n x := by
  have hdec : ∀ i ∈ fn.insts, Decoded i.payload := by
    intro i hi
    obtain ⟨c, hc, hd⟩ := C01_genuine H i hi
    rw [hcalls c hc] at hd
    exact hcode _ _ _ hd
  refine C09_simulation_partial (ref := Refine.eq _ _) (cls := rvClassify) (callFn := false)
    ⟨H, hcalls, hcount, ⟨known, hl⟩, ⟨regs, fuel, hregs, hplan⟩, ?_, hfold, fun i _ => rv_plain _ _ _ i,
      fun i hi => rv_targets _ _ i (hdec i hi), fun i => rv_item _ _ i, by simp, ?_⟩
    hd m hm c hc hcpc out0 k
  · intro i hi
    exact rv_correct _ _ i (hdec i hi) (hpic.imp id (fun h => h i hi))
  · intro m r r' μ μ' h h1 h2
    obtain rfl : r = r' := funext h1
    obtain rfl : μ = μ' := h2
    exact h

end Verif.Lift.RV64
