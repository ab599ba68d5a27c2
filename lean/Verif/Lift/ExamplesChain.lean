import Verif.Lift.ChainArch
import Verif.Lift.ExamplesRV64Call

/-!
The hypotheses of C59, C60 and C61 are satisfiable: a recursive RV64 function that saves its return address on
the stack, run by functions lifted from all its addresses.
-/

namespace Verif.Lift.RV64

open Verif.Decode
open Verif.IR hiding Addr
open Verif.RV64

/-- ```
1000: addi  x2, x2, -16
1004: sd    x1, 0(x2)
1008: beq   x10, x0, 1014
100c: addi  x10, x10, -1
1010: jal   x1, 1000
1014: addi  x11, x11, 1
1018: ld    x1, 0(x2)
101c: addi  x2, x2, 16
1020: jalr  x0, 0(x1)
``` -/
def recInsts : List (BitVec 64 × Frv) :=
  [(0x1000#64, ⟨.addi, 2, 2, 0, -16, 0, 7⟩), (0x1004#64, ⟨.sd, 0, 2, 1, 0, 0, 7⟩),
   (0x1008#64, ⟨.beq, 0, 10, 0, 12, 0, 7⟩), (0x100c#64, ⟨.addi, 10, 10, 0, -1, 0, 7⟩),
   (0x1010#64, ⟨.jal, 1, regInv, 0, -16, 0, 7⟩), (0x1014#64, ⟨.addi, 11, 11, 0, 1, 0, 7⟩),
   (0x1018#64, ⟨.ld, 1, 2, 0, 0, 0, 7⟩), (0x101c#64, ⟨.addi, 2, 2, 0, 16, 0, 7⟩),
   (0x1020#64, ⟨.jalr, 0, 1, 0, 0, 0, 7⟩)]

def recCode : Decoder Frv := fun a => (recInsts.find? (fun p => p.1 == a)).map (fun p => (4, p.2))

theorem rec_mem {a : Addr} {len : Nat} {p : Frv} (h : recCode a = some (len, p)) :
    len = 4 ∧ (a, p) ∈ recInsts := by
  obtain ⟨q, hq, he⟩ := Option.map_eq_some_iff.1 h
  have h1 := List.mem_of_find?_eq_some hq
  have h2 := List.find?_some hq
  simp only [beq_iff_eq] at h2
  cases he
  subst h2
  exact ⟨rfl, h1⟩

theorem recCode_decoded : ∀ a len p, recCode a = some (len, p) → Decoded p := by
  intro a len p h
  have : ∀ q ∈ recInsts, Decoded q.2 := by decide
  exact this _ (rec_mem h).2

/-- Decoding at any of the addresses gives a function that starts there. -/
theorem rec_fn {a : Addr} {p : Frv} (h : (a, p) ∈ recInsts) :
    ∃ fn d, Hist rvClassify [⟨recCode, a, .all, true⟩] fn ∧ fn.instrs.head? = some d ∧ d.inst.start = a := by
  have key : ∀ q ∈ recInsts, ((runFn rvClassify 120 ⟨recCode, q.1, .all, true⟩ (Fn.init _)).bind
      (fun fn => fn.instrs.head?.map (fun d => d.inst.start))) = some q.1 := by decide +kernel
  obtain ⟨fn, h1, h2⟩ := Option.bind_eq_some_iff.1 (key _ h)
  obtain ⟨d, h3, h4⟩ := Option.map_eq_some_iff.1 h2
  exact ⟨fn, d, .call _ .init (runFn_returns h1), h3, h4⟩

/-- There is a lifted function for each of the addresses, with any call function. -/
theorem rec_unit (env : Env) (hcall : env.callFn.isSome) (slide : BitVec 64) {a : Addr} {p : Frv}
    (h : (a, p) ∈ recInsts) : ∃ u, RvUnit env slide recCode a u := by
  obtain ⟨fn, d, H, hd, ha⟩ := rec_fn h
  have hmem : ∀ i ∈ fn.insts, ∃ q ∈ recInsts, i = ⟨q.1, 4, q.2⟩ := by
    intro i hi
    obtain ⟨c, hc, hg⟩ := C01_genuine H i hi
    rw [List.mem_singleton.1 hc] at hg
    obtain ⟨h1, h2⟩ := rec_mem hg
    refine ⟨_, h2, ?_⟩
    rcases i with ⟨s, l, q⟩
    cases h1
    rfl
  have hall : ∀ (Q : Inst Frv → Prop), (∀ q ∈ recInsts, Q ⟨q.1, 4, q.2⟩) → ∀ i ∈ fn.insts, Q i := by
    intro Q hQ i hi
    obtain ⟨q, hq, rfl⟩ := hmem i hi
    exact hQ q hq
  have hhandled : ∀ i ∈ fn.insts, handled i.payload = true := hall _ (by decide)
  have hL : Liftable rvClassify (rvLifterC env slide noFold).toSLifter fn := by
    refine ⟨hall _ (by decide), ?_, ?_⟩
    · show ∀ i ∈ fn.insts, ∀ a ∈ (formC env.callFn.isSome i.payload i.start i.stop).targets, reserved a = false
      rw [hcall]
      refine hall _ ?_
      intro q hq
      have h : ((formC true q.2 q.1 (Inst.stop ⟨q.1, 4, q.2⟩)).targets.all (fun a => reserved a == false)) = true := by
        revert q; decide
      intro a ha
      simpa using List.all_eq_true.1 h a ha
    · show ∀ i ∈ fn.insts, (rvClassify i).1 = .other → handled i.payload = true →
        formC env.callFn.isSome i.payload i.start i.stop ≠ .returned
      rw [hcall]
      exact hall _ (by decide)
  obtain ⟨h1, h2⟩ := C39_null_iff_partial H true hL
  have hg : ∃ g, lift true (rvLifterC env slide noFold).toSLifter fn = .ok g := by
    cases hl : lift true (rvLifterC env slide noFold).toSLifter fn with
    | ok g => exact ⟨g, rfl⟩
    | ub => exact absurd hl h1
    | null =>
      exfalso
      rcases h2.1 hl with h | h | ⟨d', hd', h⟩
      · rw [h] at hd; cases hd
      · cases h
      · have := hhandled d'.inst (List.mem_map.2 ⟨d', List.mem_of_mem_head? hd', rfl⟩)
        have h : handled d'.inst.payload = false := h
        rw [h] at this; cases this
  obtain ⟨g, hg⟩ := hg
  obtain ⟨N, hN⟩ := C15_packs_terminate H hg allRegs
  obtain ⟨plan, hp⟩ := hN N (Nat.le_refl _)
  refine ⟨⟨rvLifterC env slide noFold, g, plan⟩, ⟨noFold, rfl⟩, _, fn, true, allRegs, N, d, H, ?_, ?_, hg,
    mem_allRegs, hp, ?_, hd, ha, .inr (hall _ (by decide)), .inr hhandled⟩
  · intro c hc; rw [List.mem_singleton.1 hc]
  · exact counted_cfg H (by intro c hc; rw [List.mem_singleton.1 hc]; exact ⟨rfl, hcall.symm⟩)
  · intro c k b s bb s' i v _ _ _ _ h; cases h

open Classical in
/-- A lifted function for every address for which there is one. -/
noncomputable def recTable (env : Env) (slide : BitVec 64) (a : Addr) : Option (Compiled Frv RvReg (Val 64) VMem) :=
  if h : ∃ u, RvUnit env slide recCode a u then some h.choose else none

theorem recTable_unit {env : Env} {slide : BitVec 64} {a : Addr} {u : Compiled Frv RvReg (Val 64) VMem}
    (h : recTable env slide a = some u) : RvUnit env slide recCode a u := by
  unfold recTable at h
  split at h
  next hex => cases h; exact hex.choose_spec
  · cases h

/-- Runs the hart until it returns. -/
def retRun {P MS : Type} (G : Guest P MS) (code : Decoder P) (slide : BitVec 64) (ret : Inst P → Bool) :
    Nat → MS → Option MS
  | 0, _ => none
  | n + 1, m =>
    match code (G.pc m - slide) with
    | none => none
    | some lp =>
      match G.step ⟨G.pc m - slide, lp.1, lp.2⟩ m with
      | none => none
      | some m1 => if ret ⟨G.pc m - slide, lp.1, lp.2⟩ then some m1 else retRun G code slide ret n m1

/-- Runs a call, with nested calls up to depth `j` of at most `n` instructions each. -/
def callRun {P MS : Type} (G : (MS → Option MS) → Guest P MS) (code : Decoder P) (slide : BitVec 64)
    (ret : Inst P → Bool) (n : Nat) : Nat → MS → Option MS
  | 0, _ => none
  | j + 1, m => retRun (G (callRun G code slide ret n j)) code slide ret n m

theorem retRun_returns {P MS : Type} {G G' : Guest P MS} {code : Decoder P} {slide : BitVec 64} {ret : Inst P → Bool}
    (hpc : G.pc = G'.pc) (hst : ∀ i m m', G.step i m = some m' → G'.step i m = some m') (n : Nat) :
    ∀ m m', retRun G code slide ret n m = some m' → ∃ N, G'.Returns code slide ret N m m' := by
  induction n with
  | zero => intro m m' h; cases h
  | succ n ih =>
    intro m m' h
    simp only [retRun] at h
    split at h
    · cases h
    next lp hlp =>
    split at h
    · cases h
    next m1 h1 =>
    have hp : G'.pc m = (⟨G.pc m - slide, lp.1, lp.2⟩ : Inst P).start + slide := by
      rw [← hpc]; exact (BitVec.sub_add_cancel _ _).symm
    split at h
    next hr => cases h; exact ⟨1, .ret hlp hp hr (hst _ _ _ h1)⟩
    next hr =>
      obtain ⟨N, h2⟩ := ih _ _ h
      exact ⟨N + 1, .step hlp hp (by simpa using hr) (hst _ _ _ h1) h2⟩

theorem calling_mono (env : Env) (ext : Ext) (slide : BitVec 64) {f f' : Spec.State → Option Spec.State}
    (h : ∀ m m', f m = some m' → f' m = some m') (i : Inst Frv) (m m' : Spec.State)
    (hst : (calling env ext slide f).step i m = some m') : (calling env ext slide f').step i m = some m' := by
  simp only [calling, rvGuestC] at hst ⊢
  split
  next hp => rw [if_pos hp] at hst; exact hst
  next hp =>
    rw [if_neg hp] at hst
    obtain ⟨m1, h1, h2⟩ := Option.bind_eq_some_iff.1 hst
    refine Option.bind_eq_some_iff.2 ⟨m1, h1, ?_⟩
    simp only [rvTail] at h2 ⊢
    split
    next hc => rw [if_pos hc] at h2; exact h _ _ h2
    next hc => rw [if_neg hc] at h2; exact h2

theorem callRun_call (env : Env) (ext : Ext) (slide : BitVec 64) (code : Decoder Frv) (n j : Nat) :
    ∀ m m', callRun (calling env ext slide) code slide isRet n j m = some m' →
      guestCall (calling env ext slide) code slide isRet j m = some m' := by
  induction j with
  | zero => intro m m' h; cases h
  | succ j ih =>
    intro m m' h
    obtain ⟨N, hN⟩ := retRun_returns (G := calling env ext slide (callRun (calling env ext slide) code slide isRet n j))
      (G' := calling env ext slide (guestCall (calling env ext slide) code slide isRet j)) rfl
      (fun i m m' => calling_mono env ext slide ih i m m') n m m' h
    have hex : ∃ m' n, (calling env ext slide (guestCall (calling env ext slide) code slide isRet j)).Returns code slide
        isRet n m m' := ⟨m', N, hN⟩
    rw [guestCall, dif_pos hex]
    obtain ⟨N', hN'⟩ := hex.choose_spec
    rw [returns_det hN' hN]

/-- Initial state of the hart: `x1 = 0x3000`, `x2 = 0x8000`, `x10 = n`; the floating-point registers hold the
single-precision number zero. -/
def recState (n slide : BitVec 64) : Spec.State where
  gp := fun k => if k = 1 then 0x3000#64 else if k = 2 then 0x8000#64 else if k = 10 then n else 0#64
  fp := fun _ => RV64.Spec.nanBox 0#32
  mem := fun _ => 0#8
  pc := 0x1000#64 + slide

/-- The CPU struct with this state, where the numbers are NaN-boxed or not. -/
def recCpu (boxed : Bool) (n slide : BitVec 64) : CPU RvReg (Val 64) VMem where
  slot := fun r => match r with
    | .inl k => some (if k = 1 then 0x3000#64 else if k = 2 then 0x8000#64 else if k = 10 then n else 0#64)
    | .inr _ => some (if boxed then RV64.Spec.nanBox 0#32 else 0#64)
  pc := some (0x1000#64 + slide)
  mem := Mem.toV (fun _ => 0#8)

theorem rec_rel (boxed : Bool) (n slide : BitVec 64) :
    rvRelF (recState n slide) (recCpu boxed n slide).slot (recCpu boxed n slide).mem := by
  refine ⟨?_, ?_, ?_, fun k hk => .inr rfl, rfl⟩
  · intro k
    simp only [recCpu, recState, Option.some.injEq]
    have e : ∀ n : Nat, n < 32 → ((k : Nat) = n ↔ k = Fin.ofNat 32 n) := by
      intro n hn
      rw [Fin.ext_iff]; simp [Nat.mod_eq_of_lt hn]
    have e1 := e 1 (by omega); have e2 := e 2 (by omega); have e10 := e 10 (by omega)
    simp only [Fin.ofNat, Nat.reduceMod] at e1 e2 e10
    simp only [e1, e2, e10]
    rfl
  · intro k hk
    simp only [recState]
    rw [if_neg (by omega), if_neg (by omega), if_neg (by omega)]
  · intro k
    cases boxed
    · exact .inr ⟨0#32, rfl, rfl⟩
    · exact .inl rfl

/-- The configuration: no system calls. -/
def recEnv : Env where
  callFn := none
  sysFn := none

def recExt : Ext where
  callee := some
  sys := some

/-- The recursive function returns for `n = 3` with nested calls 4 deep. -/
theorem rec_call : ∃ m', guestCall (calling recEnv recExt 0) recCode 0 isRet 4 (recState 3 0) = some m' ∧
    (m'.gp 10, m'.gp 11, m'.gp 1, m'.gp 2, m'.pc) = (0#64, 4#64, 0x3000#64, 0x8000#64, 0x3000#64) := by
  have h : (callRun (calling recEnv recExt 0) recCode 0 isRet 20 4 (recState 3 0)).map
      (fun m => (m.gp 10, m.gp 11, m.gp 1, m.gp 2, m.pc)) = some (0#64, 4#64, 0x3000#64, 0x8000#64, 0x3000#64) := by
    decide +kernel
  obtain ⟨m', h1, h2⟩ := Option.map_eq_some_iff.1 h
  exact ⟨m', callRun_call _ _ _ _ _ _ _ _ h1, h2⟩

/-- All hypotheses of `C61_rv64_partial` are met by the recursive function: the dispatcher returns from it with
`x10 = 0`, `x11 = 4`, the stack pointer restored, at the return address. -/
example (out0 : CPU RvReg (Val 64) VMem → Id → RvReg → Val 64) : ∃ c',
    dispatch (fun g => recTable { recEnv with callFn := some g } 0) (fun _ _ => false) 0 out0 4 (recCpu false 3 0) = some c' ∧
    c'.slot (.inl 10) = some 0#64 ∧ c'.slot (.inl 11) = some 4#64 ∧ c'.slot (.inl 2) = some 0x8000#64 ∧
    c'.pc = some 0x3000#64 := by
  obtain ⟨m', hm, hv⟩ := rec_call
  simp only [Prod.mk.injEq] at hv
  obtain ⟨⟨c', h1, h2, h3⟩, -⟩ := C61_rv64_partial (env := recEnv) (ext := recExt) (fun g h => by cases h) (fun _ => rfl)
    recCode_decoded (T := fun g => recTable { recEnv with callFn := some g } 0)
    (fun g a u h => recTable_unit h)
    (by
      intro g f i m m' hi _ _
      have := rec_unit { recEnv with callFn := some g } rfl 0 (rec_mem hi).2
      simp only [recTable, dif_pos this, Option.isSome_some])
    out0 4 _ m' hm (recCpu false 3 0) (rec_rel false 3 0) rfl
  refine ⟨c', h1, ?_, ?_, ?_, ?_⟩
  · rw [show c'.slot (.inl 10) = some (m'.gp 10) from h2.1 10, hv.1]
  · rw [show c'.slot (.inl 11) = some (m'.gp 11) from h2.1 11, hv.2.1]
  · rw [show c'.slot (.inl 2) = some (m'.gp 2) from h2.1 2, hv.2.2.2.1]
  · rw [h3, hv.2.2.2.2]

/-- The hypotheses of `C59_rv64_partial` are met, at any load address, by the same code lifted
with a call function that adds 3 to `x10` and returns. -/
example (n slide : BitVec 64) (again : Bool → Bool) (out0 : CPU RvReg (Val 64) VMem → Id → RvReg → Val 64) (K : Nat) :
    (∃ K' < K, ∃ n' m1 x, (rvGuestC ccEnv ccExt slide).run recCode slide n' (recState n slide) = some m1 ∧
      runChain (recTable ccEnv slide) again (fun _ _ => false) slide out0 K' (.out (recCpu false n slide)) = some x ∧
      ChainStuck (rvGuestC ccEnv ccExt slide) recCode slide rvRelF m1 x) ∨
    ∃ n' m1 x, (rvGuestC ccEnv ccExt slide).run recCode slide n' (recState n slide) = some m1 ∧
      runChain (recTable ccEnv slide) again (fun _ _ => false) slide out0 K (.out (recCpu false n slide)) = some x ∧
      ChainSync (rvGuestC ccEnv ccExt slide) slide rvRelF m1 x :=
  C59_rv64_partial cc_ext recCode_decoded (fun _ _ h => recTable_unit h) (by simp) (.inl fun _ _ => rfl) again out0 _ _
    (rec_rel false n slide) rfl K

/-- Likewise for `C60_rv64_partial`, with CPU structs that differ in the floating-point registers. -/
example (n slide : BitVec 64) (again : Bool → Bool) (out0 : CPU RvReg (Val 64) VMem → Id → RvReg → Val 64) (K : Nat) :
    BothStuck (recTable ccEnv slide) again (fun _ _ => false) slide out0 out0 (rvGuestC ccEnv ccExt slide) recCode rvRelF
      (recState n slide) (recCpu false n slide) (recCpu true n slide) K ∨
    ∃ n' m1 x x', (rvGuestC ccEnv ccExt slide).run recCode slide n' (recState n slide) = some m1 ∧
      runChain (recTable ccEnv slide) again (fun _ _ => false) slide out0 K (.out (recCpu false n slide)) = some x ∧
      runChain (recTable ccEnv slide) again (fun _ _ => false) slide out0 K (.out (recCpu true n slide)) = some x' ∧
      ChainSync (rvGuestC ccEnv ccExt slide) slide rvRelF m1 x ∧
      ChainSync (rvGuestC ccEnv ccExt slide) slide rvRelF m1 x' ∧ ChainSame x x' :=
  C60_rv64_partial cc_ext recCode_decoded (fun _ _ h => recTable_unit h) (by simp) (.inl fun _ _ => rfl) again out0 out0
    _ _ _ (rec_rel false n slide) rfl (rec_rel true n slide) rfl K

end Verif.Lift.RV64
