import Verif.RV64.BitLemmas

/-!
Properties of the RV64 lifter: C27-C31 and C43, C44.  Everywhere `m` is the run-time state of the
lifted code, `s` the architectural state it represents (`Rel`), `slide` the displacement of
position-independent code (0 otherwise); `start` is the link-time address of the instruction, so
that `s.pc = start + slide`.
-/

namespace Verif.RV64

set_option linter.unusedSimpArgs false

open Verif.IR

/-- A concrete state for the examples: `x1 = 5`, `x2 = -1`, other registers 7, memory all 0x80. -/
def exSpec (pc : BitVec 64) : Spec.State where
  gp := fun r => if r = 1 then 5#64 else if r = 2 then (-1 : BitVec 64) else 7#64
  fp := fun _ => 0x3ff0000000000000#64
  mem := fun _ => 0x80#8
  pc := pc

/-- Run-time state representing `exSpec`. -/
def exSt (pc : BitVec 64) : St where
  gp := fun r => some ((exSpec pc).gp r)
  fp := fun r => some ((exSpec pc).fp r)
  mem := (exSpec pc).mem.toV
  pc := .value (some pc)

theorem exRel (slide pc : BitVec 64) : Rel slide (exSt pc) (exSpec pc) :=
  ⟨⟨rfl, rfl, rfl⟩, by simp [exSt, exSpec, ir]⟩

/-- **C27** RV64I computational instructions and RV64M multiplications write exactly the value the
ISA prescribes to `rd`, change nothing else and advance the pc. -/
theorem C27_rv64_alu (cfg : Cfg) (slide : BitVec 64) (i : Frv) (start : BitVec 64) (len : Nat)
    (m : St) (s : Spec.State) (v : BitVec 64)
    (hr : Rel slide m s) (hs : s.pc = start + slide)
    (hv : Spec.aluVal i.mnem (s.x i.rs1) (s.x i.rs2) (i.imm.signExtend 64) s.pc = some v) :
    ∃ m', lift cfg slide i start len m = some { st := m' } ∧ Rel slide m' (s.wr i.rd v len) := by
  have h := plain_alu (m := { m with pc := .const start }) (start := start) (slide := slide)
    (regRel_pc hr.1 _) rfl hs hv
  have := lift_rel (cfg := cfg) (len := len) h (storeGp64_rel (regRel_pc hr.1 _) i.rd v)
  rwa [← hs] at this

/-- `mulh x3, x2, x1` with `x2 = -1`, `x1 = 5`: the high half of -5 is -1. -/
example : ∃ m', lift {} 0x1000#64 ⟨.mulh, 3, 2, 1, 0, 0, 7⟩ 0x400000#64 4 (exSt 0x401000#64)
      = some { st := m' } ∧
    Rel 0x1000#64 m' ((exSpec 0x401000#64).wr 3 (-1 : BitVec 64) 4) :=
  C27_rv64_alu _ _ _ _ _ _ _ _ (exRel _ _) (by decide) (by decide)

/-- **C28** Unsigned division and all remainders follow the M extension, including division by
zero and overflow; no execution reaches undefined behaviour. -/
theorem C28_rv64_divu_rem (cfg : Cfg) (slide : BitVec 64) (i : Frv) (start : BitVec 64) (len : Nat)
    (m : St) (s : Spec.State) (v : BitVec 64)
    (hr : Rel slide m s) (hs : s.pc = start + slide)
    (hm : i.mnem ≠ .div ∧ i.mnem ≠ .divw)
    (hv : Spec.divVal i.mnem (s.x i.rs1) (s.x i.rs2) = some v) :
    ∃ m', lift cfg slide i start len m = some { st := m' } ∧ Rel slide m' (s.wr i.rd v len) := by
  have hr' : RegRel { m with pc := .const start } s := hr.1
  have h : liftPlain slide i { m with pc := .const start }
      = some (some (storeGp { m with pc := .const start } i.rd (some v))) := by
    rcases i with ⟨mn, rd, rs1, rs2, imm, rs3, misc⟩
    cases mn <;> simp only [Spec.divVal, Option.some.injEq, reduceCtorEq, ne_eq,
        not_true_eq_false, false_and, and_false] at hv hm <;> subst hv <;>
      simp only [liftPlain, liftDivRem_urem hr', liftDivRem_udiv hr',
        liftDivRem_srem hr' _ (show 0 < 64 by decide), liftDivRem_srem hr' _ (show 0 < 32 by decide),
        Option.map_some, BitVec.setWidth_eq] <;>
      rw [storeGp_ext]
  have := lift_rel (cfg := cfg) (len := len) h (storeGp64_rel hr' i.rd v)
  rwa [← hs] at this

example : ∃ m', lift {} 0#64 ⟨.remw, 3, 1, 0, 0, 0, 7⟩ 0x400000#64 4 (exSt 0x400000#64)
      = some { st := m' } ∧
    Rel 0#64 m' ((exSpec 0x400000#64).wr 3 5#64 4) :=
  C28_rv64_divu_rem _ _ _ _ _ _ _ _ (exRel _ _) (by decide) (by decide) (by decide)

/-- **C28** (signed quotient, partial) `DIV`/`DIVW` follow the M extension unless the divisor is -1
and the dividend is neither 0 nor the minimum.  Missing: the other dividends with divisor -1, for
which the code returns the dividend, see `C28_div_counterexample`. -/
theorem C28_rv64_div_partial (cfg : Cfg) (slide : BitVec 64) (i : Frv) (start : BitVec 64) (len : Nat)
    (m : St) (s : Spec.State) (v : BitVec 64)
    (hr : Rel slide m s) (hs : s.pc = start + slide)
    (h64 : i.mnem = .div → s.x i.rs2 = BitVec.allOnes 64 →
      s.x i.rs1 = BitVec.intMin 64 ∨ s.x i.rs1 = 0#64)
    (h32 : i.mnem = .divw → (s.x i.rs2).setWidth 32 = BitVec.allOnes 32 →
      (s.x i.rs1).setWidth 32 = BitVec.intMin 32 ∨ (s.x i.rs1).setWidth 32 = 0#32)
    (hv : Spec.divVal i.mnem (s.x i.rs1) (s.x i.rs2) = some v) :
    ∃ m', lift cfg slide i start len m = some { st := m' } ∧ Rel slide m' (s.wr i.rd v len) := by
  by_cases hm : i.mnem ≠ .div ∧ i.mnem ≠ .divw
  · exact C28_rv64_divu_rem cfg slide i start len m s v hr hs hm hv
  have hr' : RegRel { m with pc := .const start } s := hr.1
  have h : liftPlain slide i { m with pc := .const start }
      = some (some (storeGp { m with pc := .const start } i.rd (some v))) := by
    rcases i with ⟨mn, rd, rs1, rs2, imm, rs3, misc⟩
    cases mn <;> simp [Spec.divVal] at hv hm <;> subst hv
    · simp only [liftPlain]
      rw [liftDivRem_sdiv hr' _ (by decide) (by simpa using h64 rfl)]
      simp
    · simp only [liftPlain]
      rw [liftDivRem_sdiv hr' _ (by decide) (h32 rfl), storeGp_ext]
      simp
  have := lift_rel (cfg := cfg) (len := len) h (storeGp64_rel hr' i.rd v)
  rwa [← hs] at this

/-- `div x3, x2, x1` with `x2 = -1`, `x1 = 5` is covered: -1 / 5 = 0. -/
example : ∃ m', lift {} 0#64 ⟨.div, 3, 2, 1, 0, 0, 7⟩ 0x400000#64 4 (exSt 0x400000#64)
      = some { st := m' } ∧
    Rel 0#64 m' ((exSpec 0x400000#64).wr 3 0#64 4) :=
  C28_rv64_div_partial _ _ _ _ _ _ _ _ (exRel _ _) (by decide) (by decide) (by decide) (by decide)

/-- **C28 is false**: `div x3, x1, x2` with `x1 = 5`, `x2 = -1` must give -5; the lifted code gives
5, and likewise for `divw`. -/
theorem C28_div_counterexample :
    (lift {} 0#64 ⟨.div, 3, 1, 2, 0, 0, 7⟩ 0x400000#64 4 (exSt 0x400000#64)).map (fun o => o.st.gp 3)
      = some (some 5#64) ∧
    Spec.divVal .div ((exSpec 0x400000#64).x 1) ((exSpec 0x400000#64).x 2) = some (-5 : BitVec 64) ∧
    (lift {} 0#64 ⟨.divw, 3, 1, 2, 0, 0, 7⟩ 0x400000#64 4 (exSt 0x400000#64)).map (fun o => o.st.gp 3)
      = some (some 5#64) ∧
    Spec.divVal .divw ((exSpec 0x400000#64).x 1) ((exSpec 0x400000#64).x 2) = some (-5 : BitVec 64) := by
  decide +kernel

/-- **C29** (partial) Zba/Zbb/Zbc/Zbs instructions write the value of the ISA.  Missing: `clmulr`
with bit 63 of `rs2` set, which is wrong (`C29_clmulr_counterexample`).  `slli.uw` needs a shift
amount below 64, which is all the encoding can hold. -/
theorem C29_rv64_bitmanip_partial (cfg : Cfg) (slide : BitVec 64) (i : Frv) (start : BitVec 64)
    (len : Nat) (m : St) (s : Spec.State) (v : BitVec 64)
    (hr : Rel slide m s) (hs : s.pc = start + slide)
    (himm : i.mnem = .slliuw → i.imm.toNat < 64)
    (htop : i.mnem = .clmulr → (s.x i.rs2).getLsbD 63 = false)
    (hv : Spec.bitVal i.mnem (s.x i.rs1) (s.x i.rs2) (i.imm.signExtend 64) = some v) :
    ∃ m', lift cfg slide i start len m = some { st := m' } ∧ Rel slide m' (s.wr i.rd v len) := by
  have h := plain_bit (m := { m with pc := .const start }) (slide := slide)
    (regRel_pc hr.1 _) himm htop hv
  have := lift_rel (cfg := cfg) (len := len) h (storeGp64_rel (regRel_pc hr.1 _) i.rd v)
  rwa [← hs] at this

/-- `clmulh x3, x2, x1` with `x2 = -1`, `x1 = 5`. -/
example : ∃ m', lift {} 0#64 ⟨.clmulh, 3, 2, 1, 0, 0, 7⟩ 0x400000#64 4 (exSt 0x400000#64)
      = some { st := m' } ∧
    Rel 0#64 m' ((exSpec 0x400000#64).wr 3 3#64 4) :=
  C29_rv64_bitmanip_partial _ _ _ _ _ _ _ _ (exRel _ _) (by decide) (by decide) (by decide)
    (by decide +kernel)

/-- **C29 is false for `clmulr`**: with `x1 = 5`, `x2 = -1` (bit 63 set) the lifted code misses the
last partial product. -/
theorem C29_clmulr_counterexample :
    (lift {} 0#64 ⟨.clmulr, 3, 1, 2, 0, 0, 7⟩ 0x400000#64 4 (exSt 0x400000#64)).map (fun o => o.st.gp 3)
      = some (some 3#64) ∧
    Spec.bitVal .clmulr ((exSpec 0x400000#64).x 1) ((exSpec 0x400000#64).x 2) 0#64
      = some 6#64 := by
  decide +kernel

/-! ### C30: the zero register -/

/-- State with another content of the storage of `x0`. -/
def setG0 (v : Val 64) (m : St) : St := { m with gp := fun r => if r = 0 then v else m.gp r }

theorem loadGp_setG0 (v : Val 64) (m : St) (r w : Nat) : loadGp (setG0 v m) r w = loadGp m r w := by
  unfold loadGp setG0
  split <;> simp [*]

theorem loadFp_setG0 (v : Val 64) (m : St) (r w : Nat) : loadFp (setG0 v m) r w = loadFp m r w := rfl

theorem storeGp_setG0 (v : Val 64) (m : St) (r : Nat) {w : Nat} (x : Val w) :
    storeGp (setG0 v m) r x = setG0 v (storeGp m r x) := by
  unfold storeGp
  split
  · rfl
  · unfold setG0
    congr 1
    funext k
    simp only [upd]
    by_cases h : k = 0
    · subst h; simp [Ne.symm ‹_›]
    · simp [h]

theorem storeFp_setG0 (v : Val 64) (m : St) (r : Nat) {w : Nat} (x : Val w) :
    storeFp (setG0 v m) r x = setG0 v (storeFp m r x) := rfl

theorem loadN_setG0 (v : Val 64) (m : St) (a : Val 64) (n : Nat) :
    loadN (setG0 v m) a n = loadN m a n := rfl

theorem storeN_setG0 (v : Val 64) (m : St) (a : Val 64) (n : Nat) (x : Val (8 * n)) :
    storeN (setG0 v m) a n x = (storeN m a n x).map (setG0 v) := by
  unfold storeN
  cases a with
  | none => rfl
  | some a => simp only; split <;> rfl

theorem pc_setG0 (v : Val 64) (m : St) (p : Pc) :
    { setG0 v m with pc := p } = setG0 v { m with pc := p } := rfl

theorem liftDivRem_setG0 (v : Val 64) (m : St) (i : Frv) (w : Nat) (op : DivOp) :
    liftDivRem (setG0 v m) i w op = (liftDivRem m i w op).map (setG0 v) := by
  unfold liftDivRem
  simp only [loadGp_setG0, storeGp_setG0]
  split
  · rfl
  · split
    · rfl
    · cases op.eval (loadGp m i.rs1 w) (loadGp m i.rs2 w) <;> rfl

theorem liftAmo_setG0 (v : Val 64) (m : St) (i : Frv) (n : Nat) (op : RmwOp) :
    liftAmo (setG0 v m) i n op = (liftAmo m i n op).map (setG0 v) := by
  unfold liftAmo
  simp only [loadGp_setG0, loadN_setG0, storeN_setG0]
  split
  · cases loadN m (loadGp m i.rs1 64) n with
    | none => rfl
    | some old =>
      simp only [Option.bind_some]
      cases storeN m (loadGp m i.rs1 64) n (op.eval old (loadGp m i.rs2 (8 * n))) with
      | none => rfl
      | some s => simp [storeGp_setG0]
  · rfl

theorem liftFp_setG0 (v : Val 64) (m : St) (i : Frv) (op : FOp) (f : FW) :
    liftFp (setG0 v m) i op f = (liftFp m i op f).map (setG0 v) := by
  cases op <;> simp only [liftFp, liftFpArith, liftFminmax, liftFmadd, liftFcmp, liftFcvtIToF, liftFcvtFToI,
    loadGp_setG0, loadFp_setG0, storeGp_setG0, storeFp_setG0, Option.map_map, Option.map_some]
  case arith => split <;> rfl
  case toInt => rfl
  case cvt => cases f <;> rfl

theorem liftPlain_setG0 (v : Val 64) (slide : BitVec 64) (i : Frv) (m : St) :
    liftPlain slide i (setG0 v m) = (liftPlain slide i m).map (Option.map (setG0 v)) := by
  rcases i with ⟨mn, rd, rs1, rs2, imm, rs3, misc⟩
  cases mn <;>
    simp only [liftPlain, liftBinOpR, liftBinOpI, liftShift, liftMulh, liftShNAdd, liftUnary,
      liftRotate, liftBit, liftBitExtract, liftOrcb, liftCLMul, loadUw, liftLoad, liftStore,
      liftLoadFp, liftStoreFp, liftFsgn, liftFclass, addr, loadGp_setG0, loadFp_setG0,
      storeGp_setG0, storeFp_setG0, loadN_setG0, storeN_setG0, liftDivRem_setG0, liftAmo_setG0,
      liftFp_setG0,
      Option.map_map, Option.map_some, Option.map_none] <;>
    try rfl
  split <;> rfl

/-- **C30** The content of the register slot of `x0` never influences the lifted code, and the
lifted code never changes it: for every instruction, replacing the content before and after
executing the instruction is the same.  (External call and system call functions must respect this
as well; without them the hypotheses are void.) -/
theorem C30_x0 (cfg : Cfg) (slide : BitVec 64) (i : Frv) (start : BitVec 64) (len : Nat)
    (m : St) (v : Val 64)
    (hcall : ∀ f, cfg.callFunction = some f → ∀ m, f (setG0 v m) = (f m).map (setG0 v))
    (hsys : ∀ f, cfg.syscall = some f → ∀ m, f (setG0 v m) = (f m).map (setG0 v)) :
    lift cfg slide i start len (setG0 v m)
      = (lift cfg slide i start len m).map (fun o => { o with st := setG0 v o.st }) := by
  have hext : ∀ f, (∀ m, f (setG0 v m) = (f m).map (setG0 v)) → ∀ m,
      callExt slide f (setG0 v m) = (callExt slide f m).map (setG0 v) := by
    intro f hf m
    unfold callExt
    have : { setG0 v m with pc := Pc.value ((setG0 v m).pc.val slide) }
      = setG0 v { m with pc := Pc.value (m.pc.val slide) } := rfl
    rw [this, hf]
    cases f { m with pc := Pc.value (m.pc.val slide) } <;> rfl
  have hjal : liftJal cfg slide i start (start + BitVec.ofNat 64 len) len
        (setG0 v { m with pc := .const start })
      = (liftJal cfg slide i start (start + BitVec.ofNat 64 len) len
        { m with pc := .const start }).map (fun o => { o with st := setG0 v o.st }) := by
    unfold liftJal jalFinish jalState
    simp only [pc_setG0, loadGp_setG0]
    have hif : ∀ (c : Prop) [Decidable c] (a b : St),
        (if c then setG0 v a else setG0 v b) = setG0 v (if c then a else b) := by
      intro c _ a b; split <;> rfl
    simp only [hif, storeGp_setG0]
    cases hc : cfg.callFunction with
    | none => rfl
    | some f =>
      simp only [hext f (hcall f hc)]
      split
      · rfl
      · split
        · generalize callExt slide f _ = r
          cases r <;> rfl
        · rfl
  have hec : liftEcall cfg slide i start (start + BitVec.ofNat 64 len)
        (setG0 v { m with pc := .const start })
      = (liftEcall cfg slide i start (start + BitVec.ofNat 64 len)
        { m with pc := .const start }).map (fun o => { o with st := setG0 v o.st }) := by
    unfold liftEcall
    simp only [pc_setG0]
    split
    · cases hc : cfg.syscall with
      | none => rfl
      | some f =>
        simp only [hext f (hsys f hc)]
        generalize callExt slide f _ = r
        cases r <;> rfl
    · rfl
  have hp := liftPlain_setG0 v slide i { m with pc := .const start }
  have hb : ∀ p, liftBranch (setG0 v { m with pc := .const start }) i start
      (start + BitVec.ofNat 64 len) p = setG0 v (liftBranch { m with pc := .const start } i start
      (start + BitVec.ofNat 64 len) p) := by
    intro p; unfold liftBranch; simp only [loadGp_setG0]; rfl
  have hpl : finishPlain start (start + BitVec.ofNat 64 len) (setG0 v { m with pc := .const start })
        (liftPlain slide i (setG0 v { m with pc := .const start }))
      = (finishPlain start (start + BitVec.ofNat 64 len) { m with pc := .const start }
        (liftPlain slide i { m with pc := .const start })).map
          (fun o => { o with st := setG0 v o.st }) := by
    rw [hp]
    rcases liftPlain slide i { m with pc := .const start } with _ | _ | _ <;> rfl
  unfold lift
  simp only [pc_setG0]
  rcases i with ⟨mn, rd, rs1, rs2, imm, rs3, misc⟩
  cases mn <;> first
    | exact hjal
    | exact hec
    | exact hpl
    | (simp only [hb]; rfl)

example : lift {} 0#64 ⟨.amoaddw, 0, 2, 0, 0, 0, 7⟩ 0x400000#64 4 (setG0 (some 42#64) (exSt 0x400000#64))
    = (lift {} 0#64 ⟨.amoaddw, 0, 2, 0, 0, 0, 7⟩ 0x400000#64 4 (exSt 0x400000#64)).map
        (fun o => { o with st := setG0 (some 42#64) o.st }) :=
  C30_x0 _ _ _ _ _ _ _ (by simp) (by simp)

end Verif.RV64
