import Verif.IR.Reloc
import Verif.RV64.FpProps
import Verif.RV64.Static

/-!
C36 for RV64: the code emitted with a relocated PC base does in every state, also where it has undefined behaviour or computes wrong
values, what the code emitted for the relocated instruction does.
-/

namespace Verif.RV64

set_option linter.unusedSimpArgs false

open Verif.IR

def St.at (s : St) (p : Pc) : St := { s with pc := p }

/-- The same outcome at addresses `d` higher. -/
def Out.reloc (d : BitVec 64) (o : Out) : Out := { o with st := o.st.at (o.st.pc.reloc d) }

@[simp] theorem at_gp (s : St) (p : Pc) : (s.at p).gp = s.gp := rfl
@[simp] theorem at_fp (s : St) (p : Pc) : (s.at p).fp = s.fp := rfl
@[simp] theorem at_mem (s : St) (p : Pc) : (s.at p).mem = s.mem := rfl
@[simp] theorem at_pc (s : St) (p : Pc) : (s.at p).pc = p := rfl
@[simp] theorem loadGp_at (s : St) (p : Pc) (r w : Nat) : loadGp (s.at p) r w = loadGp s r w := rfl
@[simp] theorem loadUw_at (s : St) (p : Pc) (r : Nat) : loadUw (s.at p) r = loadUw s r := rfl
@[simp] theorem loadFp_at (s : St) (p : Pc) (r w : Nat) : loadFp (s.at p) r w = loadFp s r w := rfl
@[simp] theorem addr_at (s : St) (p : Pc) (i : Frv) : addr (s.at p) i = addr s i := rfl
@[simp] theorem loadN_at (s : St) (p : Pc) (a : Val 64) (n : Nat) : loadN (s.at p) a n = loadN s a n := rfl
@[simp] theorem storeGp_at (s : St) (p : Pc) (r : Nat) {w : Nat} (v : Val w) : storeGp (s.at p) r v = (storeGp s r v).at p := by
  unfold storeGp; split <;> rfl
@[simp] theorem storeFp_at (s : St) (p : Pc) (r : Nat) {w : Nat} (v : Val w) : storeFp (s.at p) r v = (storeFp s r v).at p := rfl
@[simp] theorem storeN_at (s : St) (p : Pc) (a : Val 64) (n : Nat) (v : Val (8 * n)) :
    storeN (s.at p) a n v = (storeN s a n v).map (·.at p) := by
  unfold storeN; split
  · rfl
  · split <;> rfl
@[simp] theorem at_at (s : St) (p q : Pc) : (s.at p).at q = s.at q := rfl

theorem liftDivRem_at (s : St) (p : Pc) (i : Frv) (w : Nat) (op : DivOp) :
    liftDivRem (s.at p) i w op = (liftDivRem s i w op).map (·.at p) := by
  unfold liftDivRem
  simp only [loadGp_at, storeGp_at]
  split
  · rfl
  · split
    · rfl
    · rw [Option.map_map]; rfl

theorem liftAmo_at (s : St) (p : Pc) (i : Frv) (n : Nat) (op : RmwOp) :
    liftAmo (s.at p) i n op = (liftAmo s i n op).map (·.at p) := by
  unfold liftAmo
  simp only [loadGp_at, loadN_at, storeN_at]
  split
  · cases loadN s (loadGp s i.rs1 64) n with
    | none => rfl
    | some v => simp [Function.comp_def]
  · rfl

theorem liftFp_at (s : St) (p : Pc) (i : Frv) (op : FOp) (f : FW) : liftFp (s.at p) i op f = (liftFp s i op f).map (·.at p) := by
  cases op <;> try rfl
  case arith o => simp only [liftFp, liftFpArith]; split <;> rfl
  case eq | lt | le => simp [liftFp, liftFcmp]
  case toInt l sg => simp [liftFp, liftFcvtFToI, Function.comp_def]
  case cvt => cases f <;> rfl

theorem liftPlain_at (d : BitVec 64) (i : Frv) (s : St) (p : Pc) :
    liftPlain d i (s.at p) = (liftPlain 0#64 i (s.at (p.reloc d))).map (Option.map (·.at p)) := by
  have h0 : (p.reloc d).get 0#64 i.imm64 = p.get d i.imm64 := Pc.get_reloc d _ p
  rcases i with ⟨mn, rd, rs1, rs2, imm, rs3, misc⟩
  cases mn <;> simp only [liftPlain, liftBinOpR, liftBinOpI, liftShift, liftMulh, liftLoad, liftLoadFp, liftStore, liftStoreFp,
    liftDivRem_at, liftAmo_at, liftFp_at, liftFsgn, liftFclass, liftShNAdd, liftUnary, liftRotate, liftBit, liftBitExtract, liftOrcb,
    liftCLMul, h0, Option.map_map, Function.comp_def, loadGp_at, loadFp_at, loadUw_at, storeGp_at, storeFp_at, loadN_at, storeN_at,
    addr_at, at_at, at_pc, Option.map_some, Option.map_none]
  split <;> rfl

/-- Functions given to the lifter leave a program counter that they have computed. -/
def Cfg.opaque (cfg : Cfg) : Prop :=
  ∀ f, cfg.callFunction = some f ∨ cfg.syscall = some f → ∀ s s', f s = some s' → ∃ v, s'.pc = .value v

/-- C36, RV64: for every instruction except ECALL and those that cannot be lifted, the code emitted at `start` and run at `start + d`
is equivalent to the code emitted at `start + d`, in every state. -/
theorem C36_rv64_partial (cfg : Cfg) (hf : cfg.opaque) (d : BitVec 64) (i : Frv) (hi : handled i = true) (he : i.mnem ≠ .ecall)
    (start : BitVec 64) (len : Nat) (s : St) :
    (lift cfg d i start len s).map (Out.reloc d) = lift cfg 0#64 i (start + d) len s := by
  have hstop : ∀ x : BitVec 64, start + x + d = start + d + x := by
    intro x
    rw [BitVec.add_assoc, BitVec.add_comm x d, ← BitVec.add_assoc]
  have hplain : (finishPlain start (start + BitVec.ofNat 64 len) (s.at (.const start))
        (liftPlain d i (s.at (.const start)))).map (Out.reloc d) =
      finishPlain (start + d) (start + d + BitVec.ofNat 64 len) (s.at (.const (start + d)))
        (liftPlain 0#64 i (s.at (.const (start + d)))) ∨
      liftPlain 0#64 i (s.at (.const (start + d))) = some none := by
    rw [liftPlain_at]
    cases h : liftPlain 0#64 i (s.at (.const (start + d))) with
    | none => left; simp [Pc.reloc, h, finishPlain]
    | some o =>
      cases o with
      | none => right; simp [Pc.reloc, h]
      | some x =>
        left
        simp only [Pc.reloc, h, Option.map_some, finishPlain, Out.reloc, hstop]
        rfl
  have hcall : ∀ f, cfg.callFunction = some f → ∀ x : St,
      (callExt d f x).map (fun s => ({ st := s.at (.check (s.pc.val d) (start + BitVec.ofNat 64 len)) } : Out).reloc d) =
      (callExt 0#64 f (x.at (x.pc.reloc d))).map
        (fun s => { st := s.at (.check (s.pc.val 0#64) (start + d + BitVec.ofNat 64 len)) }) := by
    intro f hf1 x
    have e : (x.pc.reloc d).val 0#64 = x.pc.val d := Pc.get_reloc d 0 x.pc
    have h1 : callExt d f x = (f (x.at (.value (x.pc.val d)))).map (fun y => y.at (.value (y.pc.val d))) := rfl
    have h2 : callExt 0#64 f (x.at (x.pc.reloc d)) =
        (f (x.at (.value ((x.pc.reloc d).val 0#64)))).map (fun y => y.at (.value (y.pc.val 0#64))) := rfl
    rw [h1, h2, e, Option.map_map, Option.map_map]
    cases hx : f (x.at (.value (x.pc.val d))) with
    | none => rfl
    | some y =>
      obtain ⟨v, hv⟩ := hf f (.inl hf1) _ _ hx
      simp only [Option.map_some, Function.comp_apply, hv, Out.reloc, St.at, Pc.reloc, hstop]
      rfl
  have hjal : (liftJal cfg d i start (start + BitVec.ofNat 64 len) len (s.at (.const start))).map (Out.reloc d) =
      liftJal cfg 0#64 i (start + d) (start + d + BitVec.ofNat 64 len) len (s.at (.const (start + d))) := by
    have hst : jalState 0#64 i (start + d) len (s.at (.const (start + d))) =
        (jalState d i start len (s.at (.const start))).at ((jalState d i start len (s.at (.const start))).pc.reloc d) := by
      have hg : (Pc.const (start + d)).get 0#64 (BitVec.ofNat 64 len) = (Pc.const start).get d (BitVec.ofNat 64 len) :=
        Pc.get_reloc d _ (.const start)
      have hpc : ∀ (x : St) (v : Val 64), (storeGp x i.rd v).pc = x.pc := by intro x v; unfold storeGp; split <;> rfl
      simp only [jalState, hg, hpc]
      rw [← storeGp_at]
      split
      · rfl
      · simp only [Pc.reloc, hstop]; rfl
    unfold liftJal
    rw [hst]
    generalize jalState d i start len (s.at (.const start)) = x
    unfold jalFinish
    split
    · rfl
    · rename_i f hf1
      dsimp only
      split
      · rfl
      · split
        · rw [Option.map_map]
          exact hcall f hf1 x
        · rfl
  have hpl : liftPlain 0#64 i (s.at (.const (start + d))) = some none →
      i.mnem = .jal ∨ i.mnem = .jalr ∨ i.mnem = .beq ∨ i.mnem = .bne ∨ i.mnem = .blt ∨ i.mnem = .bltu ∨ i.mnem = .bge ∨
      i.mnem = .bgeu := by
    intro h
    rcases plain_unhandled h with h | h
    · rw [hi] at h; cases h
    · simpa [he] using h
  have hbr : ∀ p, (Out.reloc d { st := liftBranch (s.at (.const start)) i start (start + BitVec.ofNat 64 len) p }) =
      { st := liftBranch (s.at (.const (start + d))) i (start + d) (start + d + BitVec.ofNat 64 len) p } := by
    intro p
    simp only [liftBranch, Out.reloc, St.at, Pc.reloc, hstop]
    rfl
  unfold lift
  have e1 : ∀ p, ({ s with pc := p } : St) = s.at p := fun _ => rfl
  simp only [e1]
  split
  · exact hjal
  · exact hjal
  · exact congrArg some (hbr _)
  · exact congrArg some (hbr _)
  · exact congrArg some (hbr _)
  · exact congrArg some (hbr _)
  · exact congrArg some (hbr _)
  · exact congrArg some (hbr _)
  · rename_i h; exact absurd h he
  · rcases hplain with h | h
    · exact h
    · exfalso
      rcases hpl h with h | h | h | h | h | h | h | h <;> contradiction

/-- The hypotheses are met by AUIPC at 0x10000 loaded 0x400000 higher, without external functions. -/
example (s : St) : (lift {} 0x400000#64 ⟨.auipc, 5, 0, 0, 0x7000#32, 0, 0⟩ 0x10000#64 4 s).map (Out.reloc 0x400000#64) =
      lift {} 0#64 ⟨.auipc, 5, 0, 0, 0x7000#32, 0, 0⟩ 0x410000#64 4 s ∧
    (lift {} 0#64 ⟨.auipc, 5, 0, 0, 0x7000#32, 0, 0⟩ 0x410000#64 4 s).map (fun o => o.st.gp 5) = some (some 0x417000#64) :=
  ⟨C36_rv64_partial {} (by rintro f (h | h) <;> cases h) _ _ rfl (by intro h; cases h) _ _ s, by rfl⟩

end Verif.RV64
