import Verif.IR.Reloc
import Verif.A64.Static

/-!
C36 for AArch64: the code emitted with a relocated PC base does in every state, also where it has undefined behaviour or computes
wrong values, what the code emitted for the relocated instruction does.
-/

namespace Verif.A64

set_option linter.unusedSimpArgs false
set_option linter.unusedTactic false

open Verif.IR

def St.at (m : St) (p : Pc) : St := { m with pc := p }

/-- The same outcome at addresses `d` higher. -/
def Out.reloc (d : BitVec 64) (o : Out) : Out := { o with st := o.st.at (o.st.pc.reloc d) }

section
variable (m : St) (p : Pc)

theorem at_gp : (m.at p).gp = m.gp := rfl
theorem at_vec : (m.at p).vec = m.vec := rfl
theorem at_fl : (m.at p).fl = m.fl := rfl
theorem at_mem : (m.at p).mem = m.mem := rfl
theorem at_tpidr : (m.at p).tpidr = m.tpidr := rfl
theorem at_pc : (m.at p).pc = p := rfl
theorem at_at (q : Pc) : (m.at p).at q = m.at q := rfl
theorem get_at (w : Nat) (r : Reg) : (m.at p).get w r = m.get w r := rfl
theorem getV_at (r : Fin 32) (w : Nat) : (m.at p).getV r w = m.getV r w := rfl
theorem getVec_at (va : VA) (r : Fin 32) : (m.at p).getVec va r = m.getVec va r := rfl
theorem getDbl_at (va : VA) (r : Fin 32) : (m.at p).getDbl va r = m.getDbl va r := rfl
theorem getElem_at (va : VA) (r : Fin 32) (i : Nat) : (m.at p).getElem va r i = m.getElem va r i := rfl
theorem set_at (r : Reg) {w : Nat} (v : Val w) : (m.at p).set r v = (m.set r v).at p := by
  unfold St.set; cases r.idx <;> rfl
theorem setF_at (f : Flag) (v : Val 1) : (m.at p).setF f v = (m.setF f v).at p := rfl
theorem setV_at (r : Fin 32) {w : Nat} (v : Val w) : (m.at p).setV r v = (m.setV r v).at p := rfl
theorem setVec_at (r : Fin 32) {w : Nat} (n : Nat) (v : Vec w) : (m.at p).setVec r n v = (m.setVec r n v).at p := rfl
theorem insTop_at (r : Fin 32) (v : Val 64) : (m.at p).insTop r v = (m.insTop r v).at p := rfl
theorem insElem_at (r : Fin 32) (e i : Nat) (x : Val (8 * e)) : (m.at p).insElem r e i x = (m.insElem r e i x).at p := rfl
theorem insHalf_at (va : VA) (r : Fin 32) (x : Vec va.w) : (m.at p).insHalf va r x = (m.insHalf va r x).at p := by
  unfold St.insHalf; split <;> rfl
theorem load_at (a : Val 64) (n k : Nat) : load (m.at p) a n k = load m a n k := rfl
theorem store_at (a : Val 64) (n k : Nat) (v : Val (8 * n)) : store (m.at p) a n k v = (store m a n k v).map (·.at p) := by
  unfold store; split
  · rfl
  · split <;> rfl
theorem loadAt_at (a : Val 64) (n k : Nat) : loadAt (m.at p) a n k = loadAt m a n k := rfl
theorem storeAt_at (a : Val 64) (n k : Nat) (v : Val (8 * n)) : storeAt (m.at p) a n k v = (storeAt m a n k v).map (·.at p) :=
  store_at ..
theorem loadList_at (a : Val 64) (n k : Nat) : loadList (m.at p) a n k = loadList m a n k := rfl
theorem isTrue_at (c : Cond) : isTrue (m.at p) c = isTrue m c := rfl
theorem flagAdd_at (cfg : Cfg) {w : Nat} (a b c : Val w) : flagAdd cfg (m.at p) a b c = (flagAdd cfg m a b c).at p := by
  unfold flagAdd; dsimp only; split <;> rfl
theorem flagSub_at {w : Nat} (a b c : Val w) : flagSub (m.at p) a b c = (flagSub m a b c).at p := rfl
theorem flagLogic_at {w : Nat} (a : Val w) : flagLogic (m.at p) a = (flagLogic m a).at p := rfl
theorem flagFp_at {w : Nat} (a b : Val w) : flagFp (m.at p) a b = (flagFp m a b).at p := rfl
theorem ccmpSel_at (m0 : St) (q : Pc) (c : Cond) (n : BitVec 4) : ccmpSel (m0.at q) (m.at p) c n = (ccmpSel m0 m c n).at p := rfl
theorem clobber_at (cfg : Cfg) : clobber cfg (m.at p) = (clobber cfg m).at p := by unfold clobber; split <;> rfl
theorem rhsVal_at (w : Nat) (r : Rhs) : rhsVal (m.at p) w r = rhsVal m w r := rfl
theorem setStatus_at (w : Nat) (r : Option Reg) : setStatus (m.at p) w r = (setStatus m w r).at p := by
  cases r
  · rfl
  · exact set_at ..

theorem ifFp_at (va : VA) : ifFp va (m.at p) = (ifFp va m).map (·.at p) := by unfold ifFp; split <;> rfl

theorem simdAddr_at (rn : Reg) (post : Post) :
    simdAddr (m.at p) rn post = ((simdAddr m rn post).1, (simdAddr m rn post).2.at p) := by
  unfold simdAddr
  split
  · rfl
  · simp only [set_at, get_at]

theorem foldl_at {α : Type} (f : St → α → St) (hf : ∀ m a, f (m.at p) a = (f m a).at p) (l : List α) :
    l.foldl f (m.at p) = (l.foldl f m).at p := by
  induction l generalizing m with
  | nil => rfl
  | cons a l ih => simp only [List.foldl_cons, hf, ih]

theorem foldlM_at {α : Type} (f : St → α → Option St) (hf : ∀ m a, f (m.at p) a = (f m a).map (·.at p)) (l : List α) :
    l.foldlM f (m.at p) = (l.foldlM f m).map (·.at p) := by
  induction l generalizing m with
  | nil => rfl
  | cons a l ih =>
    simp only [List.foldlM_cons, hf, Option.bind_eq_bind]
    cases f m a with
    | none => rfl
    | some x => exact ih x

/-- The code of the vector instructions does not look at the program counter. -/
theorem simd_at (i : Simd) : i.lift (m.at p) = (i.lift m).map (·.at p) := by
  cases i <;> simp only [Simd.lift, liftThree, liftTwo, liftShlImm, liftShr, liftSra, liftShll, liftShrn, liftXtn, liftLong,
    liftLongElem, liftWide, liftMulElem, liftPair, liftAddp, liftAddlp, liftAcross, liftImmOp, liftMovi, liftDupElem, gpElem, liftExt,
    liftMov, liftTbl, liftUzp, liftZip, liftRev, liftLd1, liftLdN, liftLdSingle, liftLdR, liftSt1, liftStN, liftStSingle, tblTable,
    get_at, getV_at, getVec_at, getDbl_at, getElem_at, set_at, setV_at, setVec_at, insElem_at, insHalf_at, at_vec, loadAt_at,
    loadList_at, storeAt_at, simdAddr_at, Option.map_map, Function.comp_def, Option.map_some]
  case ld1 => exact foldlM_at _ p _ (fun m a => by simp only [loadAt_at, setV_at, Option.map_map, Function.comp_def]) _
  case ldN =>
    split
    · simp only [Option.map_map, Function.comp_def]
      exact congrArg (Option.map · _) (funext fun l => foldl_at _ p _ (fun m a => by simp only [setVec_at]) _)
    · rfl
  case ldSingle =>
    exact congrArg (Option.map · _) (funext fun l => foldl_at _ p _ (fun m a => by simp only [insElem_at]) _)
  case ldR =>
    exact congrArg (Option.map · _) (funext fun l => foldl_at _ p _ (fun m a => by simp only [setVec_at]) _)
  case st1 =>
    split
    · exact foldlM_at _ p _ (fun m a => by simp only [storeAt_at, getVec_at]) _
    · rfl
  case tbl =>
    split
    · simp only [Option.map_map, Function.comp_def]
    · rfl
  case stN =>
    split
    · generalize storeAt _ _ _ 0 _ = x
      cases x with
      | none => rfl
      | some y => exact storeAt_at ..
    · exact store_at ..
    · exact store_at ..
    · rfl
  case stSingle => exact foldlM_at _ p _ (fun m a => by simp only [storeAt_at, getElem_at]) _
  all_goals first | rfl | (split <;> rfl)

theorem fpu_at (i : Fpu) : i.lift (m.at p) = (i.lift m).map (·.at p) := by
  cases i <;> simp only [Fpu.lift, liftCvt,
    get_at, getV_at, getVec_at, getDbl_at, getElem_at, set_at, setV_at, setVec_at, insElem_at, insHalf_at, at_vec, ifFp_at,
    Option.map_map, Function.comp_def, Option.map_some]
  case elem => split <;> exact ifFp_at ..
  case ofInt => split <;> exact ifFp_at ..
  case toInt =>
    generalize Rnd.mode _ = x
    cases x with
    | none => rfl
    | some y => simp only [Option.bind_some]; split <;> exact ifFp_at ..
  case vrint => generalize Rnd.mode _ = x; cases x <;> rfl
  case rint => generalize Rnd.mode _ = x; generalize FSz.fpBits _ = y; cases x <;> cases y <;> rfl
  case toGp => generalize Rnd.mode _ = x; generalize FSz.fpBits _ = y; cases x <;> cases y <;> rfl
  all_goals first | rfl | (split <;> rfl)

theorem liftBin_at (cfg : Cfg) (op : BinOp) (w : Nat) (sf inv : Bool) (rd rn : Reg) (rhs : Rhs) :
    liftBin cfg (m.at p) op w sf inv rd rn rhs = (liftBin cfg m op w sf inv rd rn rhs).map (·.at p) := by
  unfold liftBin
  rw [rhsVal_at]
  cases rhsVal m w rhs with
  | none => rfl
  | some v =>
    simp only [Option.bind_some, get_at, set_at]
    split
    · cases op <;> simp only [binFlags, flagAdd_at, flagSub_at, flagLogic_at, Option.map_some, Option.map_none]
    · rfl

theorem liftMovk_at (w : Nat) (rd : Reg) (imm : BitVec 16) (lsl : Nat) :
    liftMovk (m.at p) w rd imm lsl = (liftMovk m w rd imm lsl).at p := by simp only [liftMovk, set_at, get_at]

theorem liftBf_at (k : Bf) (w : Nat) (rd rn : Reg) (lsb width : Nat) :
    liftBf (m.at p) k w rd rn lsb width = (liftBf m k w rd rn lsb width).at p := by
  cases k <;> simp only [liftBf, set_at, get_at]

theorem liftBfc_at (w : Nat) (rd : Reg) (lsb width : Nat) : liftBfc (m.at p) w rd lsb width = (liftBfc m w rd lsb width).at p := by
  simp only [liftBfc, set_at, get_at]

theorem liftExtr_at (w : Nat) (rd rn rm : Reg) (lsb : Nat) :
    liftExtr (m.at p) w rd rn rm lsb = (liftExtr m w rd rn rm lsb).at p := by simp only [liftExtr, set_at, get_at]

theorem liftMsr_at (sys : Sys) (rt : Reg) : liftMsr (m.at p) sys rt = (liftMsr m sys rt).map (·.at p) := by cases sys <;> rfl

theorem liftMrs_at (sys : Sys) (rt : Reg) : liftMrs (m.at p) sys rt = (liftMrs m sys rt).map (·.at p) := by
  cases sys <;> simp only [liftMrs, set_at, at_fl, at_tpidr, Option.map_some, Option.map_none]

theorem liftDczva_at (rt : Reg) : liftDczva (m.at p) rt = (liftDczva m rt).map (·.at p) := by
  unfold liftDczva
  rw [get_at]
  split <;> rfl

theorem liftUdiv_at (w : Nat) (rd rn rm : Reg) : liftUdiv (m.at p) w rd rn rm = (liftUdiv m w rd rn rm).map (·.at p) := by
  simp only [liftUdiv, set_at, get_at, Option.map_map, Function.comp_def]

theorem liftSdiv_at (w : Nat) (rd rn rm : Reg) : liftSdiv (m.at p) w rd rn rm = (liftSdiv m w rd rn rm).map (·.at p) := by
  simp only [liftSdiv, set_at, get_at, Option.map_map, Function.comp_def]

theorem liftShiftReg_at (sh : Sh) (w : Nat) (rd rn rm : Reg) :
    liftShiftReg (m.at p) sh w rd rn rm = (liftShiftReg m sh w rd rn rm).at p := by
  simp only [liftShiftReg, set_at, get_at]

theorem liftAdc_at (cfg : Cfg) (sub : Bool) (w : Nat) (sf : Bool) (rd rn rm : Reg) :
    liftAdc cfg (m.at p) sub w sf rd rn rm = (liftAdc cfg m sub w sf rd rn rm).at p := by
  cases sub <;> cases sf <;> simp [liftAdc, set_at, get_at, at_fl, flagSub_at, flagAdd_at]

theorem liftCcmp_at (cfg : Cfg) (ccmn : Bool) (w : Nat) (rn : Reg) (rhs : CRhs) (c : Cond) (nzcv : BitVec 4) :
    liftCcmp cfg (m.at p) ccmn w rn rhs c nzcv = (liftCcmp cfg m ccmn w rn rhs c nzcv).at p := by
  cases ccmn <;> cases rhs <;> simp [liftCcmp, get_at, flagSub_at, flagAdd_at, ccmpSel_at]

theorem liftCsel_at (k : Sel) (w : Nat) (rd rn rm : Reg) (c : Cond) :
    liftCsel (m.at p) k w rd rn rm c = (liftCsel m k w rd rn rm c).at p := by
  cases k <;> simp only [liftCsel, set_at, get_at, isTrue_at]

theorem liftFcmp_at (w : Nat) (rn : Fin 32) (rm : Option (Fin 32)) : liftFcmp (m.at p) w rn rm = (liftFcmp m w rn rm).at p := by
  cases rm <;> rfl

theorem loadGp_at (rt : Reg) (w : Nat) (e : Ext) (mo : Bool) (a : Val 64) :
    loadGp (m.at p) rt w e mo a = (loadGp m rt w e mo a).map (·.at p) := by
  unfold loadGp
  rw [load_at]
  cases load m a e.bytes (alignOf e.bytes mo) with
  | none => rfl
  | some v => simp only [Option.bind_some, Option.map_map, Function.comp_def, set_at]

theorem storeGp_at (rt : Reg) (w : Nat) (e : Ext) (mo : Bool) (a : Val 64) :
    storeGp (m.at p) rt w e mo a = (storeGp m rt w e mo a).map (·.at p) := by
  unfold storeGp
  split
  · exact store_at ..
  · rfl

/-- The address of an access relative to the program counter is that of the relocated code. -/
theorem addr_reloc (d a : BitVec 64) (n : Nat) (rn : Reg) (mode : AM) :
    addr 0#64 (m.at (.const (a + d))) n rn mode =
      ((addr d (m.at (.const a)) n rn mode).1, (addr d (m.at (.const a)) n rn mode).2.at (.const (a + d))) := by
  cases mode <;> simp only [addr, set_at, get_at, at_at]
  rename_i off
  have := Pc.get_reloc d off (.const a)
  rw [at_pc, at_pc, ← this]
  rfl

variable (d a : BitVec 64)

theorem liftLdr_reloc (w : Nat) (e : Ext) (mode : AM) (mo : Bool) (rt rn : Reg) :
    liftLdr 0#64 (m.at (.const (a + d))) w e mode mo rt rn =
      (liftLdr d (m.at (.const a)) w e mode mo rt rn).map (·.at (.const (a + d))) := by
  simp only [liftLdr, addr_reloc, loadGp_at]

theorem liftLdp_reloc (w : Nat) (e : Ext) (mode : AM) (mo : Bool) (rt rt2 rn : Reg) :
    liftLdp 0#64 (m.at (.const (a + d))) w e mode mo rt rt2 rn =
      (liftLdp d (m.at (.const a)) w e mode mo rt rt2 rn).map (·.at (.const (a + d))) := by
  simp only [liftLdp, addr_reloc, loadGp_at]
  generalize loadGp _ rt2 _ _ _ _ = x
  cases x with
  | none => rfl
  | some y => exact loadGp_at ..

theorem liftStr_reloc (w : Nat) (e : Ext) (mode : AM) (mo : Bool) (excl : Option Reg) (rt rn : Reg) :
    liftStr 0#64 (m.at (.const (a + d))) w e mode mo excl rt rn =
      (liftStr d (m.at (.const a)) w e mode mo excl rt rn).map (·.at (.const (a + d))) := by
  simp only [liftStr, addr_reloc, storeGp_at, Option.map_map, Function.comp_def, setStatus_at]

theorem liftStp_reloc (w : Nat) (e : Ext) (mode : AM) (mo : Bool) (excl : Option Reg) (rt rt2 rn : Reg) :
    liftStp 0#64 (m.at (.const (a + d))) w e mode mo excl rt rt2 rn =
      (liftStp d (m.at (.const a)) w e mode mo excl rt rt2 rn).map (·.at (.const (a + d))) := by
  simp only [liftStp, addr_reloc, storeGp_at]
  generalize storeGp _ rt2 _ _ _ _ = x
  cases x with
  | none => rfl
  | some y =>
    simp only [Option.map_some, Option.bind_some, storeGp_at, Option.map_map, Function.comp_def, setStatus_at]

theorem liftLdrFp_reloc (n : Nat) (mode : AM) (rt : Fin 32) (rn : Reg) :
    liftLdrFp 0#64 (m.at (.const (a + d))) n mode rt rn =
      (liftLdrFp d (m.at (.const a)) n mode rt rn).map (·.at (.const (a + d))) := by
  simp only [liftLdrFp, addr_reloc, load_at, Option.map_map, Function.comp_def, setV_at]

theorem liftLdpFp_reloc (n : Nat) (mode : AM) (rt rt2 : Fin 32) (rn : Reg) :
    liftLdpFp 0#64 (m.at (.const (a + d))) n mode rt rt2 rn =
      (liftLdpFp d (m.at (.const a)) n mode rt rt2 rn).map (·.at (.const (a + d))) := by
  simp only [liftLdpFp, addr_reloc, load_at]
  generalize load _ _ _ _ = x
  cases x with
  | none => rfl
  | some y => simp only [Option.bind_some, Option.map_map, Function.comp_def, setV_at, load_at]

theorem liftStrFp_reloc (n : Nat) (mode : AM) (rt : Fin 32) (rn : Reg) :
    liftStrFp 0#64 (m.at (.const (a + d))) n mode rt rn =
      (liftStrFp d (m.at (.const a)) n mode rt rn).map (·.at (.const (a + d))) := by
  simp only [liftStrFp, addr_reloc, store_at, getV_at]

theorem liftStpFp_reloc (n : Nat) (mode : AM) (rt rt2 : Fin 32) (rn : Reg) :
    liftStpFp 0#64 (m.at (.const (a + d))) n mode rt rt2 rn =
      (liftStpFp d (m.at (.const a)) n mode rt rt2 rn).map (·.at (.const (a + d))) := by
  simp only [liftStpFp, addr_reloc, store_at, getV_at]
  generalize store _ _ _ _ _ = x
  cases x with
  | none => rfl
  | some y => simp only [Option.map_some, Option.bind_some, store_at, getV_at]

end

/-- The functions called by the lifted code store the program counter, i.e. leave it as a value, /repo/src/lifter-base.cc:46-57. -/
def Cfg.opaque (cfg : Cfg) : Prop :=
  ∀ f, cfg.callFunction = some f ∨ cfg.syscall = some f → ∀ s s', f s = some s' → ∃ v, s'.pc = .value v

theorem liftCall_reloc (cfg : Cfg) (hf : cfg.opaque) (d start : BitVec 64) (len : Nat) (tgt : Reg ⊕ BitVec 64) (s : St) :
    ((liftCall cfg d (s.at (.const start)) start len tgt).map fun m => ({ st := m } : Out)).map (Out.reloc d) =
      (liftCall cfg 0#64 (s.at (.const (start + d))) (start + d) len tgt).map fun m => { st := m } := by
  have hstop : ∀ x : BitVec 64, start + x + d = start + d + x := by
    intro x
    rw [BitVec.add_assoc, BitVec.add_comm x d, ← BitVec.add_assoc]
  have e1 : ∀ (s : St) p, ({ s with pc := p } : St) = s.at p := fun _ _ => rfl
  have hg : (Pc.const (start + d)).get 0#64 (BitVec.ofNat 64 len) = (Pc.const start).get d (BitVec.ofNat 64 len) :=
    Pc.get_reloc d _ (.const start)
  have ht : ∀ (x : St) p q, callTarget (x.at p) (start + d) tgt = (callTarget (x.at q) start tgt).reloc d := by
    intro x p q
    cases tgt with
    | inl r => rfl
    | inr off => simp only [callTarget, Pc.reloc, hstop]
  unfold liftCall
  simp only [e1, clobber_at, set_at, at_pc, hg, at_at]
  rw [ht _ _ (.const start)]
  generalize St.set _ _ _ = x
  generalize callTarget _ _ _ = p
  cases hc : cfg.callFunction with
  | none => rfl
  | some f =>
    have e : (p.reloc d).val 0#64 = p.val d := Pc.get_reloc d 0 p
    have h1 : callExt d f (x.at p) = (f (x.at (.value (p.val d)))).map (fun y => y.at (.value (y.pc.val d))) := rfl
    have h2 : callExt 0#64 f (x.at (p.reloc d)) =
        (f (x.at (.value ((p.reloc d).val 0#64)))).map (fun y => y.at (.value (y.pc.val 0#64))) := rfl
    dsimp only
    rw [h1, h2, e]
    cases hx : f (x.at (.value (p.val d))) with
    | none => rfl
    | some y =>
      obtain ⟨v, hv⟩ := hf f (.inl hc) _ _ hx
      simp only [Option.map_some, Function.comp_apply, hv, Out.reloc, St.at, Pc.reloc, hstop]
      rfl

/-- C36, AArch64: for every instruction except SVC and those that cannot be lifted, the code emitted at `start` and run at `start + d`
is equivalent to the code emitted at `start + d`, in every state; for ADRP, the code computes the page of the address at which it
runs. -/
theorem C36_a64_partial (cfg : Cfg) (hf : cfg.opaque) (d : BitVec 64) (i : Instr) (hi : handled i = true) (he : i ≠ .svc)
    (start : BitVec 64) (len : Nat) (s : St) :
    (lift cfg d i start len s).map (Out.reloc d) = lift cfg 0#64 i (start + d) len s := by
  have hstop : ∀ x : BitVec 64, start + x + d = start + d + x := by
    intro x
    rw [BitVec.add_assoc, BitVec.add_comm x d, ← BitVec.add_assoc]
  have e1 : ∀ (s : St) p, ({ s with pc := p } : St) = s.at p := fun _ _ => rfl
  have hg : ∀ off, (Pc.const (start + d)).get 0#64 off = (Pc.const start).get d off := fun off => Pc.get_reloc d off (.const start)
  have hok : ∀ x y : Option St, y = x.map (·.at (.const (start + d))) →
      (x.map fun m => ({ st := m.at (.const (start + BitVec.ofNat 64 len)) } : Out)).map (Out.reloc d) =
      y.map fun m => { st := m.at (.const (start + d + BitVec.ofNat 64 len)) } := by
    rintro x y rfl
    cases x with
    | none => rfl
    | some y => simp only [Option.map_some, Out.reloc, at_pc, at_at, Pc.reloc, hstop]
  cases i with
  | bl off => exact liftCall_reloc cfg hf d start len _ s
  | blr rn => exact liftCall_reloc cfg hf d start len _ s
  | svc => exact absurd rfl he
  | unknown => cases hi
  | bcond c off => simp only [lift, e1, Option.map_some, Out.reloc, at_pc, at_at, Pc.reloc, hstop, isTrue_at]
  | b off => simp only [lift, e1, Option.map_some, Out.reloc, at_pc, at_at, Pc.reloc, hstop]
  | br rn => simp only [lift, e1, Option.map_some, Out.reloc, at_pc, at_at, Pc.reloc, get_at]
  | ret rn => simp only [lift, e1, Option.map_some, liftRet, clobber_at, Out.reloc, at_pc, at_at, Pc.reloc, get_at]
  | cbz nz w32 rt off => simp only [lift, e1, Option.map_some, Out.reloc, at_pc, at_at, Pc.reloc, hstop, get_at]
  | tbz nz w32 rt bit off =>
    simp only [lift, e1, get_at]
    split
    · simp only [Option.map_some, Out.reloc, at_pc, at_at, Pc.reloc, hstop]
    · rfl
  | dmb crm =>
    simp only [lift, e1]
    split
    · exact hok _ _ rfl
    · rfl
  | prfm prfop mode rn =>
    simp only [lift, e1]
    split
    · rfl
    · exact hok _ _ (by rw [addr_reloc]; rfl)
  | msr sys rt =>
    simp only [lift, e1, liftMsr_at]
    cases h : liftMsr s sys rt with
    | none => cases sys <;> first | (cases h; done) | (cases hi; done)
    | some x => exact hok _ _ rfl
  | mrs sys rt =>
    simp only [lift, e1, liftMrs_at]
    cases h : liftMrs s sys rt with
    | none => cases sys <;> first | (cases h; done) | (cases hi; done)
    | some x => exact hok _ _ rfl
  | div signed w32 rd rn rm =>
    simp only [lift, e1, liftUdiv_at, liftSdiv_at]
    refine hok _ _ ?_
    split <;> simp only [Option.map_map, Function.comp_def, at_at]
  | simd i =>
    have h : i.handled = true := hi
    simp only [lift, e1, simd_at, if_pos h]
    exact hok _ _ (by simp only [Option.map_map, Function.comp_def, at_at])
  | fpu i =>
    have h : i.handled = true := hi
    simp only [lift, e1, fpu_at, if_pos h]
    exact hok _ _ (by simp only [Option.map_map, Function.comp_def, at_at])
  | _ =>
    simp only [lift, e1]
    first
    | (refine hok _ _ ?_
       simp only [at_pc, hg, set_at, get_at, getV_at, setV_at, insTop_at, setF_at, at_fl, at_vec, isTrue_at, liftBin_at, liftMovk_at,
         liftBf_at, liftBfc_at, liftExtr_at, liftDczva_at, liftUdiv_at, liftSdiv_at, liftShiftReg_at, liftAdc_at, liftCcmp_at,
         liftCsel_at, liftFcmp_at, ccmpSel_at, liftLdr_reloc, liftLdp_reloc, liftStr_reloc, liftStp_reloc, liftLdrFp_reloc,
         liftLdpFp_reloc, liftStrFp_reloc, liftStpFp_reloc, Option.map_map, Option.map_some, Function.comp_def, at_at]
       done)
    | exact hok _ _ rfl

/-- The hypotheses are met by ADRP at 0x401000 loaded 0x1234000 higher, without external functions: the code run there is that of the
instruction lifted at 0x1635000. -/
example (s : St) : (lift {} 0x1234000#64 (.adrp (.x 1) 0x5000#64) 0x401000#64 4 s).map (Out.reloc 0x1234000#64) =
      lift {} 0#64 (.adrp (.x 1) 0x5000#64) 0x1635000#64 4 s ∧
    (lift {} 0#64 (.adrp (.x 1) 0x5000#64) 0x1635000#64 4 s).map (fun o => o.st.gp 1) = some (some 0x163a000#64) :=
  ⟨C36_a64_partial {} (by rintro f (h | h) <;> cases h) _ _ rfl (by intro h; cases h) _ _ s, by rfl⟩

end Verif.A64
