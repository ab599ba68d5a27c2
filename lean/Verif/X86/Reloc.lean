import Verif.IR.Reloc
import Verif.X86.Static

/-!
C36 for x86-64: the code emitted with a relocated PC base does in every state, also where it has undefined behaviour or computes
wrong values, what the code emitted for the relocated instruction does.
-/

namespace Verif.X86

set_option linter.unusedSimpArgs false
set_option linter.constructorNameAsVariable false

open Verif.IR

def St.at (m : St) (p : Pc) : St := { m with pc := p }

/-- The state with a known program counter. -/
def St.cn (m : St) (a : BitVec 64) : St := m.at (.value (some a))

/-- The same outcome at addresses `d` higher. -/
def Out.reloc (d : BitVec 64) (o : Out) : Out := { o with st := o.st.at (o.st.pc.reloc d) }

section
variable (m : St) (p : Pc)

theorem at_gp : (m.at p).gp = m.gp := rfl
theorem at_vec : (m.at p).vec = m.vec := rfl
theorem at_fl : (m.at p).fl = m.fl := rfl
theorem at_pf : (m.at p).pf = m.pf := rfl
theorem at_mem : (m.at p).mem = m.mem := rfl
theorem at_pc : (m.at p).pc = p := rfl
theorem at_at (q : Pc) : (m.at p).at q = m.at q := rfl
theorem at_cn (a : BitVec 64) : (m.at p).cn a = m.cn a := rfl
theorem ite_at (c : Prop) [Decidable c] (m' : St) : (if c then m.at p else m'.at p) = (if c then m else m').at p := by split <;> rfl
theorem get_at (r : Fin 16) (z : Sz) : (m.at p).get r z = m.get r z := rfl
theorem getH_at (r : Fin 16) : (m.at p).getH r = m.getH r := rfl
theorem getF_at (f : Flag) : (m.at p).getF f = m.getF f := rfl
theorem xvec_at (z : Sz) (r : Fin 16) : (m.at p).xvec z r = m.xvec z r := rfl
theorem flagCond_at (c : Cond) : flagCond (m.at p) c = flagCond m c := by cases c <;> rfl
theorem flagAsReg_at (z : Sz) : flagAsReg (m.at p) z = flagAsReg m z := rfl
theorem leaSum_at (w : Nat) (o : MemOp) : leaSum (m.at p) w o = leaSum m w o := rfl
theorem idxVal_at (o : Option (Fin 16 × Fin 4)) : idxVal (m.at p) o = idxVal m o := by cases o <;> rfl
theorem setGp_at (r : Fin 16) (v : Val 64) : (m.at p).setGp r v = (m.setGp r v).at p := rfl
theorem setF_at (f : Flag) (v : Val 1) : (m.at p).setF f v = (m.setF f v).at p := by cases f <;> rfl
theorem setPf_at (v : Val 8) : (m.at p).setPf v = (m.setPf v).at p := rfl
theorem merge_at (r : Fin 16) {w : Nat} (v : Val w) : (m.at p).merge r v = (m.merge r v).at p := rfl
theorem store_r_at (r : Fin 16) (z : Sz) (v : Val z.bits) : (m.at p).store r z v = (m.store r z v).at p := by cases z <;> rfl
theorem storeH_at (r : Fin 16) (v : Val 8) : (m.at p).storeH r v = (m.storeH r v).at p := rfl
theorem mergeX_at (r : Fin 16) {w : Nat} (v : Val w) : (m.at p).mergeX r v = (m.mergeX r v).at p := rfl
theorem setX_at (r : Fin 16) {w : Nat} (n : Nat) (v : Vec w) : (m.at p).setX r n v = (m.setX r n v).at p := rfl

theorem foldl_at {α : Type} (f : St → α → St) (hf : ∀ m a, f (m.at p) a = (f m a).at p) (l : List α) :
    l.foldl f (m.at p) = (l.foldl f m).at p := by
  induction l generalizing m with
  | nil => rfl
  | cons a l ih => simp only [List.foldl_cons, hf, ih]

theorem foldlM_at {α : Type} (f : St → α → Option St) (hf : ∀ m a, f (m.at p) a = (f m a).map (·.at p)) (l : List α) :
    l.foldlM f (m.at p) = (l.foldlM f m).map (·.at p) := by
  induction l generalizing m with
  | nil => rfl
  | cons a l ih =>
    simp only [List.foldlM_cons, hf, Option.bind_eq_bind]
    cases f m a with
    | none => rfl
    | some x => exact ih x

theorem undef_at (fs : List Flag) : (m.at p).undef fs = (m.undef fs).at p :=
  foldl_at _ _ _ (fun m f => by cases f <;> rfl) _

theorem flagFromReg_at {w : Nat} (v : Val w) : flagFromReg (m.at p) v = (flagFromReg m v).at p := by
  refine foldl_at _ _ _ (fun m f => ?_) _
  split
  · rfl
  · obtain ⟨f, k⟩ := f
    cases f <;> rfl

theorem flagZ_at {w : Nat} (v : Val w) : flagZ (m.at p) v = (flagZ m v).at p := rfl
theorem flagSap_at {w : Nat} (v : Val w) : flagSap (m.at p) v = (flagSap m v).at p := rfl
theorem flagAdd_at (cfg : Cfg) {w : Nat} (a b c : Val w) (sk : Bool) : flagAdd cfg (m.at p) a b c sk = (flagAdd cfg m a b c sk).at p := by
  unfold flagAdd; cases sk <;> cases cfg.overflowIntrinsics <;> rfl
theorem flagSub_at {w : Nat} (a b c : Val w) (sk az : Bool) : flagSub (m.at p) a b c sk az = (flagSub m a b c sk az).at p := by
  unfold flagSub; cases sk <;> rfl
theorem clobber_at (cfg : Cfg) : clobber cfg (m.at p) = (clobber cfg m).at p := by
  unfold clobber; split
  · exact undef_at ..
  · rfl
theorem mulFlags_at (cfg : Cfg) (signed : Bool) {w : Nat} (a b : Val w) :
    mulFlags cfg (m.at p) signed a b = (mulFlags cfg m signed a b).at p := by simp only [mulFlags, setF_at, undef_at]
theorem mulStore_at (z : Sz) (v : Val (z.bits * 2)) : mulStore (m.at p) z v = (mulStore m z v).at p := by
  cases z <;> simp only [mulStore, store_r_at]
theorem repFlags_at {w : Nat} (a b : Val w) : repFlags (m.at p) a b = (repFlags m a b).at p := rfl

theorem load_at (a : Val 64) (n k : Nat) : load (m.at p) a n k = load m a n k := rfl
theorem store_at (a : Val 64) (n k : Nat) (v : Val (8 * n)) : store (m.at p) a n k v = (store m a n k v).map (·.at p) := by
  unfold store; split
  · rfl
  · split <;> rfl

theorem load_cn (b : BitVec 64) (a : Val 64) (n k : Nat) : load (m.cn b) a n k = load m a n k := rfl

theorem stackPush_at (z : Sz) (v : Val z.bits) : stackPush (m.at p) z v = (stackPush m z v).map (·.at p) := by
  simp only [stackPush, at_gp, store_at, Option.bind_eq_bind, Option.pure_def, Option.bind_map, Option.map_bind, Function.comp_def,
    setGp_at, Option.map_some]

theorem stackPop_at (r : Fin 16) : stackPop (m.at p) r = (stackPop m r).map (fun x => (x.1, x.2.at p)) := by
  simp only [stackPop, at_gp, load_at, Option.bind_eq_bind, Option.pure_def, Option.bind_map, Option.map_bind, Function.comp_def,
    setGp_at, Option.map_some]

theorem btStore_at (c : Bool) (z : Sz) (a : Val 64) (v : Val z.bits) : btStore (m.at p) c z a v = (btStore m c z a v).map (·.at p) := by
  unfold btStore; split
  · exact store_at ..
  · rfl

end

section
variable (slide : BitVec 64) (m : St) (a : BitVec 64)

theorem ipRel_c (off : BitVec 64) : (m.at (.const a)).ipRel slide off = (m.cn (a + slide)).ipRel 0#64 off := by
  simp only [St.ipRel, at_pc, St.cn, Pc.get, addrPCBase, IR.add, IR.bin, Option.some.injEq]
  rw [BitVec.add_assoc, BitVec.add_assoc, BitVec.add_comm off slide]

theorem opAddr_c (o : MemOp) (ds : Bool) : opAddr slide (m.at (.const a)) o ds = opAddr 0#64 (m.cn (a + slide)) o ds := by
  unfold opAddr
  simp only [ipRel_c]
  rfl

theorem opLoad_c (z : Sz) (o : Op) (ds : Bool) : opLoad slide (m.at (.const a)) z o ds = opLoad 0#64 (m.cn (a + slide)) z o ds := by
  cases o with
  | mem o => simp only [opLoad, opAddr_c, load_at, load_cn]
  | _ => rfl

theorem opStore_c (z : Sz) (o : Op) (v : Val z.bits) :
    opStore slide (m.at (.const a)) z o v = (opStore 0#64 (m.cn (a + slide)) z o v).map (·.at (.const a)) := by
  cases o with
  | mem o =>
    simp only [opStore, opAddr_c, Option.bind_eq_bind, Option.map_bind, Function.comp_def, St.cn, store_at, Option.map_map, at_at]
  | imm v => rfl
  | reg r => simp only [opStore, St.cn, store_r_at, Option.map_some, at_at]
  | regH r => cases z <;> simp only [opStore, St.cn, store_r_at, storeH_at, Option.map_some, at_at]

theorem atomicRmw_c (z : Sz) (o : Op) (f : Val z.bits → Val z.bits) :
    atomicRmw slide (m.at (.const a)) z o f =
      (atomicRmw 0#64 (m.cn (a + slide)) z o f).map (fun x => (x.1, x.2.at (.const a))) := by
  cases o with
  | mem o =>
    simp only [atomicRmw, opAddr_c, Option.bind_eq_bind, Option.map_bind, Function.comp_def, St.cn, load_at, store_at, Option.bind_map,
      Option.map_map, at_at, Option.pure_def, Option.map_some]
  | _ => rfl

theorem rmwLoad_c (z : Sz) (lock : Bool) (o : Op) (f : Val z.bits → Val z.bits) :
    rmwLoad slide (m.at (.const a)) z lock o f =
      (rmwLoad 0#64 (m.cn (a + slide)) z lock o f).map (fun x => (x.1, x.2.at (.const a))) := by
  unfold rmwLoad
  split
  · exact atomicRmw_c ..
  · simp only [opLoad_c, Option.map_map, Function.comp_def, St.cn, at_at]

theorem opStoreIf_c (c : Bool) (z : Sz) (o : Op) (v : Val z.bits) :
    opStoreIf slide (m.at (.const a)) c z o v = (opStoreIf 0#64 (m.cn (a + slide)) c z o v).map (·.at (.const a)) := by
  unfold opStoreIf
  split
  · exact opStore_c ..
  · rfl

theorem xload_c (n k : Nat) (o : XOp) : xload slide (m.at (.const a)) n k o = xload 0#64 (m.cn (a + slide)) n k o := by
  cases o with
  | mem o => simp only [xload, opAddr_c, load_at, load_cn]
  | _ => rfl

theorem xloadV_c (z : Sz) (n k : Nat) (o : XOp) : xloadV slide (m.at (.const a)) z n k o = xloadV 0#64 (m.cn (a + slide)) z n k o := by
  simp only [xloadV, xload_c]

theorem xstore_c (n k : Nat) (o : XOp) (v : Val (8 * n)) :
    xstore slide (m.at (.const a)) n k o v = (xstore 0#64 (m.cn (a + slide)) n k o v).map (·.at (.const a)) := by
  cases o with
  | mem o =>
    simp only [xstore, opAddr_c, Option.bind_eq_bind, Option.map_bind, Function.comp_def, St.cn, store_at, Option.map_map, at_at]
  | _ => rfl

theorem bin128_c (z : Sz) (k : Nat) (d : Fin 16) (s : XOp) {w : Nat} (n : Nat) (f : Vec z.bits → Vec z.bits → Vec w) :
    bin128 slide (m.at (.const a)) z k d s n f = (bin128 0#64 (m.cn (a + slide)) z k d s n f).map (·.at (.const a)) := by
  simp only [bin128, xloadV_c, Option.bind_eq_bind, Option.map_bind, Function.comp_def, Option.pure_def, Option.map_some, setX_at,
    xvec_at, St.cn, at_at]

end

open Lean.Parser.Tactic in
/-- Moves the program counter out of the code. -/
macro "rl" " [" ls:simpLemma,* "]" : tactic => `(tactic| simp only [$ls,*, at_gp, at_vec, at_fl, at_pf, at_mem, at_pc, at_at, at_cn,
  ite_at, get_at, getH_at, getF_at, xvec_at, flagCond_at, flagAsReg_at, leaSum_at, setGp_at, setF_at, setPf_at, merge_at, store_r_at,
  storeH_at, mergeX_at, setX_at, undef_at, flagFromReg_at, flagZ_at, flagSap_at, flagAdd_at, flagSub_at, clobber_at, mulFlags_at,
  mulStore_at, repFlags_at, load_at, store_at, stackPush_at, stackPop_at, btStore_at, ipRel_c, opAddr_c, opLoad_c, opStore_c,
  atomicRmw_c, rmwLoad_c, opStoreIf_c, xload_c, xloadV_c, xstore_c, bin128_c, BitVec.add_zero, Option.bind_eq_bind, Option.pure_def,
  Option.bind_assoc, Option.bind_map, Option.map_bind, Option.map_map, Option.bind_some, Option.bind_none, Option.map_some, Option.map_none,
  Function.comp_def, Out.reloc, Pc.reloc])

theorem strBody_at (k : Str) (z : Sz) (ax : Val z.bits) (m : St) (p : Pc) (si di : Val 64) :
    strBody k z ax (m.at p) si di = (strBody k z ax m si di).map (fun x => (x.1.at p, x.2)) := by
  cases k <;> rl [strBody]

theorem repLoop_at (k : Str) (z : Sz) (mode : RepMode) (ax : Val z.bits) (adj : Val 64) (p : Pc) (fuel : Nat) :
    ∀ (m : St) (si di count : Val 64), repLoop k z mode ax adj fuel (m.at p) si di count =
      (repLoop k z mode ax adj fuel m si di count).map (fun x => (x.1.at p, x.2)) := by
  induction fuel with
  | zero => intros; rfl
  | succ n ih =>
    intro m si di count
    simp only [repLoop, strBody_at, ih, Option.bind_eq_bind, Option.bind_map, Option.map_bind, Function.comp_def]
    congr 1
    funext x
    congr 1
    funext c
    split <;> rfl

theorem liftStr_at (m : St) (p : Pc) (k : Str) (z : Sz) (rep : Rep) :
    liftStr (m.at p) k z rep = (liftStr m k z rep).map (·.at p) := by
  unfold liftStr
  split
  · rl [at_at]
    split <;> rfl
  · rl [at_at]
    cases repMode k rep with
    | no => rl [strBody_at]
    | _ =>
      rl [repLoop_at]
      split
      · rfl
      · split
        · rfl
        · rl [repLoop_at]

theorem sse_c (slide : BitVec 64) (m : St) (a : BitVec 64) (i : Sse) :
    i.lift slide (m.at (.const a)) = (i.lift 0#64 (m.cn (a + slide))).map (·.at (.const a)) := by
  cases i <;> simp only [Sse.lift]
  all_goals first | (rl [St.cn]; done) | skip
  case movq z d s => cases d <;> rl [St.cn]
  case movs z d s => cases d <;> cases s <;> rl [St.cn]
  case movhp pd d s => cases pd <;> cases d <;> rl [liftMovhpd, liftMovhps, St.cn, Bool.false_eq_true, if_true, if_false]
  case bin op horz scalar z d s =>
    unfold liftBin
    split
    · split <;> rl [St.cn]
    · split <;> rl [St.cn]
  case addsub => rl [liftAddsub, St.cn]
  case comis => rl [liftComis, St.cn]
  case cmp scalar z d s imm => cases scalar <;> rl [liftCmp, St.cn, Bool.false_eq_true, if_true, if_false]
  case fminmax max scalar z d s => cases scalar <;> rl [liftFminmax, St.cn, Bool.false_eq_true, if_true, if_false]
  case sqrt scalar z d s => cases scalar <;> rl [liftSqrt, St.cn, Bool.false_eq_true, if_true, if_false]
  case cvt k d s => cases k <;> rl [liftCvt, St.cn]
  case insertps d s imm =>
    by_cases h : immField imm 0 15 = 0
    · cases s <;> simp only [liftInsertps, if_pos h] <;> rl [St.cn]
    · cases s <;> simp only [liftInsertps, if_neg h] <;> rl [St.cn]
  case pextr z d s imm => cases d <;> rl [liftPextr, St.cn]
  case movdup => rl [liftMovdup, St.cn]
  case pshift k z d c => cases c <;> rl [St.cn]
  case pshiftBytes => rl [liftPshiftBytes, St.cn]
  case movmsk => split <;> rl [St.cn]
  case fxsave o =>
    have h : ∀ (x : St) (p : Pc) (b : Val 64), (List.finRange 16).foldlM (fun (m : St) i =>
        store m (IR.add b (some (BitVec.ofNat 64 (fxHeader + 16 * i.val)))) 16 16 (m.vec i)) (x.at p) =
        ((List.finRange 16).foldlM (fun (m : St) i =>
          store m (IR.add b (some (BitVec.ofNat 64 (fxHeader + 16 * i.val)))) 16 16 (m.vec i)) x).map (·.at p) :=
      fun x p b => foldlM_at _ p _ (fun m i => store_at ..) _
    rl [liftFxsave, h, St.cn]
  case fxrstor o =>
    have h : ∀ (x : St) (p : Pc) (b : Val 64), (List.finRange 16).foldlM (fun (m : St) i =>
        (load m (IR.add b (some (BitVec.ofNat 64 (fxHeader + 16 * i.val)))) 16 16).bind fun v => some (m.mergeX i v)) (x.at p) =
        ((List.finRange 16).foldlM (fun (m : St) i =>
          (load m (IR.add b (some (BitVec.ofNat 64 (fxHeader + 16 * i.val)))) 16 16).bind fun v => some (m.mergeX i v)) x).map
            (·.at p) :=
      fun x p b => foldlM_at _ p _ (fun m i => by rl [at_at]) _
    rl [liftFxrstor, h, St.cn]

/-- The function called for CALL leaves the program counter as a value. -/
def Cfg.opaque (cfg : Cfg) : Prop := ∀ f, cfg.callFunction = some f → ∀ s s', f s = some s' → ∃ v, s'.pc = .value v

/-- C36, x86-64: for every instruction that can be lifted, the code emitted at `start` and run at `start + d` is equivalent to the code
emitted at `start + d`, in every state.  (System calls: without a system call function, which the model lets depend on the mode of the
program counter.) -/
theorem C36_x86_partial (cfg : Cfg) (hf : cfg.opaque) (d : BitVec 64) (i : Instr) (hi : i ≠ .unknown)
    (hsys : i = .syscall → cfg.syscall = none) (start : BitVec 64) (len : Nat) (s : St) :
    (lift cfg d i start len s).map (Out.reloc d) = lift cfg 0#64 i (start + d) len s := by
  have hn : stopPc (start + d) len = stopPc start len + d := by
    unfold stopPc
    rw [BitVec.add_assoc, BitVec.add_comm d, ← BitVec.add_assoc]
  have e1 : ∀ (s : St) p, ({ s with pc := p } : St) = s.at p := fun _ _ => rfl
  have hoff : ∀ x off : BitVec 64, x + off + d = x + d + off := by
    intro x off
    rw [BitVec.add_assoc, BitVec.add_comm off, ← BitVec.add_assoc]
  have hcall : ∀ (nx : BitVec 64) (tgt tgt' : St → Option (Val 64)),
      (∀ m : St, tgt (m.at (.const nx)) = tgt' (m.at (.const (nx + d)))) →
      ((liftCall cfg d (s.at (.const nx)) tgt nx).map (fun m => ({ st := m } : Out))).map (Out.reloc d) =
        (liftCall cfg 0#64 (s.at (.const (nx + d))) tgt' (nx + d)).map (fun m => { st := m }) := by
    intro nx tgt tgt' ht
    rl [liftCall, e1, ht]
    congr 1
    funext v
    congr 1
    funext x
    cases hc : cfg.callFunction with
    | none => rfl
    | some f =>
      cases hx : f (x.at (.value v)) with
      | none => rl [hx]
      | some y =>
        obtain ⟨u, hu⟩ := hf f hc _ _ hx
        rl [hx, hu]
        rfl
  cases i <;> simp only [Verif.X86.lift, e1, hn]
  all_goals generalize stopPc start len = nx
  case mov => rl [liftMov]
  case movzx z sz d' r =>
    rl [liftMovzx]
    congr 1
    funext v
    split <;> rl [e1]
  case movbe => rl [liftMovbe]
  case bswap => rl [liftMovbe]
  case arith => rl [liftArith]
  case cmpxchg z lock d' r => cases lock <;> rl [liftCmpxchg, Bool.false_eq_true, if_true, if_false]
  case xchg z d' r => cases d' <;> rl [liftXchg]
  case logic k z lock d' r =>
    unfold liftLogic
    split <;> rl [e1]
  case not z lock d' => cases lock <;> rl [liftNot, Bool.false_eq_true, if_true, if_false]
  case neg z lock d' => cases lock <;> rl [liftNeg, Bool.false_eq_true, if_true, if_false]
  case incdec => rl [liftIncDec]
  case shift => rl [liftShift]
  case shiftd => rl [liftShiftd]
  case rotate => rl [liftRotate]
  case mul1 => rl [liftMul1]
  case imul2 => rl [liftImul2]
  case div signed z r high =>
    unfold liftDiv divCore
    split
    · rl [div8]
    · split
      · rfl
      · rl [divLow]
      · rl [divFull]
  case lea z d' o => rl [liftLea]
  case xlat => rl [liftXlat]
  case cmov => rl [liftCmov]
  case setcc => rl [liftSetcc]
  case cext => rl [liftCext]
  case csep => rl [liftCsep]
  case bitscan trailing b z d' r =>
    rl [liftBitscan]
    congr 1
    funext v
    unfold bitscanStore
    split <;> rl [e1]
  case popcnt => rl [liftPopcnt]
  case bittest k z lock d' r =>
    unfold liftBittest
    split
    · rfl
    · cases r <;> cases d' <;> cases lock <;> rl [btIndex, btAccess, btAddr, Bool.false_eq_true, if_true, if_false]
  case push => rl [e1]
  case pop z d' => cases z <;> cases d' <;> rl [popStore]
  case pushf => rl [e1]
  case popf => rl [e1]
  case leave => rl [e1]
  case lahf => rl [e1]
  case sahf => rl [e1]
  case clc => rl [e1]
  case stc => rl [e1]
  case cmc => rl [e1]
  case cld => rl [e1]
  case std => rl [e1]
  case nop => rl [e1]
  case jmpRel => rl [hoff]
  case jmp => rl [e1]
  case jcc => rl [hoff]
  case jcxz => rl [hoff]
  case loop k a32 off => rl [liftLoop, e1, hoff]; rfl
  case cpuid => rl [liftCpuid]
  case rdtsc => rl [liftRdtsc]
  case ctl k o => cases k <;> rl [liftCtl]
  case ret pop => cases pop <;> rl [liftRet, e1]
  case str k z rep _ _ => rl [liftStr_at]
  case unknown => exact absurd rfl hi
  case syscall => rl [liftSyscall, hsys rfl]
  case sse i => rl [sse_c]
  case callRel off => exact hcall _ _ _ (fun m => by rl [e1])
  case call o => exact hcall _ _ _ (fun m => by rl [e1])

/-- The hypotheses are met by `MOV RAX, [RIP + 0x2000]` at 0x401000 loaded 0x555555000000 higher, without external functions: both codes
read the word at 0x555555403007. -/
example (s : St) : (lift {} 0x555555000000#64 (.mov .q .q (.reg rax) (.mem { base := .ip, off := 0x2000#64 })) 0x401000#64 7 s).map
        (Out.reloc 0x555555000000#64) =
      lift {} 0#64 (.mov .q .q (.reg rax) (.mem { base := .ip, off := 0x2000#64 })) 0x555555401000#64 7 s ∧
    (lift {} 0#64 (.mov .q .q (.reg rax) (.mem { base := .ip, off := 0x2000#64 })) 0x555555401000#64 7 s).map (fun o => o.st.gp rax) =
      some (zext 64 (sext 64 (s.mem.read 0x555555403007#64 8))) :=
  ⟨C36_x86_partial {} (by intro f h; cases h) _ _ (by intro h; cases h) (by intro h; cases h) _ _ s, by rfl⟩

end Verif.X86
