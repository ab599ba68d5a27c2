import Verif.Conc.A64

/-! The accesses of the code of AArch64 instructions agree with the sequential model of the lifter. -/

namespace Verif.Conc.A64

open Verif.IR Verif.A64

variable {slide : BitVec 64}

/-- The state with another memory. -/
def setMem (mem : VMem) (s : St) : St := { s with mem }

theorem set_setMem (m : St) (mem : VMem) (r : Reg) {w : Nat} (v : Val w) : (setMem mem m).set r v = setMem mem (m.set r v) := by
  unfold St.set; split <;> rfl

theorem get_setMem (m : St) (mem : VMem) (w : Nat) (r : Reg) : (setMem mem m).get w r = m.get w r := rfl
theorem getV_setMem (m : St) (mem : VMem) (r : Fin 32) (w : Nat) : (setMem mem m).getV r w = m.getV r w := rfl
theorem setV_setMem (m : St) (mem : VMem) (r : Fin 32) {w : Nat} (v : Val w) : (setMem mem m).setV r v = setMem mem (m.setV r v) := rfl
theorem setVec_setMem (m : St) (mem : VMem) (r : Fin 32) {w : Nat} (n : Nat) (v : Vec w) :
    (setMem mem m).setVec r n v = setMem mem (m.setVec r n v) := rfl
theorem insElem_setMem (m : St) (mem : VMem) (r : Fin 32) (e i : Nat) (x : Val (8 * e)) :
    (setMem mem m).insElem r e i x = setMem mem (m.insElem r e i x) := rfl
theorem insHalf_setMem (m : St) (mem : VMem) (va : VA) (r : Fin 32) (v : Vec va.w) :
    (setMem mem m).insHalf va r v = setMem mem (m.insHalf va r v) := by
  unfold St.insHalf; split <;> rfl

theorem flagAdd_setMem (cfg : Cfg) (m : St) (mem : VMem) {w : Nat} (a b c : Val w) :
    flagAdd cfg (setMem mem m) a b c = setMem mem (flagAdd cfg m a b c) := by
  unfold flagAdd; cases cfg.overflowIntrinsics <;> rfl

theorem simd_setMem (m : St) (mem : VMem) (i : Simd) (hi : other (.simd i) = false) : i.lift (setMem mem m) = (i.lift m).map (setMem mem) := by
  cases i with
  | three op sgn scalar va rd rn rm => simp only [Simd.lift, liftThree, Option.map_some]; split <;> rfl
  | two op scalar va rd rn => simp only [Simd.lift, liftTwo, Option.map_some]; split <;> rfl
  | shlImm scalar va rd rn imm => simp only [Simd.lift, liftShlImm, Option.map_some]; split <;> rfl
  | shr sgn _ scalar va rd rn imm => simp only [Simd.lift, liftShr, Option.map_some]; split <;> rfl
  | sra sgn round scalar va rd rn imm => rfl
  | shll sgn va rd rn imm => simp only [Simd.lift, liftShll, Option.map_map]; rfl
  | shrn _ va rd rn imm => simp only [Simd.lift, liftShrn, Option.map_map, insHalf_setMem]; rfl
  | xtn va rd rn => simp only [Simd.lift, liftXtn, Option.map_map, insHalf_setMem]; rfl
  | long op sgn va rd rn rm => simp only [Simd.lift, liftLong, Option.map_map]; rfl
  | longElem op sgn va rd rn rm idx => simp only [Simd.lift, liftLongElem, Option.map_map]; rfl
  | wide sub sgn va rd rn rm => simp only [Simd.lift, liftWide, Option.map_map]; rfl
  | mulElem op va rd rn rm idx => rfl
  | pair op sgn va rd rn rm => rfl
  | addp rd rn => rfl
  | addlp acc sgn va rd rn => simp only [Simd.lift, liftAddlp, Option.map_map]; rfl
  | across op sgn va rd rn => rfl
  | immOp bic va rd imm => rfl
  | movi scalar va rd imm => simp only [Simd.lift, liftMovi, Option.map_some]; split <;> rfl
  | dupElem scalar va rd rn idx => simp only [Simd.lift, liftDupElem, Option.map_some]; split <;> rfl
  | dupGpr w32 va rd rn => simp only [Simd.lift, Option.map_map]; rfl
  | ext va rd rn rm imm => rfl
  | insElem va rd dst rn src => rfl
  | insGpr w32 va rd idx rn => simp only [Simd.lift, Option.map_map]; rfl
  | mov sgn w32 va rd rn idx => simp only [Simd.lift, liftMov]; split <;> simp only [set_setMem, Option.map_some, Option.map_none]; rfl
  | tbl tbx va nreg rd rn rm =>
    simp only [Simd.lift, liftTbl]
    split
    · simp only [Option.map_map]; rfl
    · rfl
  | uzp odd va rd rn rm => rfl
  | zip upper va rd rn rm => rfl
  | rev container va rd rn => simp only [Simd.lift, liftRev, Option.map_map]; rfl
  | _ => cases hi

theorem fpu_setMem (m : St) (mem : VMem) (i : Fpu) : i.lift (setMem mem m) = (i.lift m).map (setMem mem) := by
  cases i with
  | rint mode b sz rd rn =>
    simp only [Fpu.lift]
    cases sz.fpBits <;> cases mode.mode <;> rfl
  | cvt dbl sz rd rn => cases dbl <;> cases sz <;> rfl
  | toGp sgn w32 mode fbits sz rd rn =>
    simp only [Fpu.lift]
    cases sz.fpBits with
    | none => rfl
    | some w =>
      cases mode.mode with
      | none => rfl
      | some r => exact congrArg some (set_setMem _ _ _ _)
  | vbin op va rd rn rm => simp only [Fpu.lift, ifFp]; split <;> (first | rfl | (split <;> rfl))
  | vrint mode b va rd rn =>
    simp only [Fpu.lift, ifFp]
    cases mode.mode with
    | none => rfl
    | some r => simp only [Option.bind_some]; split <;> rfl
  | elem op scalar va rd rn rm idx => simp only [Fpu.lift, ifFp]; cases scalar <;> (split <;> rfl)
  | toInt sgn mode fbits scalar va rd rn =>
    simp only [Fpu.lift, ifFp]
    cases mode.mode with
    | none => rfl
    | some r => simp only [Option.bind_some]; cases scalar <;> (split <;> rfl)
  | ofInt sgn fbits scalar va rd rn => simp only [Fpu.lift, ifFp]; cases scalar <;> (split <;> rfl)
  | cvtn va rd rn => simp only [Fpu.lift, Option.map_map, insHalf_setMem]; rfl
  | cvtl va rd rn => simp only [Fpu.lift, Option.map_map]; rfl
  | pair op va rd rn rm => simp only [Fpu.lift, ifFp]; split <;> (first | rfl | (split <;> rfl))
  | across op va rd rn => simp only [Fpu.lift, ifFp]; split <;> (first | rfl | (split <;> rfl))
  | bin op sz rd rn rm => simp only [Fpu.lift, Option.map_map]; rfl
  | sqrt sz rd rn => simp only [Fpu.lift, Option.map_map]; rfl
  | madd neg sub sz rd rn rm ra => simp only [Fpu.lift, Option.map_map]; rfl
  | ofGp sgn w32 fbits sz rd rn => simp only [Fpu.lift, Option.map_map]; rfl
  | movImm sz rd imm => simp only [Fpu.lift, Option.map_map]; rfl
  | vsqrt va rd rn => simp only [Fpu.lift, ifFp]; split <;> rfl
  | vacc sub va rd rn rm => simp only [Fpu.lift, ifFp]; split <;> rfl
  | addp va rd rn => simp only [Fpu.lift, ifFp]; split <;> rfl
  | vmovImm va rd imm => simp only [Fpu.lift, ifFp]; split <;> rfl

theorem noAccess_run (cfg : Cfg) (i : Instr) (hi : ∀ m fin, memCode slide i m fin = none) (ho : other i = false)
    (hcall : cfg.callFunction = none) (start : BitVec 64) (len : Nat) (m : St) (mem : VMem) :
    ((lift cfg slide i start len (setMem mem m)).map (·.st)) =
      ((lift cfg slide i start len m).map (·.st)).map (setMem mem) := by
  have key : ∀ f : St → Option St, (∀ m, f (setMem mem m) = (f m).map (setMem mem)) →
      (((f { setMem mem m with pc := .const start }).map fun m =>
        ({ st := { m with pc := .const (start + BitVec.ofNat 64 len) } } : Out)).map (·.st)) =
      (((f { m with pc := .const start }).map fun m =>
        ({ st := { m with pc := .const (start + BitVec.ofNat 64 len) } } : Out)).map (·.st)).map (setMem mem) := by
    intro f hf
    rw [show f { setMem mem m with pc := .const start } = (f { m with pc := .const start }).map (setMem mem) from
      hf { m with pc := .const start }]
    cases f { m with pc := .const start } <;> rfl
  cases i with
  | adr rd off => exact key (fun m => some (m.set rd (m.pc.get slide off))) fun m => congrArg some (set_setMem _ _ _ _)
  | adrp rd off => exact key (fun m => some (m.set rd
      (IR.add (IR.and (m.pc.get slide 0) (some (~~~ 4095#64))) (some off)))) fun m => congrArg some (set_setMem _ _ _ _)
  | bin op w32 sf inv rd rn rhs =>
    refine key (fun m => liftBin cfg m op (W w32) sf inv rd rn rhs) fun m => ?_
    unfold liftBin
    rw [show rhsVal (setMem mem m) (W w32) rhs = rhsVal m (W w32) rhs by cases rhs <;> rfl]
    cases rhsVal m (W w32) rhs with
    | none => rfl
    | some r =>
      simp only [Option.bind_some, get_setMem, set_setMem]
      cases sf
      · rfl
      · simp only [if_true]
        cases op <;> first
          | rfl
          | exact congrArg some (flagAdd_setMem _ _ _ _ _ _)
  | movk w32 rd imm lsl => exact key (fun m => some (liftMovk m (W w32) rd imm lsl)) fun m => congrArg some (set_setMem _ _ _ _)
  | movImm w32 rd imm => exact key (fun m => some (m.set rd (some (imm.setWidth (W w32))))) fun m => congrArg some (set_setMem _ _ _ _)
  | movReg w32 rd rm => exact key (fun m => some (m.set rd (m.get (W w32) rm))) fun m => congrArg some (set_setMem _ _ _ _)
  | shiftImm sh w32 rd rn a =>
    refine key (fun m => (shift (m.get (W w32) rn) sh a).map fun v => m.set rd v) fun m => ?_
    simp only [Option.map_map, set_setMem]; rfl
  | bf k w32 rd rn lsb width =>
    refine key (fun m => some (liftBf m k (W w32) rd rn lsb width)) fun m => ?_
    cases k <;> exact congrArg some (set_setMem _ _ _ _)
  | bfc w32 rd lsb width => exact key (fun m => some (liftBfc m (W w32) rd lsb width)) fun m => congrArg some (set_setMem _ _ _ _)
  | extend w32 rd rn e =>
    refine key (fun m => (Verif.A64.extend (m.get (W w32) rn) (W w32) e 0).map fun v => m.set rd v) fun m => ?_
    simp only [Option.map_map, set_setMem]; rfl
  | extr w32 rd rn rm lsb =>
    exact key (fun m => some (liftExtr m (W w32) rd rn rm lsb)) fun m => congrArg some (set_setMem _ _ _ _)
  | bcond c off => cases c <;> rfl
  | hint => rfl
  | msr sys rt => cases sys <;> rfl
  | mrs sys rt => cases sys <;> cases rt <;> rfl
  | cfinv => rfl
  | b off => rfl
  | br rn => rfl
  | bl off =>
    simp only [lift, liftCall, hcall, clobber]
    split <;> rfl
  | blr rn =>
    simp only [lift, liftCall, hcall, clobber]
    split <;> rfl
  | ret rn => simp only [lift, liftRet, clobber]; split <;> rfl
  | cbz nz w32 rt off => rfl
  | tbz nz w32 rt bit off => simp only [lift]; split <;> rfl
  | div signed w32 rd rn rm =>
    refine key (fun m => if signed then liftSdiv m (W w32) rd rn rm else liftUdiv m (W w32) rd rn rm) fun m => ?_
    cases signed
    · simp only [Bool.false_eq_true, if_false, liftUdiv, Option.map_map, set_setMem]; rfl
    · simp only [if_true, liftSdiv, Option.map_map, set_setMem]; rfl
  | shiftReg sh w32 rd rn rm => exact key (fun m => some (liftShiftReg m sh (W w32) rd rn rm)) fun m => congrArg some (set_setMem _ _ _ _)
  | unary k w32 rd rn => exact key (fun m => some (m.set rd (unaryVal k w32 (m.get (W w32) rn)))) fun m => congrArg some (set_setMem _ _ _ _)
  | adc sub w32 sf rd rn rm =>
    refine key (fun m => some (liftAdc cfg m sub (W w32) sf rd rn rm)) fun m => ?_
    simp only [liftAdc, get_setMem, set_setMem, Option.map_some]
    cases sf
    · rfl
    · cases sub
      · exact congrArg some (flagAdd_setMem _ _ _ _ _ _)
      · rfl
  | ccmp ccmn w32 rn rhs c nzcv =>
    refine key (fun m => some (liftCcmp cfg m ccmn (W w32) rn rhs c nzcv)) fun m => ?_
    simp only [liftCcmp, Option.map_some]
    cases ccmn
    · cases rhs <;> rfl
    · cases rhs <;> (simp only [if_true, flagAdd_setMem]; rfl)
  | csel k w32 rd rn rm c => exact key (fun m => some (liftCsel m k (W w32) rd rn rm c)) fun m => congrArg some (set_setMem _ _ _ _)
  | mul w32 rd rn rm => exact key (fun m => some (m.set rd (IR.mul (m.get (W w32) rn) (m.get (W w32) rm)))) fun m => congrArg some (set_setMem _ _ _ _)
  | madd sub w32 rd rn rm ra => exact key (fun m => some (m.set rd (if sub then IR.sub (m.get (W w32) ra) (IR.mul (m.get (W w32) rn) (m.get (W w32) rm))
      else IR.add (m.get (W w32) ra) (IR.mul (m.get (W w32) rn) (m.get (W w32) rm))))) fun m => congrArg some (set_setMem _ _ _ _)
  | maddl sub signed rd rn rm ra => exact key (fun m => some (m.set rd (mulAddSub sub signed (m.get 64 ra) (m.get 32 rn) (m.get 32 rm)))) fun m => congrArg some (set_setMem _ _ _ _)
  | mulh signed rd rn rm => exact key (fun m => some (m.set rd (trunc 64 (IR.lshr
      (mulAddSub false signed (some 0#64) (m.get 64 rn) (m.get 64 rm)) (some (BitVec.ofNat _ 64)))))) fun m => congrArg some (set_setMem _ _ _ _)
  | prfm prfop mode rn =>
    simp only [lift]
    split
    · rfl
    · refine key (fun m => some (addr slide m 1 rn mode).2) fun m => congrArg some ?_
      cases mode <;> first | rfl | exact set_setMem _ _ _ _
  | fcmp sz rn rm => exact key (fun m => sz.fpBits.map fun w => liftFcmp m w rn rm) fun m => by cases sz.fpBits <;> cases rm <;> rfl
  | fccmp sz rn rm c nzcv => cases sz <;> rfl
  | fcsel sz rd rn rm c => rfl
  | fmovToGp _ sz rd rn => exact key (fun m => some (m.set rd (m.getV rn (8 * sz.bytes)))) fun m => congrArg some (set_setMem _ _ _ _)
  | fmovFromGp w32 _ rd rn => rfl
  | fmovTopToGp _ rd rn => exact key (fun m => some (m.set rd (trunc 64 (IR.lshr (m.vec rn) (some 64#128))))) fun m => congrArg some (set_setMem _ _ _ _)
  | fmovGpToTop rd rn => rfl
  | fmovReg sz rd rn => rfl
  | fabs sz rd rn => exact key (fun m => sz.fpBits.map fun w => m.setV rd (IR.fabs (m.getV rn w))) fun m => by cases sz.fpBits <;> rfl
  | fneg sz rd rn => exact key (fun m => sz.fpBits.map fun w => m.setV rd (IR.fneg (m.getV rn w))) fun m => by cases sz.fpBits <;> rfl
  | simd i =>
    simp only [lift]
    split
    · exact key (fun m => i.lift m) fun m => simd_setMem m mem i ho
    · rfl
  | fpu i =>
    simp only [lift]
    split
    · exact key (fun m => i.lift m) fun m => fpu_setMem m mem i
    · rfl
  | unknown => rfl
  | dczva rt => cases ho
  | svc => cases ho
  | _ => cases hi m .done

end Verif.Conc.A64
