import Verif.A64.Props
import Verif.Lift.Model

/-!
What the AArch64 lifter knows when it generates code: whether an instruction can be lifted, the mode
of the program counter after it, and the registers it writes.  The theorems show that the generated
code agrees with it in every state.  Line numbers refer to /repo/src/a64/main.cc.
-/

namespace Verif.A64

set_option linter.unusedSimpArgs false
set_option linter.constructorNameAsVariable false

open Verif.IR Verif.Lift

/-- Does `Lift` return true?  268-351 (system registers), 908-909 (`unhandled`). -/
def handled : Instr → Bool
  | .msr .other _ | .msr .dczid _ | .msr .midr _ | .mrs .other _ | .unknown => false
  | .simd i => i.handled
  | .fpu i => i.handled
  | _ => true

/-- Mode of the program counter after the code of an instruction; 225-242, 354-410, 904-910. -/
def form (callFn : Bool) (i : Instr) (start stop : BitVec 64) : Form :=
  match i with
  | .bcond _ off | .cbz _ _ _ off | .tbz _ _ _ _ off => .cond (start + off) stop
  | .svc => .value
  | .b off => .const (start + off)
  | .br _ => .value
  | .bl off => if callFn then .check stop else .const (start + off)
  | .blr _ => if callFn then .check stop else .value
  | .ret _ => if callFn then .returned else .value
  | _ => if handled i then .const stop else .value

/-- Base register of the modes with write-back, 1141-1153. -/
def wbReg : AM → Reg → List Reg
  | .pre _, rn | .post _, rn => [rn]
  | _, _ => []

/-- Base register of the post-index modes of the SIMD loads and stores, /repo/src/a64/simd.cc:1703-1726. -/
def postReg (post : Post) (rn : Reg) : List Reg := if post.isSome then [rn] else []

/-- Registers passed to `SetGp` by SIMD instructions. -/
def Simd.gpOuts : Simd → List Reg
  | .mov _ _ _ rd _ _ => [rd]
  | .ld1 _ _ _ rn post | .ldN _ _ _ rn post | .ldSingle _ _ _ _ rn post | .ldR _ _ _ rn post
  | .st1 _ _ _ rn post | .stN _ _ _ rn post | .stSingle _ _ _ _ rn post => postReg post rn
  | _ => []

/-- SIMD&FP registers written by SIMD instructions. -/
def Simd.vecOuts : Simd → List (Fin 32)
  | .three _ _ _ _ rd _ _ | .two _ _ _ rd _ | .shlImm _ _ rd _ _ | .shr _ _ _ _ rd _ _ | .sra _ _ _ _ rd _ _
  | .shll _ _ rd _ _ | .shrn _ _ rd _ _ | .xtn _ rd _ | .long _ _ _ rd _ _ | .longElem _ _ _ rd _ _ _
  | .wide _ _ _ rd _ _ | .mulElem _ _ rd _ _ _ | .pair _ _ _ rd _ _ | .addp rd _ | .addlp _ _ _ rd _
  | .across _ _ _ rd _ | .immOp _ _ rd _ | .movi _ _ rd _ | .dupElem _ _ rd _ _ | .dupGpr _ _ rd _
  | .ext _ rd _ _ _ | .insElem _ rd _ _ _ | .insGpr _ _ rd _ _ | .tbl _ _ _ rd _ _ | .uzp _ _ rd _ _
  | .zip _ _ rd _ _ | .rev _ _ rd _ => [rd]
  | .ld1 k _ rt _ _ | .ldN k _ rt _ _ | .ldSingle k _ rt _ _ _ | .ldR k _ rt _ _ => (List.range k).map (vreg rt)
  | .mov .. | .st1 .. | .stN .. | .stSingle .. => []

/-- Registers passed to `SetGp` by floating-point instructions. -/
def Fpu.gpOuts : Fpu → List Reg
  | .toGp _ _ _ _ _ rd _ => [rd]
  | _ => []

/-- SIMD&FP registers written by floating-point instructions. -/
def Fpu.vecOuts : Fpu → List (Fin 32)
  | .bin _ _ rd _ _ | .sqrt _ rd _ | .madd _ _ _ rd _ _ _ | .rint _ _ _ rd _ | .cvt _ _ rd _
  | .ofGp _ _ _ _ rd _ | .movImm _ rd _ | .vbin _ _ rd _ _ | .vsqrt _ rd _ | .vrint _ _ _ rd _
  | .vacc _ _ rd _ _ | .elem _ _ _ rd _ _ _ | .toInt _ _ _ _ _ rd _ | .ofInt _ _ _ _ rd _ | .cvtn _ rd _
  | .cvtl _ rd _ | .pair _ _ rd _ _ | .addp _ rd _ | .across _ _ rd _ | .vmovImm _ rd _ => [rd]
  | .toGp .. => []

/-- Registers passed to `SetGp`. -/
def gpOuts : Instr → List Reg
  | .adr rd _ | .adrp rd _ | .bin _ _ _ _ rd _ _ | .movk _ rd _ _ | .movImm _ rd _ | .movReg _ rd _
  | .shiftImm _ _ rd _ _ | .bf _ _ rd _ _ _ | .bfc _ rd _ _ | .extend _ rd _ _ | .extr _ rd _ _ _
  | .mrs _ rd | .div _ _ rd _ _ | .shiftReg _ _ rd _ _ | .unary _ _ rd _ | .adc _ _ _ rd _ _
  | .csel _ _ rd _ _ _ | .mul _ rd _ _ | .madd _ _ rd _ _ _ | .maddl _ _ rd _ _ _ | .mulh _ rd _ _
  | .fmovToGp _ _ rd _ | .fmovTopToGp _ rd _ => [rd]
  | .bl _ | .blr _ => [.x 30]
  | .ldr _ _ mode _ rt rn => rt :: wbReg mode rn
  | .ldp _ _ mode _ rt rt2 rn => rt :: rt2 :: wbReg mode rn
  | .str _ _ mode _ excl _ rn | .stp _ _ mode _ excl _ _ rn => excl.toList ++ wbReg mode rn
  | .prfm _ mode rn | .ldrFp _ mode _ rn | .ldpFp _ mode _ _ rn | .strFp _ mode _ rn
  | .stpFp _ mode _ _ rn => wbReg mode rn
  | .simd i => i.gpOuts
  | .fpu i => i.gpOuts
  | _ => []

/-- SIMD&FP registers written. -/
def vecOuts : Instr → List (Fin 32)
  | .ldrFp _ _ rt _ => [rt]
  | .ldpFp _ _ rt rt2 _ => [rt, rt2]
  | .fcsel _ rd _ _ _ | .fmovFromGp _ _ rd _ | .fmovGpToTop rd _ | .fmovReg _ rd _ | .fabs _ rd _
  | .fneg _ rd _ => [rd]
  | .simd i => i.vecOuts
  | .fpu i => i.vecOuts
  | _ => []

/-- Flags passed to `SetFlag` or `SetFlagUndef`. -/
def flOut (clobberFlags : Bool) : Instr → Flag → Bool
  | .bin _ _ sf _ _ _ _, _ => sf
  | .adc _ _ sf _ _ _, _ => sf
  | .msr .nzcv _, _ => true
  | .cfinv, f => f == .c
  | .ccmp .., _ | .fcmp .., _ | .fccmp .., _ => true
  | .bl _, _ | .blr _, _ | .ret _, _ => clobberFlags
  | _, _ => false

/-- Frame condition: `s'` agrees with `s` outside the given registers. -/
def Fr (G : Fin 32 → Prop) (Vc : Fin 32 → Prop) (F : Flag → Prop) (s s' : St) : Prop :=
  (∀ k, ¬ G k → s'.gp k = s.gp k) ∧ (∀ k, ¬ Vc k → s'.vec k = s.vec k) ∧ (∀ f, ¬ F f → s'.fl f = s.fl f)

section
variable {G Vc : Fin 32 → Prop} {F : Flag → Prop} {s s' s'' : St}

theorem fr_refl : Fr G Vc F s s := ⟨fun _ _ => rfl, fun _ _ => rfl, fun _ _ => rfl⟩

theorem fr_trans (h1 : Fr G Vc F s s') (h2 : Fr G Vc F s' s'') : Fr G Vc F s s'' :=
  ⟨fun k h => (h2.1 k h).trans (h1.1 k h), fun k h => (h2.2.1 k h).trans (h1.2.1 k h),
    fun k h => (h2.2.2 k h).trans (h1.2.2 k h)⟩

theorem fr_set {r : Reg} {w : Nat} {v : Val w} (hr : ∀ k, r.idx = some k → G k)
    (h : Fr G Vc F s s') : Fr G Vc F s (s'.set r v) := by
  refine fr_trans h ?_
  unfold St.set
  cases hi : r.idx with
  | none => exact fr_refl
  | some i =>
    refine ⟨fun k hk => ?_, fun _ _ => rfl, fun _ _ => rfl⟩
    simp only
    rw [if_neg]
    rintro rfl
    exact hk (hr _ hi)

theorem fr_setF {f : Flag} {v : Val 1} (hf : F f) (h : Fr G Vc F s s') :
    Fr G Vc F s (s'.setF f v) := by
  refine fr_trans h ⟨fun _ _ => rfl, fun _ _ => rfl, fun k hk => ?_⟩
  simp only [St.setF]
  rw [if_neg]
  rintro rfl
  exact hk hf

theorem fr_setV {r : Fin 32} {w : Nat} {v : Val w} (hr : Vc r) (h : Fr G Vc F s s') :
    Fr G Vc F s (s'.setV r v) := by
  refine fr_trans h ⟨fun _ _ => rfl, fun k hk => ?_, fun _ _ => rfl⟩
  simp only [St.setV]
  rw [if_neg]
  rintro rfl
  exact hk hr

theorem fr_insTop {r : Fin 32} {v : Val 64} (hr : Vc r) (h : Fr G Vc F s s') :
    Fr G Vc F s (s'.insTop r v) := by
  refine fr_trans h ⟨fun _ _ => rfl, fun k hk => ?_, fun _ _ => rfl⟩
  simp only [St.insTop]
  rw [if_neg]
  rintro rfl
  exact hk hr

theorem fr_flagAdd {cfg : Cfg} {w : Nat} {a b c : Val w} (hF : ∀ f, F f) (h : Fr G Vc F s s') :
    Fr G Vc F s (flagAdd cfg s' a b c) := by
  unfold flagAdd
  simp only
  split <;> exact fr_setF (hF _) (fr_setF (hF _) (fr_setF (hF _) (fr_setF (hF _) h)))

theorem fr_flagSub {w : Nat} {a b c : Val w} (hF : ∀ f, F f) (h : Fr G Vc F s s') :
    Fr G Vc F s (flagSub s' a b c) :=
  fr_setF (hF _) (fr_setF (hF _) (fr_setF (hF _) (fr_setF (hF _) h)))

theorem fr_flagLogic {w : Nat} {a : Val w} (hF : ∀ f, F f) (h : Fr G Vc F s s') :
    Fr G Vc F s (flagLogic s' a) :=
  fr_setF (hF _) (fr_setF (hF _) (fr_setF (hF _) (fr_setF (hF _) h)))

theorem fr_flagFp {w : Nat} {a b : Val w} (hF : ∀ f, F f) (h : Fr G Vc F s s') :
    Fr G Vc F s (flagFp s' a b) :=
  fr_setF (hF _) (fr_setF (hF _) (fr_setF (hF _) (fr_setF (hF _) h)))

theorem fr_ccmpSel {m0 : St} {c : Cond} {n : BitVec 4} (hF : ∀ f, F f) (h : Fr G Vc F s s') :
    Fr G Vc F s (ccmpSel m0 s' c n) :=
  fr_setF (hF _) (fr_setF (hF _) (fr_setF (hF _) (fr_setF (hF _) h)))

theorem fr_pc {p : Pc} (h : Fr G Vc F s s') : Fr G Vc F s { s' with pc := p } := h

theorem fr_mem {μ : VMem} (h : Fr G Vc F s s') : Fr G Vc F s { s' with mem := μ } := h

theorem fr_tpidr {v : Val 64} (h : Fr G Vc F s s') : Fr G Vc F s { s' with tpidr := v } := h

theorem fr_clobber {cfg : Cfg} (hF : cfg.clobberFlags = true → ∀ f, F f) (h : Fr G Vc F s s') :
    Fr G Vc F s (clobber cfg s') := by
  unfold clobber
  split
  next hc => exact fr_trans h ⟨fun _ _ => rfl, fun _ _ => rfl, fun k hk => absurd (hF hc k) hk⟩
  · exact h

theorem fr_addr {slide : BitVec 64} {n : Nat} {rn : Reg} {mode : AM}
    (hG : ∀ r ∈ wbReg mode rn, ∀ k, r.idx = some k → G k) (h : Fr G Vc F s s') :
    Fr G Vc F s (addr slide s' n rn mode).2 := by
  cases mode <;> simp only [addr] <;> first
    | exact h
    | exact fr_set (hG rn List.mem_cons_self) h

theorem fr_store {n al : Nat} {a : Val 64} {v : Val (8 * n)} (h : Fr G Vc F s s')
    (hs : store s' a n al v = some s'') : Fr G Vc F s s'' := by
  unfold store at hs
  split at hs
  · cases hs
  · split at hs
    · cases hs; exact h
    · cases hs

theorem fr_storeGp {rt : Reg} {w : Nat} {e : Ext} {mo : Bool} {a : Val 64} (h : Fr G Vc F s s')
    (hs : storeGp s' rt w e mo a = some s'') : Fr G Vc F s s'' := by
  unfold storeGp at hs
  split at hs
  · exact fr_store h hs
  · cases hs

theorem fr_loadGp {rt : Reg} {w : Nat} {e : Ext} {mo : Bool} {a : Val 64} (hr : ∀ k, rt.idx = some k → G k)
    (h : Fr G Vc F s s') (hs : loadGp s' rt w e mo a = some s'') : Fr G Vc F s s'' := by
  unfold loadGp at hs
  obtain ⟨v, -, hs⟩ := Option.bind_eq_some_iff.1 hs
  obtain ⟨v, -, rfl⟩ := Option.map_eq_some_iff.1 hs
  exact fr_set hr h

theorem fr_setStatus {w : Nat} {excl : Option Reg} (hG : ∀ r ∈ excl.toList, ∀ k, r.idx = some k → G k)
    (h : Fr G Vc F s s') : Fr G Vc F s (setStatus s' w excl) := by
  cases excl with
  | none => exact h
  | some r => exact fr_set (hG r (by simp)) h

theorem fr_storeAt {n k : Nat} {a : Val 64} {v : Val (8 * n)} (h : Fr G Vc F s s')
    (hs : storeAt s' a n k v = some s'') : Fr G Vc F s s'' := fr_store h hs

theorem fr_simdAddr {rn : Reg} {post : Post} (hG : ∀ r ∈ postReg post rn, ∀ k, r.idx = some k → G k)
    (h : Fr G Vc F s s') : Fr G Vc F s (simdAddr s' rn post).2 := by
  cases post with
  | none => exact h
  | some p => exact fr_set (hG rn (by simp [postReg])) h

theorem fr_foldl {f : St → Nat → St} (k : Nat) (hf : ∀ x j, j < k → Fr G Vc F s x → Fr G Vc F s (f x j))
    (h : Fr G Vc F s s') : Fr G Vc F s ((List.range k).foldl f s') := by
  induction k with
  | zero => exact h
  | succ k ih =>
    rw [List.range_succ, List.foldl_append]
    exact hf _ k (by omega) (ih fun x j hj => hf x j (by omega))

theorem fr_foldlM {f : St → Nat → Option St} (k : Nat) {s'' : St}
    (hf : ∀ x j y, j < k → Fr G Vc F s x → f x j = some y → Fr G Vc F s y)
    (h : Fr G Vc F s s') (he : (List.range k).foldlM f s' = some s'') : Fr G Vc F s s'' := by
  induction k generalizing s'' with
  | zero => cases he; exact h
  | succ k ih =>
    rw [List.range_succ, List.foldlM_append] at he
    obtain ⟨x, h1, h2⟩ := Option.bind_eq_some_iff.1 he
    have hx := ih (fun x j y hj => hf x j y (by omega)) h1
    rw [List.foldlM_cons] at h2
    obtain ⟨y, h3, h4⟩ := Option.bind_eq_some_iff.1 h2
    cases h4
    exact hf x k _ (by omega) hx h3

theorem fr_insHalf {va : VA} {r : Fin 32} {v : Vec va.w} (hr : Vc r) (h : Fr G Vc F s s') :
    Fr G Vc F s (s'.insHalf va r v) := by
  unfold St.insHalf
  split <;> exact fr_setV hr h

/-- A SIMD instruction changes no other registers. -/
theorem fr_simd {i : Simd} (hG : ∀ r ∈ i.gpOuts, ∀ k, r.idx = some k → G k) (hV : ∀ r ∈ i.vecOuts, Vc r)
    (hs : i.lift s = some s') : Fr G Vc F s s' := by
  have b : Fr G Vc F s s := fr_refl
  cases i <;> simp only [Simd.gpOuts, Simd.vecOuts] at hG hV <;> simp only [Simd.lift] at hs
  case three =>
    cases hs; unfold liftThree; split <;> exact fr_setV (hV _ List.mem_cons_self) b
  case two =>
    cases hs; unfold liftTwo; split <;> exact fr_setV (hV _ List.mem_cons_self) b
  case shlImm =>
    cases hs; unfold liftShlImm; simp only; split <;> exact fr_setV (hV _ List.mem_cons_self) b
  case shr =>
    cases hs; unfold liftShr; simp only; split <;> exact fr_setV (hV _ List.mem_cons_self) b
  case shrn =>
    obtain ⟨_, -, rfl⟩ := Option.map_eq_some_iff.1 hs
    exact fr_insHalf (hV _ List.mem_cons_self) b
  case xtn =>
    obtain ⟨_, -, rfl⟩ := Option.map_eq_some_iff.1 hs
    exact fr_insHalf (hV _ List.mem_cons_self) b
  case movi =>
    cases hs; unfold liftMovi; split <;> exact fr_setV (hV _ List.mem_cons_self) b
  case dupElem =>
    cases hs; unfold liftDupElem; split <;> exact fr_setV (hV _ List.mem_cons_self) b
  case mov =>
    unfold liftMov at hs
    split at hs
    · cases hs; exact fr_set (hG _ List.mem_cons_self) b
    · cases hs
  case tbl =>
    unfold liftTbl at hs
    split at hs
    · obtain ⟨_, -, rfl⟩ := Option.map_eq_some_iff.1 hs
      exact fr_setV (hV _ List.mem_cons_self) b
    · cases hs
  case ld1 k va rt rn post =>
    unfold liftLd1 at hs
    refine fr_foldlM k (fun x j y hj hx hy => ?_) (fr_simdAddr hG b) hs
    obtain ⟨_, -, rfl⟩ := Option.map_eq_some_iff.1 hy
    exact fr_setV (hV _ (List.mem_map.2 ⟨j, List.mem_range.2 hj, rfl⟩)) hx
  case ldN k va rt rn post =>
    unfold liftLdN at hs
    split at hs
    · obtain ⟨_, -, rfl⟩ := Option.map_eq_some_iff.1 hs
      exact fr_foldl k (fun x j hj hx => fr_setV (hV _ (List.mem_map.2 ⟨j, List.mem_range.2 hj, rfl⟩)) hx)
        (fr_simdAddr hG b)
    · cases hs
  case ldSingle k va rt idx rn post =>
    unfold liftLdSingle at hs
    obtain ⟨_, -, rfl⟩ := Option.map_eq_some_iff.1 hs
    exact fr_foldl k (fun x j hj hx => fr_setV (hV _ (List.mem_map.2 ⟨j, List.mem_range.2 hj, rfl⟩)) hx)
      (fr_simdAddr hG b)
  case ldR k va rt rn post =>
    unfold liftLdR at hs
    obtain ⟨_, -, rfl⟩ := Option.map_eq_some_iff.1 hs
    exact fr_foldl k (fun x j hj hx => fr_setV (hV _ (List.mem_map.2 ⟨j, List.mem_range.2 hj, rfl⟩)) hx)
      (fr_simdAddr hG b)
  case st1 k va rt rn post =>
    unfold liftSt1 at hs
    split at hs
    · exact fr_foldlM k (fun x j y hj hx hy => fr_storeAt hx hy) (fr_simdAddr hG b) hs
    · cases hs
  case stN k va rt rn post =>
    unfold liftStN at hs
    simp only at hs
    split at hs
    · obtain ⟨x, h1, h2⟩ := Option.bind_eq_some_iff.1 hs
      exact fr_storeAt (fr_storeAt (fr_simdAddr hG b) h1) h2
    · exact fr_store (fr_simdAddr hG b) hs
    · exact fr_store (fr_simdAddr hG b) hs
    · cases hs
  case stSingle k va rt idx rn post =>
    unfold liftStSingle at hs
    exact fr_foldlM k (fun x j y hj hx hy => fr_storeAt hx hy) (fr_simdAddr hG b) hs
  all_goals first
    | (cases hs; exact fr_setV (hV _ List.mem_cons_self) b)
    | (obtain ⟨_, -, rfl⟩ := Option.map_eq_some_iff.1 hs; exact fr_setV (hV _ List.mem_cons_self) b)

theorem ifFp_some {va : VA} {x y : St} (h : ifFp va x = some y) : x = y := by
  unfold ifFp at h
  split at h <;> cases h
  rfl

/-- A floating-point instruction changes no other registers. -/
theorem fr_fpu {i : Fpu} (hG : ∀ r ∈ i.gpOuts, ∀ k, r.idx = some k → G k) (hV : ∀ r ∈ i.vecOuts, Vc r)
    (hs : i.lift s = some s') : Fr G Vc F s s' := by
  have b : Fr G Vc F s s := fr_refl
  cases i <;> simp only [Fpu.gpOuts, Fpu.vecOuts] at hG hV <;> simp only [Fpu.lift] at hs
  case rint =>
    obtain ⟨_, -, hs⟩ := Option.bind_eq_some_iff.1 hs
    obtain ⟨_, -, rfl⟩ := Option.map_eq_some_iff.1 hs
    exact fr_setV (hV _ List.mem_cons_self) b
  case toGp =>
    obtain ⟨_, -, hs⟩ := Option.bind_eq_some_iff.1 hs
    obtain ⟨_, -, rfl⟩ := Option.map_eq_some_iff.1 hs
    exact fr_set (hG _ List.mem_cons_self) b
  case cvt dbl sz rd rn =>
    cases dbl <;> cases sz <;> simp only [liftCvt] at hs <;> cases hs <;> exact fr_setV (hV _ List.mem_cons_self) b
  case cvtn =>
    obtain ⟨_, -, rfl⟩ := Option.map_eq_some_iff.1 hs
    exact fr_insHalf (hV _ List.mem_cons_self) b
  case vbin =>
    split at hs
    · cases hs
    · rw [← ifFp_some hs]; exact fr_setV (hV _ List.mem_cons_self) b
  case vrint =>
    obtain ⟨_, -, hs⟩ := Option.bind_eq_some_iff.1 hs
    rw [← ifFp_some hs]; exact fr_setV (hV _ List.mem_cons_self) b
  case elem =>
    rw [← ifFp_some hs]; split <;> exact fr_setV (hV _ List.mem_cons_self) b
  case toInt =>
    obtain ⟨_, -, hs⟩ := Option.bind_eq_some_iff.1 hs
    rw [← ifFp_some hs]; split <;> exact fr_setV (hV _ List.mem_cons_self) b
  case ofInt =>
    rw [← ifFp_some hs]; split <;> exact fr_setV (hV _ List.mem_cons_self) b
  case pair =>
    split at hs
    · rw [← ifFp_some hs]; exact fr_setV (hV _ List.mem_cons_self) b
    · cases hs
  case across =>
    split at hs
    · rw [← ifFp_some hs]; exact fr_setV (hV _ List.mem_cons_self) b
    · cases hs
  all_goals first
    | (obtain ⟨_, -, rfl⟩ := Option.map_eq_some_iff.1 hs; exact fr_setV (hV _ List.mem_cons_self) b)
    | (rw [← ifFp_some hs]; exact fr_setV (hV _ List.mem_cons_self) b)

end

/-- Frame condition of an instruction. -/
abbrev FrI (cl : Bool) (i : Instr) (s s' : St) : Prop :=
  Fr (fun k => ∃ r ∈ gpOuts i, r.idx = some k) (fun k => k ∈ vecOuts i)
    (fun f => flOut cl i f = true) s s'

theorem okM {x : Option St} {stop : BitVec 64} {o : Out}
    (h : x.map (fun m => ({ st := { m with pc := .const stop } } : Out)) = some o) :
    ∃ s', x = some s' ∧ o.lifted = true ∧ o.returned = false ∧ formOf o.st.pc = .const stop ∧
      o.st = { s' with pc := .const stop } := by
  obtain ⟨s', h1, rfl⟩ := Option.map_eq_some_iff.1 h
  exact ⟨s', h1, rfl, rfl, rfl, rfl⟩

/-- The code generated for one instruction, without call and system call functions, agrees with the
static knowledge. -/
theorem lift_static {cfg : Cfg} {slide : BitVec 64} {i : Instr} {start : BitVec 64} {len : Nat}
    {s : St} {o : Out} (hc : cfg.callFunction = none) (hsy : cfg.syscall = none)
    (h : lift cfg slide i start len s = some o) :
    o.lifted = handled i ∧ o.returned = false ∧
      formOf o.st.pc = form false i start (start + BitVec.ofNat 64 len) ∧
      FrI cfg.clobberFlags i s o.st := by
  have plain : ∀ {x : Option St}, handled i = true →
      form false i start (start + BitVec.ofNat 64 len) = .const (start + BitVec.ofNat 64 len) →
      x.map (fun m => ({ st := { m with pc := .const (start + BitVec.ofNat 64 len) } } : Out)) = some o →
      (∀ s', x = some s' → FrI cfg.clobberFlags i { s with pc := .const start } s') →
      o.lifted = handled i ∧ o.returned = false ∧
      formOf o.st.pc = form false i start (start + BitVec.ofNat 64 len) ∧
      FrI cfg.clobberFlags i s o.st := by
    intro x h1 h2 h3 h4
    obtain ⟨s', hs', a, b, c, d⟩ := okM h3
    refine ⟨a.trans h1.symm, b, c.trans h2.symm, ?_⟩
    rw [d]
    exact h4 s' hs'
  have base : FrI cfg.clobberFlags i { s with pc := .const start } { s with pc := .const start } := fr_refl
  cases i <;> simp only [lift] at h
  case bin op w32 sf inv rd rn rhs =>
    refine plain rfl rfl h fun s' hs => ?_
    unfold liftBin at hs
    obtain ⟨r, -, hs⟩ := Option.bind_eq_some_iff.1 hs
    simp only at hs
    have h1 : ∀ {w : Nat} (v : Val w), FrI cfg.clobberFlags (.bin op w32 sf inv rd rn rhs)
        { s with pc := .const start } (St.set { s with pc := .const start } rd v) :=
      fun v => fr_set (fun k hk => ⟨rd, by simp [gpOuts], hk⟩) base
    cases sf with
    | false =>
      simp only [Bool.false_eq_true, if_false] at hs
      cases hs; exact h1 _
    | true =>
      simp only [if_true] at hs
      have hF : ∀ f, flOut cfg.clobberFlags (.bin op w32 true inv rd rn rhs) f = true := fun _ => rfl
      cases op <;> simp only [binFlags] at hs <;> cases hs
      · exact fr_flagLogic hF (h1 _)
      · exact fr_flagAdd hF (h1 _)
      · exact fr_flagSub hF (h1 _)
  case shiftImm sh w32 rd rn a =>
    refine plain rfl rfl h fun s' hs => ?_
    obtain ⟨v, -, rfl⟩ := Option.map_eq_some_iff.1 hs
    exact fr_set (fun k hk => ⟨rd, by simp [gpOuts], hk⟩) base
  case extend w32 rd rn e =>
    refine plain rfl rfl h fun s' hs => ?_
    obtain ⟨v, -, rfl⟩ := Option.map_eq_some_iff.1 hs
    exact fr_set (fun k hk => ⟨rd, by simp [gpOuts], hk⟩) base
  case bf k w32 rd rn lsb width =>
    refine plain rfl rfl h fun s' hs => ?_
    cases hs
    cases k <;> exact fr_set (fun k hk => ⟨rd, by simp [gpOuts], hk⟩) base
  case div signed w32 rd rn rm =>
    refine plain rfl rfl h fun s' hs => ?_
    split at hs
    · obtain ⟨q, -, rfl⟩ := Option.map_eq_some_iff.1 hs
      exact fr_set (fun k hk => ⟨rd, by simp [gpOuts], hk⟩) base
    · obtain ⟨q, -, rfl⟩ := Option.map_eq_some_iff.1 hs
      exact fr_set (fun k hk => ⟨rd, by simp [gpOuts], hk⟩) base
  case adr rd off =>
    refine plain rfl rfl h fun s' hs => ?_
    cases hs; exact fr_set (fun k hk => ⟨rd, by simp [gpOuts], hk⟩) base
  case adrp rd off =>
    refine plain rfl rfl h fun s' hs => ?_
    cases hs; exact fr_set (fun k hk => ⟨rd, by simp [gpOuts], hk⟩) base
  case movk w32 rd imm lsl =>
    refine plain rfl rfl h fun s' hs => ?_
    cases hs; exact fr_set (fun k hk => ⟨rd, by simp [gpOuts], hk⟩) base
  case movImm w32 rd imm =>
    refine plain rfl rfl h fun s' hs => ?_
    cases hs; exact fr_set (fun k hk => ⟨rd, by simp [gpOuts], hk⟩) base
  case movReg w32 rd rm =>
    refine plain rfl rfl h fun s' hs => ?_
    cases hs; exact fr_set (fun k hk => ⟨rd, by simp [gpOuts], hk⟩) base
  case bfc w32 rd lsb width =>
    refine plain rfl rfl h fun s' hs => ?_
    cases hs; exact fr_set (fun k hk => ⟨rd, by simp [gpOuts], hk⟩) base
  case extr w32 rd rn rm lsb =>
    refine plain rfl rfl h fun s' hs => ?_
    cases hs; exact fr_set (fun k hk => ⟨rd, by simp [gpOuts], hk⟩) base
  case shiftReg sh w32 rd rn rm =>
    refine plain rfl rfl h fun s' hs => ?_
    cases hs; exact fr_set (fun k hk => ⟨rd, by simp [gpOuts], hk⟩) base
  case unary k w32 rd rn =>
    refine plain rfl rfl h fun s' hs => ?_
    cases hs; exact fr_set (fun k hk => ⟨rd, by simp [gpOuts], hk⟩) base
  case csel k w32 rd rn rm c =>
    refine plain rfl rfl h fun s' hs => ?_
    cases hs; exact fr_set (fun k hk => ⟨rd, by simp [gpOuts], hk⟩) base
  case mul w32 rd rn rm =>
    refine plain rfl rfl h fun s' hs => ?_
    cases hs; exact fr_set (fun k hk => ⟨rd, by simp [gpOuts], hk⟩) base
  case madd sub w32 rd rn rm ra =>
    refine plain rfl rfl h fun s' hs => ?_
    cases hs; exact fr_set (fun k hk => ⟨rd, by simp [gpOuts], hk⟩) base
  case maddl sub sg rd rn rm ra =>
    refine plain rfl rfl h fun s' hs => ?_
    cases hs; exact fr_set (fun k hk => ⟨rd, by simp [gpOuts], hk⟩) base
  case mulh sg rd rn rm =>
    refine plain rfl rfl h fun s' hs => ?_
    cases hs; exact fr_set (fun k hk => ⟨rd, by simp [gpOuts], hk⟩) base
  case fmovToGp w32 sz rd rn =>
    refine plain rfl rfl h fun s' hs => ?_
    cases hs; exact fr_set (fun k hk => ⟨rd, by simp [gpOuts], hk⟩) base
  case fmovTopToGp w32 rd rn =>
    refine plain rfl rfl h fun s' hs => ?_
    cases hs; exact fr_set (fun k hk => ⟨rd, by simp [gpOuts], hk⟩) base
  case adc sub w32 sf rd rn rm =>
    refine plain rfl rfl h fun s' hs => ?_
    cases hs
    have h1 : ∀ {w : Nat} (v : Val w), FrI cfg.clobberFlags (.adc sub w32 sf rd rn rm)
        { s with pc := .const start } (St.set { s with pc := .const start } rd v) :=
      fun v => fr_set (fun k hk => ⟨rd, by simp [gpOuts], hk⟩) base
    unfold liftAdc
    simp only
    cases sf with
    | false => simp only [Bool.false_eq_true, if_false]; exact h1 _
    | true =>
      simp only [if_true]
      have hF : ∀ f, flOut cfg.clobberFlags (.adc sub w32 true rd rn rm) f = true := fun _ => rfl
      split
      · exact fr_flagSub hF (h1 _)
      · exact fr_flagAdd hF (h1 _)
  case ccmp ccmn w32 rn rhs c nzcv =>
    refine plain rfl rfl h fun s' hs => ?_
    cases hs
    have hF : ∀ f, flOut cfg.clobberFlags (.ccmp ccmn w32 rn rhs c nzcv) f = true := fun _ => rfl
    unfold liftCcmp
    refine fr_ccmpSel hF ?_
    split
    · exact fr_flagAdd hF base
    · exact fr_flagSub hF base
  case fcmp sz rn rm =>
    refine plain rfl rfl h fun s' hs => ?_
    obtain ⟨w, -, rfl⟩ := Option.map_eq_some_iff.1 hs
    exact fr_flagFp (fun _ => rfl) base
  case fccmp sz rn rm c nzcv =>
    refine plain rfl rfl h fun s' hs => ?_
    obtain ⟨w, -, rfl⟩ := Option.map_eq_some_iff.1 hs
    exact fr_ccmpSel (fun _ => rfl) (fr_flagFp (fun _ => rfl) base)
  case fcsel sz rd rn rm c =>
    refine plain rfl rfl h fun s' hs => ?_
    cases hs; exact fr_setV (by simp [vecOuts]) base
  case fmovFromGp w32 sz rd rn =>
    refine plain rfl rfl h fun s' hs => ?_
    cases hs; exact fr_setV (by simp [vecOuts]) base
  case fmovGpToTop rd rn =>
    refine plain rfl rfl h fun s' hs => ?_
    cases hs; exact fr_insTop (by simp [vecOuts]) base
  case fmovReg sz rd rn =>
    refine plain rfl rfl h fun s' hs => ?_
    cases hs; exact fr_setV (by simp [vecOuts]) base
  case fabs sz rd rn =>
    refine plain rfl rfl h fun s' hs => ?_
    obtain ⟨w, -, rfl⟩ := Option.map_eq_some_iff.1 hs
    exact fr_setV (by simp [vecOuts]) base
  case fneg sz rd rn =>
    refine plain rfl rfl h fun s' hs => ?_
    obtain ⟨w, -, rfl⟩ := Option.map_eq_some_iff.1 hs
    exact fr_setV (by simp [vecOuts]) base
  case hint => exact plain rfl rfl h fun s' hs => by cases hs; exact base
  case cfinv =>
    refine plain rfl rfl h fun s' hs => ?_
    cases hs; exact fr_setF (by simp [flOut]) base
  case dczva rt =>
    refine plain rfl rfl h fun s' hs => ?_
    unfold liftDczva at hs
    split at hs
    · cases hs
    · cases hs; exact base
  case dmb crm =>
    split at h
    · exact plain rfl rfl h fun s' hs => by cases hs; exact base
    · cases h
  case prfm prfop mode rn =>
    split at h
    · cases h
    · exact plain rfl rfl h fun s' hs => by
        cases hs; exact fr_addr (fun r hr k hk => ⟨r, hr, hk⟩) base
  case msr sys rt =>
    cases sys <;> simp only [liftMsr] at h
    case tpidr => exact plain rfl rfl h fun s' hs => by cases hs; exact base
    case fpcr => exact plain rfl rfl h fun s' hs => by cases hs; exact base
    case fpsr => exact plain rfl rfl h fun s' hs => by cases hs; exact base
    case nzcv => exact plain rfl rfl h fun s' hs => by
                  cases hs
                  exact fr_setF rfl (fr_setF rfl (fr_setF rfl (fr_setF rfl base)))
    all_goals cases h; exact ⟨rfl, rfl, rfl, base⟩
  case mrs sys rt =>
    cases sys <;> simp only [liftMrs] at h
    case other => cases h; exact ⟨rfl, rfl, rfl, base⟩
    all_goals exact plain rfl rfl h fun s' hs => by
                cases hs; exact fr_set (fun k hk => ⟨rt, by simp [gpOuts], hk⟩) base
  case simd j =>
    split at h
    next hh =>
      refine plain (by simp only [handled, hh]) (by simp only [form, handled, hh, if_true]) h fun s' hs => ?_
      exact fr_simd (fun r hr k hk => ⟨r, hr, hk⟩) (fun r hr => hr) hs
    next hh =>
      cases h
      exact ⟨by simp only [handled]; exact (Bool.eq_false_iff.2 hh).symm, rfl,
        by simp only [form, handled, hh]; rfl, base⟩
  case fpu j =>
    split at h
    next hh =>
      refine plain (by simp only [handled, hh]) (by simp only [form, handled, hh, if_true]) h fun s' hs => ?_
      exact fr_fpu (fun r hr k hk => ⟨r, hr, hk⟩) (fun r hr => hr) hs
    next hh =>
      cases h
      exact ⟨by simp only [handled]; exact (Bool.eq_false_iff.2 hh).symm, rfl,
        by simp only [form, handled, hh]; rfl, base⟩
  case unknown => cases h; exact ⟨rfl, rfl, rfl, base⟩
  case bcond c off => cases h; exact ⟨rfl, rfl, rfl, base⟩
  case b off => cases h; exact ⟨rfl, rfl, rfl, base⟩
  case br off => cases h; exact ⟨rfl, rfl, rfl, base⟩
  case cbz nz w32 rt off => cases h; exact ⟨rfl, rfl, rfl, base⟩
  case tbz nz w32 rt bit off =>
    split at h
    · cases h; exact ⟨rfl, rfl, rfl, base⟩
    · cases h
  case svc => rw [hsy] at h; cases h; exact ⟨rfl, rfl, rfl, base⟩
  case ret rn =>
    cases h
    refine ⟨rfl, by simp [liftRet, hc], rfl, ?_⟩
    exact fr_pc (fr_clobber (fun hcl f => by simp [flOut, hcl]) base)
  case bl off =>
    simp only [liftCall, hc, Option.map_some] at h
    cases h
    refine ⟨rfl, rfl, rfl, ?_⟩
    exact fr_pc (fr_set (fun k hk => ⟨.x 30, by simp [gpOuts], hk⟩)
      (fr_clobber (fun hcl f => by simp [flOut, hcl]) base))
  case blr rn =>
    simp only [liftCall, hc, Option.map_some] at h
    cases h
    refine ⟨rfl, rfl, rfl, ?_⟩
    exact fr_pc (fr_set (fun k hk => ⟨.x 30, by simp [gpOuts], hk⟩)
      (fr_clobber (fun hcl f => by simp [flOut, hcl]) base))
  case ldr w32 e mode mo rt rn =>
    refine plain rfl rfl h fun s' hs => ?_
    exact fr_loadGp (fun k hk => ⟨rt, by simp [gpOuts], hk⟩)
      (fr_addr (fun r hr k hk => ⟨r, by simp [gpOuts, hr], hk⟩) base) hs
  case ldp w32 e mode mo rt rt2 rn =>
    refine plain rfl rfl h fun s' hs => ?_
    obtain ⟨s1, h1, h2⟩ := Option.bind_eq_some_iff.1 hs
    exact fr_loadGp (fun k hk => ⟨rt, by simp [gpOuts], hk⟩)
      (fr_loadGp (fun k hk => ⟨rt2, by simp [gpOuts], hk⟩)
        (fr_addr (fun r hr k hk => ⟨r, by simp [gpOuts, hr], hk⟩) base) h1) h2
  case str w32 e mode mo excl rt rn =>
    refine plain rfl rfl h fun s' hs => ?_
    obtain ⟨s1, h1, rfl⟩ := Option.map_eq_some_iff.1 hs
    exact fr_setStatus (fun r hr k hk => ⟨r, List.mem_append_left _ hr, hk⟩)
      (fr_storeGp (fr_addr (fun r hr k hk => ⟨r, List.mem_append_right _ hr, hk⟩) base) h1)
  case stp w32 e mode mo excl rt rt2 rn =>
    refine plain rfl rfl h fun s' hs => ?_
    obtain ⟨s1, h1, h2⟩ := Option.bind_eq_some_iff.1 hs
    obtain ⟨s2, h3, rfl⟩ := Option.map_eq_some_iff.1 h2
    exact fr_setStatus (fun r hr k hk => ⟨r, List.mem_append_left _ hr, hk⟩)
      (fr_storeGp (fr_storeGp (fr_addr (fun r hr k hk => ⟨r, List.mem_append_right _ hr, hk⟩) base) h1) h3)
  case ldrFp sz mode rt rn =>
    refine plain rfl rfl h fun s' hs => ?_
    obtain ⟨v, -, rfl⟩ := Option.map_eq_some_iff.1 hs
    exact fr_setV (by simp [vecOuts]) (fr_addr (fun r hr k hk => ⟨r, hr, hk⟩) base)
  case ldpFp sz mode rt rt2 rn =>
    refine plain rfl rfl h fun s' hs => ?_
    obtain ⟨v, -, h2⟩ := Option.bind_eq_some_iff.1 hs
    obtain ⟨v, -, rfl⟩ := Option.map_eq_some_iff.1 h2
    exact fr_setV (by simp [vecOuts]) (fr_setV (by simp [vecOuts])
      (fr_addr (fun r hr k hk => ⟨r, hr, hk⟩) base))
  case strFp sz mode rt rn =>
    refine plain rfl rfl h fun s' hs => ?_
    exact fr_store (fr_addr (fun r hr k hk => ⟨r, hr, hk⟩) base) hs
  case stpFp sz mode rt rt2 rn =>
    refine plain rfl rfl h fun s' hs => ?_
    obtain ⟨s1, h1, h2⟩ := Option.bind_eq_some_iff.1 hs
    exact fr_store (fr_store (fr_addr (fun r hr k hk => ⟨r, hr, hk⟩) base) h1) h2

/-- The code of an instruction that cannot be lifted only points the program counter at it. -/
theorem lift_unhandled {cfg : Cfg} {slide : BitVec 64} {i : Instr} {start : BitVec 64} {len : Nat}
    {s : St} (h : handled i = false) :
    lift cfg slide i start len s = some { st := { s with pc := .value (some start) }, lifted := false } := by
  cases i <;> first | cases h | skip
  case msr sys rt => cases sys <;> first | rfl | cases h
  case mrs sys rt => cases sys <;> first | rfl | cases h
  case simd j =>
    have hj : ¬ j.handled = true := by simpa [handled] using h
    show (if j.handled = true then _ else _) = _
    rw [if_neg hj]
  case fpu j =>
    have hj : ¬ j.handled = true := by simpa [handled] using h
    show (if j.handled = true then _ else _) = _
    rw [if_neg hj]
  case unknown => rfl

end Verif.A64
