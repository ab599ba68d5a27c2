import Verif.Conc.X86Link

/-! The accesses of `xCode`, run without interruption, are those of `lift` in `Verif.X86.Model`; how many there are. -/

set_option linter.constructorNameAsVariable false

namespace Verif.Conc.X86

open Verif.IR Verif.X86

variable {slide : BitVec 64}

theorem popStore_setMem (m : St) (mem : VMem) (z : Sz) (r : Fin 16) (v : Val 64) :
    popStore slide (setMem mem m) z (.reg r) v = (popStore slide m z (.reg r) v).map (setMem mem) := by
  cases z <;> first | rfl | exact (opStore_setMem _ _ _ _ _ (by simp))

theorem foldl_setMem {α : Type} (f : St → α → St) (mem : VMem) (h : ∀ m x, f (setMem mem m) x = setMem mem (f m x)) (l : List α)
    (m : St) : l.foldl f (setMem mem m) = setMem mem (l.foldl f m) := by
  induction l generalizing m with
  | nil => rfl
  | cons x l ih => rw [List.foldl_cons, h, ih, List.foldl_cons]

theorem flagFromReg_setMem (m : St) (mem : VMem) {w : Nat} (v : Val w) :
    flagFromReg (setMem mem m) v = setMem mem (flagFromReg m v) := by
  refine foldl_setMem _ mem (fun m x => ?_) _ m
  split
  · rfl
  · obtain ⟨f, n⟩ := x
    cases f <;> rfl

theorem noAccess_run (cfg : Cfg) (i : Instr) (hi : noAccess i = true) (start : BitVec 64) (len : Nat) (m : St) (mem : VMem) :
    ((lift cfg slide i start len (setMem mem m)).map (·.st)) =
      ((lift cfg slide i start len m).map (·.st)).map (setMem mem) := by
  cases i with
  | nop => rfl
  | jmpRel => rfl
  | jcc c off => cases c <;> rfl
  | jcxz a _ => cases a <;> rfl
  | jmp s => cases s with
    | reg r => rfl
    | _ => cases hi
  | lea z d o => cases d with
    | reg r =>
      simp only [lift, liftLea]
      simp only [Option.map_map]
      refine (congrArg (Option.map _) (opStore_setMem { m with pc := .const (stopPc start len) } mem z (.reg _) _ (by simp))).trans ?_
      rw [Option.map_map]
      rfl
    | _ => cases hi
  | loop k a off => cases k <;> cases a <;> rfl
  | sahf =>
    simp only [lift, Option.map_some]
    exact congrArg some (flagFromReg_setMem { m with pc := .const (stopPc start len) } mem _)
  | cext z =>
    simp only [lift, liftCext, Option.map_some]
    exact congrArg some (store_setMem { m with pc := .const (stopPc start len) } mem _ _ _)
  | csep z =>
    simp only [lift, liftCsep, Option.map_some]
    exact congrArg some (store_setMem { m with pc := .const (stopPc start len) } mem _ _ _)
  | clc => rfl
  | stc => rfl
  | cmc => rfl
  | cld => rfl
  | std => rfl
  | lahf => rfl
  | rdtsc => rfl
  | cpuid => simp only [lift, liftCpuid]; cases cfg.cpuinfo <;> rfl
  | _ => cases hi

/-- Run without interruption, the accesses of the code of an instruction are those of `lift`. -/
theorem xCode_run (cfg : Cfg) (i : Instr) (hcall : cfg.callFunction = none) (start : BitVec 64) (len : Nat) (m : St) (c : Code St)
    (hc : xCode slide cfg i start len m = some c) (mem : VMem) :
    join (c.run mem) = (lift cfg slide i start len (setMem mem m)).map (·.st) := by
  unfold xCode at hc
  split at hc
  · rename_i hi
    cases hc
    rw [noAccess_run cfg i hi]
    cases lift cfg slide i start len m <;> rfl
  · have hst : ∀ x : Option St, (x.map fun m : St => ({ st := m } : Out)).map (·.st) = x := fun x => by cases x <;> rfl
    cases i with
    | mov z sz d s => cases hc; simp only [lift, hst]; exact join_mov _ _ _ _ _ _
    | arith k z lock d s => cases hc; simp only [lift, hst]; exact join_arith _ _ _ _ _ _ _ _
    | cmpxchg z lock d s => cases hc; simp only [lift, hst]; exact join_cmpxchg _ _ _ _ _ _
    | xchg z d s => cases hc; simp only [lift, hst]; exact join_xchg _ _ _ _ _
    | logic k z lock d s => cases hc; simp only [lift, hst]; exact join_logic _ _ _ _ _ _ _
    | not z lock d => cases hc; simp only [lift, hst]; exact join_not _ _ _ _ _
    | incdec dec z lock d => cases hc; simp only [lift, hst]; exact join_incdec _ _ _ _ _ _ _
    | cmov c z d s => cases hc; simp only [lift, hst]; exact join_cmov _ _ _ _ _ _
    | setcc c d => cases hc; simp only [lift, hst]; exact join_setcc _ _ _ _
    | bittest k z lock d s => cases hc; simp only [lift, hst]; exact join_bittest _ _ _ _ _ _ _
    | push z s =>
      cases hc
      simp only [lift, hst, Option.bind_eq_bind]
      refine join_opLoad _ z s false _ _ mem fun v => ?_
      exact (join_push _ z v _ _ mem resp_done).trans (Option.bind_fun_some _)
    | pop z d => cases d with
      | reg r =>
        cases hc
        simp only [lift, hst, Option.bind_eq_bind]
        refine join_pop _ _ _ _ mem fun v c mem => ?_
        rw [popStore_setMem]
        cases popStore slide c z (.reg r) v <;> rfl
      | _ => cases hc
    | callRel off =>
      cases hc
      simp only [lift, hst, liftCall, Option.bind_eq_bind, Option.bind_some, hcall]
      rw [show clobber cfg { setMem mem m with pc := .const (stopPc start len) } = setMem mem (clobber cfg { m with pc := .const (stopPc start len) }) from
        clobber_setMem cfg { m with pc := .const (stopPc start len) } mem]
      exact join_push _ _ _ _ _ mem fun c mem => rfl
    | ret pop =>
      cases hc
      simp only [lift, liftRet, Option.bind_eq_bind]
      rw [show clobber cfg { setMem mem m with pc := .const (stopPc start len) } = setMem mem (clobber cfg { m with pc := .const (stopPc start len) }) from
        clobber_setMem cfg { m with pc := .const (stopPc start len) } mem]
      refine (join_pop _ _ _ (fun p => some (match pop with
        | some n => ({ p.2 with pc := .value p.1 } : St).setGp rsp (IR.add (p.2.gp rsp) (some n))
        | none => { p.2 with pc := .value p.1 })) mem fun v c mem => ?_).trans ?_
      · cases pop <;> rfl
      · cases stackPop (setMem mem (clobber cfg { m with pc := .const (stopPc start len) })) with
        | none => rfl
        | some p => cases pop <;> rfl
    | movzx z sz d s => cases hc; simp only [lift, hst]; exact join_movzx _ _ _ _ _ _
    | movbe z d s => cases hc; simp only [lift, hst]; exact join_movbe _ _ _ _ _
    | bswap z d => cases hc; simp only [lift, hst]; exact join_movbe _ _ _ _ _
    | neg z lock d => cases hc; simp only [lift, hst]; exact join_neg _ _ _ _ _
    | shift k z d c => cases hc; simp only [lift, hst]; exact join_shift _ _ _ _ _ _
    | shiftd left z d s c => cases hc; simp only [lift, hst]; exact join_shiftd _ _ _ _ _ _ _
    | rotate left z d c => cases hc; simp only [lift, hst]; exact join_rotate _ _ _ _ _ _
    | mul1 signed z s => cases hc; simp only [lift, hst]; exact join_mul1 _ _ _ _ _ _
    | imul2 z d s t => cases hc; simp only [lift, hst]; exact join_imul2 _ _ _ _ _ _ _
    | div signed z s high => cases hc; simp only [lift, hst]; exact join_div _ _ _ _ _ _
    | xlat a32 _ => cases hc; simp only [lift, hst]; exact join_xlat _ _ _
    | bitscan trailing _ z d s => cases d with
      | reg r => cases hc; simp only [lift, hst]; exact join_bitscan _ _ _ _ _ _
      | _ => cases hc
    | popcnt z d s => cases hc; simp only [lift, hst]; exact join_popcnt _ _ _ _ _
    | jmp s =>
      cases hc
      simp only [lift, hst]
      refine (join_opLoad _ .q s true _ _ mem fun v => ?_).trans (Option.map_eq_bind ..).symm
      rfl
    | call s => cases hc; simp only [lift, hst]; exact join_call _ hcall _ _ _ _
    | pushf z => cases hc; simp only [lift, hst]; exact (join_push _ z _ _ _ mem resp_done).trans (Option.bind_fun_some _)
    | popf z =>
      cases hc
      simp only [lift, hst, Option.bind_eq_bind]
      refine join_pop _ _ _ _ mem fun v c mem => ?_
      rw [flagFromReg_setMem]
      rfl
    | leave => cases hc; simp only [lift, hst, Option.bind_eq_bind]; exact join_pop _ _ _ _ mem fun v c mem => rfl
    | ctl k o => cases hc; simp only [lift, hst]; exact join_ctl _ _ _ _
    | str k z rep _ _ => cases rep with
      | none => cases hc; simp only [lift, hst]; exact join_str _ _ _ _
      | _ => cases hc
    | sse i => cases i with
      | fence => cases hc; rfl
      | _ => cases hc
    | _ => cases hc

/-! ### Number of accesses -/

/-- At most `n` accesses and fences. -/
def atMost : Nat → Code St → Prop
  | _, .done _ | _, .ub => True
  | n + 1, .acc _ k => ∀ v, atMost n (k v)
  | n + 1, .fence _ k => atMost n k
  | 0, _ => False

theorem atMost_mono {n n' : Nat} (c : Code St) (h : n ≤ n') (hc : atMost n c) : atMost n' c := by
  induction c generalizing n n' with
  | done m => cases n' <;> trivial
  | ub => cases n' <;> trivial
  | acc a k ih =>
    cases n with
    | zero => exact hc.elim
    | succ n =>
      cases n' with
      | zero => omega
      | succ n' => exact fun v => ih v (by omega) (hc v)
  | fence o k ih =>
    cases n with
    | zero => exact hc.elim
    | succ n =>
      cases n' with
      | zero => omega
      | succ n' => exact ih (by omega) hc

theorem atMost_single (c : Code St) (h : atMost 1 c) : c.single := by
  cases c with
  | done m => trivial
  | ub => trivial
  | acc a k =>
    intro v
    have := h v
    cases hk : k v <;> rw [hk] at this <;> first | trivial | exact this.elim
  | fence o k =>
    have := h
    cases k <;> first | trivial | exact this.elim

variable {n : Nat}

theorem atMost_done (m : St) : atMost n (.done m) := by cases n <;> trivial
theorem atMost_ub : atMost n .ub := by cases n <;> trivial

theorem atMost_load (a : Val 64) (b al : Nat) (k : Val (8 * b) → Code St) (h : ∀ v, atMost n (k v)) :
    atMost (n + 1) (cLoad a b al k) := by
  cases a with
  | none => trivial
  | some a => exact h

theorem atMost_store (a : Val 64) (b al : Nat) (v : Val (8 * b)) (c : Code St) (h : atMost n c) :
    atMost (n + 1) (cStore a b al v c) := by
  cases a with
  | none => trivial
  | some a => exact fun _ => h

theorem atMost_rmw (a : Val 64) (b : Nat) (f : Val (8 * b) → Val (8 * b)) (k : Val (8 * b) → Code St) (h : ∀ v, atMost n (k v)) :
    atMost (n + 1) (cRmw a b f k) := by
  cases a with
  | none => trivial
  | some a => exact h

theorem atMost_pure {α : Type} (x : Option α) (k : α → Code St) (h : ∀ v, atMost n (k v)) : atMost n (pure' x k) := by
  cases x with
  | none => exact atMost_ub
  | some v => exact h v

theorem atMost_opLoad (m : St) (z : Sz) (o : Op) (ds : Bool) (k : Val z.bits → Code St) (h : ∀ v, atMost n (k v)) :
    atMost (n + isMem o) (cOpLoad slide m z o ds k) := by
  cases o with
  | mem a => exact atMost_pure _ _ fun a => atMost_load _ _ _ _ h
  | reg r => exact atMost_pure (opLoad slide m z (.reg r) ds) _ h
  | regH r => exact atMost_pure (opLoad slide m z (.regH r) ds) _ h
  | imm v => exact atMost_pure (opLoad slide m z (.imm v) ds) _ h

theorem atMost_opStore (m : St) (z : Sz) (o : Op) (v : Val z.bits) (k : St → Code St) (h : ∀ c, atMost n (k c)) :
    atMost (n + isMem o) (cOpStore slide m z o v k) := by
  cases o with
  | mem a => exact atMost_pure _ _ fun a => atMost_store _ _ _ _ _ (h _)
  | reg r => exact atMost_pure (opStore slide m z (.reg r) v) _ h
  | regH r => exact atMost_pure (opStore slide m z (.regH r) v) _ h
  | imm x => exact atMost_pure (opStore slide m z (.imm x) v) _ h

theorem atMost_opStoreIf (m : St) (c : Bool) (z : Sz) (o : Op) (v : Val z.bits) (k : St → Code St) (h : ∀ c, atMost n (k c)) :
    atMost (n + if c then isMem o else 0) (cOpStoreIf slide m c z o v k) := by
  cases c
  · exact h m
  · exact atMost_opStore m z o v k h

theorem atMost_atomicRmw (m : St) (z : Sz) (o : Op) (f : Val z.bits → Val z.bits) (k : Val z.bits → Code St)
    (h : ∀ v, atMost n (k v)) : atMost (n + 1) (cAtomicRmw slide m z o f k) := by
  cases o with
  | mem a => exact atMost_pure _ _ fun a => atMost_rmw _ _ _ _ h
  | _ => exact atMost_ub

theorem atMost_rmwLoad (m : St) (z : Sz) (lock : Bool) (o : Op) (f : Val z.bits → Val z.bits) (k : Val z.bits → Code St)
    (h : ∀ v, atMost n (k v)) : atMost (n + if lock then 1 else isMem o) (cRmwLoad slide m z lock o f k) := by
  cases lock
  · exact atMost_opLoad m z o false k h
  · exact atMost_atomicRmw m z o f k h

theorem atMost_cast {n n' : Nat} {c : Code St} (hc : atMost n c) (h : n = n') : atMost n' c := h ▸ hc

theorem atMost_btAccess (m : St) (k : BitOp) (z : Sz) (lock : Bool) (d s : Op) (index mask : Val z.bits) (fin : Val z.bits → St → Code St)
    (h : ∀ v c, atMost n (fin v c)) :
    atMost (n + if lock then 1 else isMem d + if k = .bt then 0 else isMem d) (cBtAccess slide m k z lock d s index mask fin) := by
  unfold cBtAccess
  have hreg : ∀ d, isMem d = 0 → atMost (n + if lock then 1 else isMem d + if k = .bt then 0 else isMem d) (if lock = true then .ub
      else cOpLoad slide m z d false fun v => cOpStoreIf slide m (k ≠ .bt) z d (btOp k mask v) fun m => fin v m : Code St) := by
    intro d hd
    cases lock
    · refine atMost_cast (atMost_opLoad m z d false _ fun v => atMost_opStoreIf m _ z d _ _ fun c => h v c) ?_
      by_cases hk : k = .bt <;> simp [hk, hd]
    · exact atMost_ub
  cases d with
  | mem o =>
    refine atMost_pure _ _ fun a => ?_
    cases lock
    · simp only [Bool.false_eq_true, if_false, isMem]
      by_cases hk : k = .bt
      · subst hk
        exact atMost_load _ _ _ _ fun v => h v m
      · simp only [ne_eq, hk, not_false_eq_true, if_true, if_false]
        exact atMost_load (n := n + 1) _ _ _ _ fun v => atMost_store _ _ _ _ _ (h v m)
    · exact atMost_rmw _ _ _ _ fun v => h v m
  | _ => exact hreg _ rfl

/-- The number of accesses. -/
theorem xCode_atMost (cfg : Cfg) (i : Instr) (start : BitVec 64) (len : Nat) (m : St) (c : Code St)
    (hc : xCode slide cfg i start len m = some c) : atMost (accesses i) c := by
  unfold xCode at hc
  split at hc
  · cases hc
    exact atMost_pure _ _ fun o => atMost_done _
  · cases i with
    | mov z sz d s =>
      cases hc
      exact atMost_cast (atMost_opLoad _ _ _ _ _ fun v => atMost_opStore (n := 0) _ _ _ _ _ atMost_done) (by delta accesses; dsimp only; omega)
    | arith k z lock d s =>
      cases hc
      refine atMost_cast (atMost_opLoad _ _ _ _ _ fun v => atMost_rmwLoad _ _ _ _ _ _ fun v => atMost_opStoreIf _ _ _ _ _ _ fun c =>
        atMost_opStoreIf (n := 0) _ _ _ _ _ _ fun c => atMost_done _) ?_
      cases lock <;> cases k <;> (delta accesses; dsimp only; simp) <;> omega
    | cmpxchg z lock d s =>
      cases hc
      refine atMost_cast (atMost_opLoad (n := if lock then 1 else 2 * isMem d) _ _ _ _ _ fun v => ?_) (by delta accesses; dsimp only; omega)
      cases lock
      · exact atMost_cast (atMost_opLoad _ _ _ _ _ fun v => atMost_opStore (n := 0) _ _ _ _ _ fun c => atMost_done _) (by simp; omega)
      · exact atMost_atomicRmw (n := 0) _ _ _ _ _ fun v => atMost_done _
    | xchg z d s =>
      cases hc
      refine atMost_cast (atMost_opLoad (n := isMem d + isMem s) _ _ _ _ _ fun v => ?_) (by delta accesses; dsimp only; omega)
      have hreg : ∀ d, isMem d = 0 → ∀ m op2, atMost (isMem d + isMem s) (cOpLoad slide m z d false fun op1 =>
          cOpStore slide m z d op2 fun m => cOpStore slide m z s op1 .done) := fun d hd m op2 =>
        atMost_cast (atMost_opLoad _ _ _ _ _ fun v => atMost_opStore _ _ _ _ _ fun c => atMost_opStore (n := 0) _ _ _ _ _ fun c =>
          atMost_done _) (by omega)
      cases d with
      | mem a =>
        exact atMost_cast (atMost_atomicRmw (slide := slide) _ z (.mem a) (fun _ => v) (fun op1 => cOpStore slide _ z s op1 .done)
          fun v => atMost_opStore (n := 0) _ _ _ _ _ fun c => atMost_done _) (by simp only [isMem]; omega)
      | _ => exact hreg _ rfl _ _
    | logic k z lock d s =>
      cases hc
      unfold cLogic
      split
      · rename_i hx
        refine atMost_mono (n := isMem d) _ ?_ (atMost_cast (atMost_opStore (n := 0) _ _ _ _ _ fun c => atMost_done _) (by omega))
        have : isMem d = 0 := by
          have := hx.2.1
          cases d with
          | mem a => cases s <;> cases this
          | _ => rfl
        omega
      · refine atMost_cast (atMost_opLoad _ _ _ _ _ fun v => atMost_rmwLoad _ _ _ _ _ _ fun v =>
          atMost_opStoreIf (n := 0) _ _ _ _ _ _ fun c => atMost_done _) ?_
        cases lock <;> cases k <;> (delta accesses; dsimp only; simp) <;> omega
    | not z lock d =>
      cases hc
      cases lock
      · exact atMost_cast (atMost_opLoad _ _ _ _ _ fun v => atMost_opStore (n := 0) _ _ _ _ _ fun c => atMost_done _)
          (by (delta accesses; dsimp only; simp); omega)
      · exact atMost_atomicRmw (n := 0) _ _ _ _ _ fun v => atMost_done _
    | incdec dec z lock d =>
      cases hc
      refine atMost_cast (atMost_rmwLoad _ _ _ _ _ _ fun v => atMost_opStoreIf (n := 0) _ _ _ _ _ _ fun c => atMost_done _) ?_
      cases lock <;> (delta accesses; dsimp only; simp); omega
    | cmov c z d s =>
      cases hc
      exact atMost_cast (atMost_opLoad _ _ _ _ _ fun v => atMost_opLoad _ _ _ _ _ fun v => atMost_opStore (n := 0) _ _ _ _ _ fun c => atMost_done _)
        (by (delta accesses; dsimp only; simp); omega)
    | setcc c d => cases hc; exact atMost_cast (atMost_opStore (n := 0) _ _ _ _ _ fun c => atMost_done _) (by delta accesses; dsimp only; simp)
    | bittest k z lock d s =>
      cases hc
      unfold cBittest
      split
      · exact atMost_ub
      · have hacc : ∀ m index mask fin, (∀ v c, atMost 0 (fin v c)) →
            atMost (0 + if lock then 1 else isMem d + if k = .bt then 0 else isMem d) (cBtAccess slide m k z lock d s index mask fin) :=
          fun m index mask fin h => atMost_btAccess m k z lock d s index mask fin h
        cases s with
        | imm v => exact atMost_cast (atMost_pure _ _ fun v => hacc _ _ _ _ fun v c => atMost_done _) (by delta accesses; dsimp only [isMem])
        | reg r =>
          dsimp only
          refine atMost_cast (atMost_opLoad _ _ _ _ _ fun v => hacc _ _ _ _ fun v c => atMost_done _) (by delta accesses; dsimp only; omega)
        | regH r =>
          dsimp only
          refine atMost_cast (atMost_opLoad _ _ _ _ _ fun v => hacc _ _ _ _ fun v c => atMost_done _) (by delta accesses; dsimp only; omega)
        | mem r =>
          dsimp only
          refine atMost_cast (atMost_opLoad _ _ _ _ _ fun v => hacc _ _ _ _ fun v c => atMost_done _) (by delta accesses; dsimp only; omega)
    | push z s =>
      cases hc
      exact atMost_cast (atMost_opLoad _ _ _ _ _ fun v => atMost_store (n := 0) _ _ _ _ _ (atMost_done _)) (by (delta accesses; dsimp only; simp); omega)
    | pop z d => cases d with
      | reg r =>
        cases hc
        exact atMost_load (n := 0) _ _ _ _ fun v => atMost_pure _ _ fun m => atMost_done _
      | _ => cases hc
    | callRel off => cases hc; exact atMost_store (n := 0) _ _ _ _ _ (atMost_done _)
    | ret pop => cases hc; exact atMost_load (n := 0) _ _ _ _ fun v => atMost_done _
    | movzx z sz d s =>
      cases hc
      refine atMost_cast (atMost_opLoad (n := isMem d) _ _ _ _ _ fun v => ?_) (by delta accesses; dsimp only; omega)
      unfold cMovzxStore
      split
      · exact atMost_done _
      · exact atMost_done _
      · exact atMost_cast (atMost_opStore (n := 0) _ _ _ _ _ atMost_done) (by omega)
    | movbe z d s =>
      cases hc
      exact atMost_cast (atMost_opLoad _ _ _ _ _ fun v => atMost_opStore (n := 0) _ _ _ _ _ atMost_done) (by delta accesses; dsimp only; omega)
    | bswap z d =>
      cases hc
      exact atMost_cast (atMost_opLoad _ _ _ _ _ fun v => atMost_opStore (n := 0) _ _ _ _ _ atMost_done) (by delta accesses; dsimp only; omega)
    | neg z lock d =>
      cases hc
      unfold cNeg
      cases lock
      · exact atMost_cast (atMost_opLoad _ _ _ _ _ fun v => atMost_opStore (n := 0) _ _ _ _ _ atMost_done) (by delta accesses; dsimp only; omega)
      · exact atMost_ub
    | shift k z d c =>
      cases hc
      exact atMost_cast (atMost_opLoad _ _ _ _ _ fun v => atMost_opLoad _ _ _ _ _ fun v => atMost_opStore (n := 0) _ _ _ _ _ fun c =>
        atMost_done _) (by delta accesses; dsimp only; omega)
    | shiftd left z d s c =>
      cases hc
      exact atMost_cast (atMost_opLoad _ _ _ _ _ fun v => atMost_opLoad _ _ _ _ _ fun v => atMost_opLoad _ _ _ _ _ fun v =>
        atMost_opStore (n := 0) _ _ _ _ _ fun c => atMost_done _) (by delta accesses; dsimp only; omega)
    | rotate left z d c =>
      cases hc
      exact atMost_cast (atMost_opLoad _ _ _ _ _ fun v => atMost_opLoad _ _ _ _ _ fun v => atMost_opStore (n := 0) _ _ _ _ _ fun c =>
        atMost_done _) (by delta accesses; dsimp only; omega)
    | mul1 signed z s =>
      cases hc
      exact atMost_cast (atMost_opLoad (n := 0) _ _ _ _ _ fun v => atMost_done _) (by delta accesses; dsimp only; omega)
    | imul2 z d s t =>
      cases hc
      exact atMost_cast (atMost_opLoad _ _ _ _ _ fun v => atMost_opLoad _ _ _ _ _ fun v => atMost_opStore (n := 0) _ _ _ _ _ fun c =>
        atMost_done _) (by delta accesses; dsimp only; omega)
    | div signed z s high =>
      cases hc
      unfold cDiv
      dsimp only
      split
      · exact atMost_cast (atMost_opLoad (n := 0) _ _ _ _ _ fun v => atMost_pure _ _ fun p => atMost_done _)
          (by delta accesses; dsimp only; omega)
      · refine atMost_pure _ _ fun short => atMost_cast (atMost_opLoad (n := 0) _ _ _ _ _ fun v => ?_) (by delta accesses; dsimp only; omega)
        split
        · exact atMost_pure _ _ fun p => atMost_done _
        · exact atMost_pure _ _ fun p => atMost_done _
    | xlat a32 _ => cases hc; exact atMost_load (n := 0) _ _ _ _ fun v => atMost_done _
    | bitscan trailing _ z d s => cases d with
      | reg r =>
        cases hc
        exact atMost_cast (atMost_opLoad (n := 0) _ _ _ _ _ fun v => atMost_pure _ _ fun m => atMost_done _)
          (by delta accesses; dsimp only; omega)
      | _ => cases hc
    | popcnt z d s =>
      cases hc
      exact atMost_cast (atMost_opLoad _ _ _ _ _ fun v => atMost_opStore (n := 0) _ _ _ _ _ fun c => atMost_done _)
        (by delta accesses; dsimp only; omega)
    | jmp s =>
      cases hc
      exact atMost_cast (atMost_opLoad (n := 0) _ _ _ _ _ fun v => atMost_done _) (by delta accesses; dsimp only; omega)
    | call s =>
      cases hc
      exact atMost_cast (atMost_opLoad _ _ _ _ _ fun v => atMost_store (n := 0) _ _ _ _ _ (atMost_done _))
        (by delta accesses; dsimp only; omega)
    | pushf z => cases hc; exact atMost_store (n := 0) _ _ _ _ _ (atMost_done _)
    | popf z => cases hc; exact atMost_load (n := 0) _ _ _ _ fun v => atMost_done _
    | leave => cases hc; exact atMost_load (n := 0) _ _ _ _ fun v => atMost_done _
    | ctl k o =>
      cases hc
      cases k <;> first
        | exact atMost_done _
        | exact atMost_cast (atMost_opStore (n := 0) _ _ _ _ _ atMost_done) (by delta accesses; dsimp only; omega)
    | str k z rep _ _ => cases rep with
      | none =>
        cases hc
        cases k with
        | lods => exact atMost_load (n := 0) _ _ _ _ fun v => atMost_done _
        | stos => exact atMost_store (n := 0) _ _ _ _ _ (atMost_done _)
        | movs => exact atMost_load (n := 1) _ _ _ _ fun v => atMost_store (n := 0) _ _ _ _ _ (atMost_done _)
        | scas => exact atMost_load (n := 0) _ _ _ _ fun v => atMost_done _
        | cmps => exact atMost_load (n := 1) _ _ _ _ fun v => atMost_load (n := 0) _ _ _ _ fun v => atMost_done _
      | _ => cases hc
    | sse i => cases i with
      | fence => cases hc; trivial
      | _ => cases hc
    | _ => cases hc

end Verif.Conc.X86
