import Verif.Conc.X86
import Verif.Conc.Lemmas

/-! The accesses of the code of x86-64 instructions agree with the sequential model of the lifter. -/

set_option linter.constructorNameAsVariable false

namespace Verif.Conc.X86

open Verif.IR Verif.X86

variable {slide : BitVec 64}

/-- The state with another memory. -/
def setMem (mem : VMem) (s : St) : St := { s with mem }

/-- Registers and memory after an execution. -/
def join (x : Option (St × VMem)) : Option St := x.map fun p => setMem p.2 p.1

/-- A continuation that acts on registers and memory like `K`. -/
def Resp (k : St → Code St) (K : St → Option St) : Prop := ∀ c mem, join ((k c).run mem) = K (setMem mem c)

theorem resp_done : Resp .done some := fun _ _ => rfl

theorem join_pure {α : Type} (x : Option α) (k : α → Code St) (K : α → Option St) (mem : VMem)
    (h : ∀ v, join ((k v).run mem) = K v) : join ((pure' x k).run mem) = x.bind K := by
  cases x with
  | none => rfl
  | some v => exact h v

theorem join_load (m : St) (a : Val 64) (n align : Nat) (k : Val (8 * n) → Code St) (K : Val (8 * n) → Option St) (mem : VMem)
    (h : ∀ v, join ((k v).run mem) = K v) :
    join ((cLoad a n align k).run mem) = (load (setMem mem m) a n align).bind K := by
  unfold cLoad load
  cases a with
  | none => rfl
  | some a =>
    simp only [Code.run, Acc.perform]
    by_cases ha : a.toNat % align = 0
    · simp only [if_pos ha, Option.bind_some]
      exact h _
    · simp only [if_neg ha, Option.bind_none]
      rfl

theorem join_store (m : St) (a : Val 64) (n align : Nat) (v : Val (8 * n)) (c : Code St) (K : St → Option St) (mem : VMem)
    (h : ∀ mem, join (c.run mem) = K (setMem mem m)) :
    join ((cStore a n align v c).run mem) = (store (setMem mem m) a n align v).bind K := by
  unfold cStore store
  cases a with
  | none => rfl
  | some a =>
    simp only [Code.run, Acc.perform]
    by_cases ha : a.toNat % align = 0
    · simp only [if_pos ha, Option.bind_some]
      exact h _
    · simp only [if_neg ha, Option.bind_none]
      rfl

theorem join_rmw (m : St) (a : Val 64) (n : Nat) (f : Val (8 * n) → Val (8 * n)) (k : Val (8 * n) → Code St)
    (K : Val (8 * n) × St → Option St) (mem : VMem) (h : ∀ v mem, join ((k v).run mem) = K (v, setMem mem m)) :
    join ((cRmw a n f k).run mem) = (load (setMem mem m) a n n).bind fun old =>
      (store (setMem mem m) a n n (f old)).bind fun m => K (old, m) := by
  unfold cRmw load store
  cases a with
  | none => rfl
  | some a =>
    simp only [Code.run, Acc.perform]
    by_cases ha : a.toNat % n = 0
    · simp only [if_pos ha, Option.bind_some]
      exact h _ _
    · simp only [if_neg ha, Option.bind_none]
      rfl

theorem store_setMem (m : St) (mem : VMem) (r : Fin 16) (z : Sz) (v : Val z.bits) :
    (setMem mem m).store r z v = setMem mem (m.store r z v) := by
  cases z <;> rfl

theorem opStore_setMem (m : St) (mem : VMem) (z : Sz) (o : Op) (v : Val z.bits) (h : ∀ a, o ≠ .mem a) :
    opStore slide (setMem mem m) z o v = (opStore slide m z o v).map (setMem mem) := by
  cases o with
  | imm v => rfl
  | reg r => simp only [opStore, store_setMem, Option.map_some]
  | regH r => cases z <;> rfl
  | mem a => exact absurd rfl (h a)

theorem opLoad_setMem (m : St) (mem : VMem) (z : Sz) (o : Op) (ds : Bool) (h : ∀ a, o ≠ .mem a) :
    opLoad slide (setMem mem m) z o ds = opLoad slide m z o ds := by
  cases o with
  | imm v => rfl
  | reg r => rfl
  | regH r => cases z <;> rfl
  | mem a => exact absurd rfl (h a)

theorem opAddr_setMem (m : St) (mem : VMem) (o : MemOp) (ds : Bool) : opAddr slide (setMem mem m) o ds = opAddr slide m o ds := rfl

theorem join_opLoad (m : St) (z : Sz) (o : Op) (ds : Bool) (k : Val z.bits → Code St) (K : Val z.bits → Option St) (mem : VMem)
    (h : ∀ v, join ((k v).run mem) = K v) :
    join ((cOpLoad slide m z o ds k).run mem) = (opLoad slide (setMem mem m) z o ds).bind K := by
  by_cases hm : ∃ a, o = .mem a
  · obtain ⟨a, rfl⟩ := hm
    simp only [cOpLoad, opLoad]
    rw [join_pure _ _ (fun a => (load (setMem mem m) a z.bytes 1).bind K) _ fun a => join_load m a _ _ _ _ _ h]
    rw [opAddr_setMem]
    cases opAddr slide m a ds <;> rfl
  · rw [opLoad_setMem _ _ _ _ _ fun a ha => hm ⟨a, ha⟩]
    cases o with
    | mem a => exact absurd ⟨a, rfl⟩ hm
    | reg r => exact join_pure (opLoad slide m z (.reg r) ds) k K mem h
    | regH r => exact join_pure (opLoad slide m z (.regH r) ds) k K mem h
    | imm v => exact join_pure (opLoad slide m z (.imm v) ds) k K mem h

theorem join_opStore (m : St) (z : Sz) (o : Op) (v : Val z.bits) (k : St → Code St) (K : St → Option St) (mem : VMem)
    (h : Resp k K) : join ((cOpStore slide m z o v k).run mem) = (opStore slide (setMem mem m) z o v).bind K := by
  by_cases hm : ∃ a, o = .mem a
  · obtain ⟨a, rfl⟩ := hm
    simp only [cOpStore, opStore]
    rw [join_pure _ _ (fun a => (store (setMem mem m) a z.bytes 1 v).bind K) _ fun a => join_store m a _ _ _ _ _ _ fun mem => h _ _]
    rw [opAddr_setMem]
    cases opAddr slide m a <;> rfl
  · rw [opStore_setMem _ _ _ _ _ fun a ha => hm ⟨a, ha⟩]
    rw [show cOpStore slide m z o v k = pure' (opStore slide m z o v) k by
      cases o with
      | mem a => exact absurd ⟨a, rfl⟩ hm
      | _ => rfl]
    cases opStore slide m z o v with
    | none => rfl
    | some m' => exact h _ _

theorem join_opStoreIf (m : St) (c : Bool) (z : Sz) (o : Op) (v : Val z.bits) (k : St → Code St) (K : St → Option St) (mem : VMem)
    (h : Resp k K) : join ((cOpStoreIf slide m c z o v k).run mem) = (opStoreIf slide (setMem mem m) c z o v).bind K := by
  unfold cOpStoreIf opStoreIf
  cases c
  · exact h _ _
  · exact join_opStore _ _ _ _ _ _ _ h

theorem join_atomicRmw (m : St) (z : Sz) (o : Op) (f : Val z.bits → Val z.bits) (k : Val z.bits → Code St)
    (K : Val z.bits × St → Option St) (mem : VMem) (h : ∀ v mem, join ((k v).run mem) = K (v, setMem mem m)) :
    join ((cAtomicRmw slide m z o f k).run mem) = (atomicRmw slide (setMem mem m) z o f).bind K := by
  unfold cAtomicRmw atomicRmw
  cases o with
  | mem a =>
    simp only
    rw [join_pure _ _ _ _ fun a => join_rmw m a _ _ _ _ _ h, opAddr_setMem]
    cases opAddr slide m a with
    | none => rfl
    | some a =>
      simp only [Option.bind_some, Option.bind_eq_bind]
      cases load (setMem mem m) a z.bytes z.bytes with
      | none => rfl
      | some old =>
        simp only [Option.bind_some]
        cases store (setMem mem m) a z.bytes z.bytes (f old) <;> rfl
  | _ => rfl

theorem join_rmwLoad (m : St) (z : Sz) (lock : Bool) (o : Op) (f : Val z.bits → Val z.bits) (k : Val z.bits → Code St)
    (K : Val z.bits × St → Option St) (mem : VMem) (h : ∀ v mem, join ((k v).run mem) = K (v, setMem mem m)) :
    join ((cRmwLoad slide m z lock o f k).run mem) = (rmwLoad slide (setMem mem m) z lock o f).bind K := by
  unfold cRmwLoad rmwLoad
  cases lock
  · simp only [Bool.false_eq_true, if_false]
    rw [join_opLoad m z o false k (fun v => K (v, setMem mem m)) mem fun v => h v mem]
    cases opLoad slide (setMem mem m) z o <;> rfl
  · exact join_atomicRmw _ _ _ _ _ _ _ h

theorem join_mov (m : St) (z sz : Sz) (d s : Op) (mem : VMem) :
    join ((cMov slide m z sz d s .done).run mem) = liftMov slide (setMem mem m) z sz d s := by
  unfold cMov liftMov
  refine (join_opLoad m sz s false _ _ mem fun v => join_opStore m z d _ _ _ mem resp_done).trans ?_
  simp only [Option.bind_eq_bind, Option.bind_fun_some]

theorem resp_flags {k : St → St} (h : ∀ mem c, setMem mem (k c) = k (setMem mem c)) : Resp (fun c => .done (k c)) fun c => some (k c) := by
  intro c mem
  exact congrArg some (h mem c)

theorem flagSub_setMem (m : St) (mem : VMem) {w : Nat} (res lhs rhs : Val w) (a b : Bool) :
    setMem mem (flagSub m res lhs rhs a b) = flagSub (setMem mem m) res lhs rhs a b := by
  cases a <;> rfl

theorem flagAdd_setMem (cfg : Cfg) (m : St) (mem : VMem) {w : Nat} (res lhs rhs : Val w) (a : Bool) :
    setMem mem (flagAdd cfg m res lhs rhs a) = flagAdd cfg (setMem mem m) res lhs rhs a := by
  unfold flagAdd
  cases a <;> cases cfg.overflowIntrinsics <;> rfl

theorem join_arith (cfg : Cfg) (m : St) (k : Arith) (z : Sz) (lock : Bool) (d s : Op) (mem : VMem) :
    join ((cArith slide cfg m k z lock d s .done).run mem) = liftArith cfg slide (setMem mem m) k z lock d s := by
  unfold cArith liftArith
  simp only [Option.bind_eq_bind]
  refine (join_opLoad m z s false _ _ mem fun op2 => ?_)
  refine (join_rmwLoad m z lock d _ _ _ mem fun op1 mem => ?_)
  refine (join_opStoreIf m _ z d _ _ _ mem ?_)
  intro m mem
  refine (join_opStoreIf m _ z s _ _ _ mem ?_)
  refine resp_flags fun mem c => ?_
  split
  · rw [flagSub_setMem]
  · rw [flagAdd_setMem]

theorem join_opStore_done (m : St) (z : Sz) (o : Op) (v : Val z.bits) (mem : VMem) :
    join ((cOpStore slide m z o v .done).run mem) = opStore slide (setMem mem m) z o v :=
  (join_opStore m z o v _ _ mem resp_done).trans (Option.bind_fun_some _)

theorem join_cmpxchg (m : St) (z : Sz) (lock : Bool) (d s : Op) (mem : VMem) :
    join ((cCmpxchg slide m z lock d s .done).run mem) = liftCmpxchg slide (setMem mem m) z lock d s := by
  unfold cCmpxchg liftCmpxchg
  simp only [Option.bind_eq_bind]
  refine join_opLoad m z s false _ _ mem fun src => ?_
  cases lock
  · simp only [Bool.false_eq_true, if_false]
    refine join_opLoad m z d false _ _ mem fun dst => ?_
    rw [show (setMem mem m).get rax z = m.get rax z from rfl, ← flagSub_setMem]
    refine join_opStore _ z d _ _ _ mem ?_
    exact resp_flags fun mem c => (store_setMem _ _ _ _ _).symm
  · simp only [if_true]
    refine join_atomicRmw m z d _ _ _ mem fun dst mem => ?_
    simp only [← flagSub_setMem]
    refine congrArg some ?_
    exact (store_setMem _ _ _ _ _).symm

theorem join_xchg (m : St) (z : Sz) (d s : Op) (mem : VMem) :
    join ((cXchg slide m z d s .done).run mem) = liftXchg slide (setMem mem m) z d s := by
  unfold cXchg liftXchg
  simp only [Option.bind_eq_bind]
  refine join_opLoad m z s false _ _ mem fun op2 => ?_
  cases d with
  | mem a => exact join_atomicRmw m z _ _ _ _ mem fun op1 mem => join_opStore_done _ _ _ _ _
  | _ => exact join_opLoad m z _ false _ _ mem fun op1 => join_opStore m z _ _ _ _ mem fun c mem => join_opStore_done _ _ _ _ _

theorem join_logic (m : St) (k : Logic) (z : Sz) (lock : Bool) (d s : Op) (mem : VMem) :
    join ((cLogic slide m k z lock d s .done).run mem) = liftLogic slide (setMem mem m) k z lock d s := by
  unfold cLogic liftLogic
  simp only [Option.bind_eq_bind]
  split
  · exact join_opStore m z d _ _ _ mem fun c mem => rfl
  · refine join_opLoad m z s false _ _ mem fun op2 => ?_
    refine join_rmwLoad m z lock d _ _ _ mem fun op1 mem => ?_
    exact join_opStoreIf m _ z d _ _ _ mem fun c mem => rfl

theorem join_not (m : St) (z : Sz) (lock : Bool) (d : Op) (mem : VMem) :
    join ((cNot slide m z lock d .done).run mem) = liftNot slide (setMem mem m) z lock d := by
  unfold cNot liftNot
  cases lock
  · simp only [Bool.false_eq_true, if_false, Option.bind_eq_bind]
    exact join_opLoad m z d false _ _ mem fun v => join_opStore_done _ _ _ _ _
  · simp only [if_true]
    refine (join_atomicRmw m z d _ _ (fun p => some p.2) mem fun v mem => rfl).trans ?_
    cases atomicRmw slide (setMem mem m) z d fun a => IR.xor a (some (BitVec.allOnes z.bits)) <;> rfl

theorem join_incdec (cfg : Cfg) (m : St) (dec : Bool) (z : Sz) (lock : Bool) (d : Op) (mem : VMem) :
    join ((cIncDec slide cfg m dec z lock d .done).run mem) = liftIncDec cfg slide (setMem mem m) dec z lock d := by
  unfold cIncDec liftIncDec
  simp only [Option.bind_eq_bind]
  refine join_rmwLoad m z lock d _ _ _ mem fun op1 mem => ?_
  refine join_opStoreIf m _ z d _ _ _ mem ?_
  refine resp_flags fun mem c => ?_
  split
  · rw [flagSub_setMem]
  · rw [flagAdd_setMem]

theorem flagCond_setMem (m : St) (mem : VMem) (c : Cond) : flagCond (setMem mem m) c = flagCond m c := by
  cases c <;> rfl

theorem join_cmov (m : St) (c : Cond) (z : Sz) (d s : Op) (mem : VMem) :
    join ((cCmov slide m c z d s .done).run mem) = liftCmov slide (setMem mem m) c z d s := by
  unfold cCmov liftCmov
  simp only [Option.bind_eq_bind]
  refine join_opLoad m z d false _ _ mem fun op1 => ?_
  refine join_opLoad m z s false _ _ mem fun op2 => ?_
  rw [flagCond_setMem]
  exact join_opStore_done _ _ _ _ _

theorem join_setcc (m : St) (c : Cond) (d : Op) (mem : VMem) :
    join ((cOpStore slide m .b d (zext (Sz.bits .b) (flagCond m c)) .done).run mem) = liftSetcc slide (setMem mem m) c d := by
  unfold liftSetcc
  rw [flagCond_setMem]
  exact join_opStore_done _ _ _ _ _

theorem btAddr_setMem (m : St) (mem : VMem) (z : Sz) (o : MemOp) (s : Op) (index : Val z.bits) :
    btAddr slide (setMem mem m) z o s index = btAddr slide m z o s index := rfl

theorem join_btAccess (m : St) (k : BitOp) (z : Sz) (lock : Bool) (d s : Op) (index mask : Val z.bits) (fin : Val z.bits → St → Code St)
    (K : Val z.bits × St → Option St) (h : ∀ v c mem, join ((fin v c).run mem) = K (v, setMem mem c)) (mem : VMem) :
    join ((cBtAccess slide m k z lock d s index mask fin).run mem) =
      (btAccess slide (setMem mem m) k z lock d s index mask).bind K := by
  unfold cBtAccess btAccess
  have hreg : ∀ d, join ((if lock = true then .ub
      else cOpLoad slide m z d false fun v => cOpStoreIf slide m (k ≠ .bt) z d (btOp k mask v) fun m => fin v m : Code St).run mem) =
      (if lock = true then none else (opLoad slide (setMem mem m) z d).bind fun v =>
        (opStoreIf slide (setMem mem m) (k ≠ .bt) z d (btOp k mask v)).bind fun m => some (v, m)).bind K := by
    intro d
    cases lock
    · simp only [Bool.false_eq_true, if_false]
      refine (join_opLoad m z d false _ (fun v => (opStoreIf slide (setMem mem m) (k ≠ .bt) z d (btOp k mask v)).bind
        fun c => K (v, c)) mem fun v => join_opStoreIf m _ z d _ _ (fun c => K (v, c)) mem fun c mem => h v c mem).trans ?_
      cases opLoad slide (setMem mem m) z d with
      | none => rfl
      | some v =>
        simp only [Option.bind_some]
        cases opStoreIf slide (setMem mem m) (k ≠ .bt) z d (btOp k mask v) <;> rfl
    · rfl
  cases d with
  | mem o =>
    simp only [Option.bind_eq_bind]
    rw [btAddr_setMem]
    cases btAddr slide m z o s index with
    | none => rfl
    | some a =>
      simp only [pure', Option.bind_some]
      cases lock
      · simp only [Bool.false_eq_true, if_false, Bool.false_or]
        by_cases hk : k = .bt
        · subst hk
          refine (join_load m a _ _ _ (fun v => K (v, setMem mem m)) mem fun v => h v m mem).trans ?_
          cases load (setMem mem m) a z.bytes z.bytes <;> rfl
        · simp only [ne_eq, hk, not_false_eq_true, if_true, decide_true]
          refine (join_load m a _ _ _ _ mem fun v => join_store m a _ _ _ _ (fun c => K (v, c)) mem fun mem => h v m mem).trans ?_
          cases load (setMem mem m) a z.bytes z.bytes with
          | none => rfl
          | some v =>
            simp only [Option.bind_some, btStore, if_true]
            cases store (setMem mem m) a z.bytes z.bytes (btOp k mask v) <;> rfl
      · simp only [if_true, Bool.true_or]
        refine (join_rmw m a _ _ _ K mem fun v mem => h v m mem).trans ?_
        cases load (setMem mem m) a z.bytes z.bytes with
        | none => rfl
        | some v =>
          simp only [Option.bind_some, btStore, if_true]
          cases store (setMem mem m) a z.bytes z.bytes (btOp k mask v) <;> rfl
  | _ => exact hreg _

theorem join_bittest (m : St) (k : BitOp) (z : Sz) (lock : Bool) (d s : Op) (mem : VMem) :
    join ((cBittest slide m k z lock d s .done).run mem) = liftBittest slide (setMem mem m) k z lock d s := by
  unfold cBittest liftBittest
  split
  · rfl
  · have hacc : ∀ index : Val z.bits, join ((cBtAccess slide m k z lock d s index
        (IR.shl (some (BitVec.ofNat z.bits 1)) (IR.and index (some (BitVec.ofNat _ (z.bits - 1))))) fun val m =>
          .done ((m.setF .cf (icmp .ne (IR.and val (IR.shl (some (BitVec.ofNat z.bits 1))
            (IR.and index (some (BitVec.ofNat _ (z.bits - 1)))))) (some 0))).undef [.of, .sf, .af, .pf])).run mem) =
        (btAccess slide (setMem mem m) k z lock d s index
          (IR.shl (some (BitVec.ofNat z.bits 1)) (IR.and index (some (BitVec.ofNat _ (z.bits - 1)))))).bind fun p =>
            some ((p.2.setF .cf (icmp .ne (IR.and p.1 (IR.shl (some (BitVec.ofNat z.bits 1))
              (IR.and index (some (BitVec.ofNat _ (z.bits - 1)))))) (some 0))).undef [.of, .sf, .af, .pf]) :=
      fun index => join_btAccess m k z lock d s index _ _ _ (fun _ _ _ => rfl) mem
    simp only [Option.bind_eq_bind]
    cases s with
    | imm v => exact hacc _
    | reg r => exact join_opLoad m z (.reg r) false _ _ mem hacc
    | regH r => exact join_opLoad m z (.regH r) false _ _ mem hacc
    | mem a => exact join_opLoad m z (.mem a) false _ _ mem hacc

theorem join_push (m : St) (z : Sz) (v : Val z.bits) (k : St → Code St) (K : St → Option St) (mem : VMem) (h : Resp k K) :
    join ((cPush m z v k).run mem) = (stackPush (setMem mem m) z v).bind K := by
  unfold cPush stackPush
  simp only [Option.bind_eq_bind]
  refine (join_store m _ _ _ _ _ (fun c => K (c.setGp rsp (IR.add (m.gp rsp) (some (-(BitVec.ofNat 64 z.bytes)))))) mem
    fun mem => h _ mem).trans ?_
  rw [show (setMem mem m).gp = m.gp from rfl]
  cases store (setMem mem m) (IR.add (m.gp rsp) (some (-(BitVec.ofNat 64 z.bytes)))) z.bytes z.bytes v <;> rfl

theorem join_pop (m : St) (src : Fin 16) (k : Val 64 → St → Code St) (K : Val 64 × St → Option St) (mem : VMem)
    (h : ∀ v c mem, join ((k v c).run mem) = K (v, setMem mem c)) :
    join ((cPop m src k).run mem) = (stackPop (setMem mem m) src).bind K := by
  unfold cPop stackPop
  simp only [Option.bind_eq_bind]
  refine (join_load (m.setGp rsp (IR.add (m.gp src) (some 8#64))) (m.gp src) 8 8 _
    (fun v => K (v, setMem mem (m.setGp rsp (IR.add (m.gp src) (some 8#64))))) mem fun v => h _ _ mem).trans ?_
  rw [show (setMem mem m).gp = m.gp from rfl]
  change Option.bind (load (setMem mem (m.setGp rsp (IR.add (m.gp src) (some 8#64)))) (m.gp src) 8 8) _ =
    (Option.bind (load (setMem mem (m.setGp rsp (IR.add (m.gp src) (some 8#64)))) (m.gp src) 8 8) _).bind _
  cases load (setMem mem (m.setGp rsp (IR.add (m.gp src) (some 8#64)))) (m.gp src) 8 8 <;> rfl

theorem join_movzx (m : St) (z sz : Sz) (d s : Op) (mem : VMem) :
    join ((cMovzx slide m z sz d s .done).run mem) = liftMovzx slide (setMem mem m) z sz d s := by
  unfold cMovzx liftMovzx
  simp only [Option.bind_eq_bind]
  refine join_opLoad m sz s false _ _ mem fun v => ?_
  unfold cMovzxStore
  cases z <;> cases d <;> first | rfl | exact join_opStore_done _ _ _ _ _

theorem join_movbe (m : St) (z : Sz) (d s : Op) (mem : VMem) :
    join ((cMovbe slide m z d s .done).run mem) = liftMovbe slide (setMem mem m) z d s := by
  unfold cMovbe liftMovbe
  simp only [Option.bind_eq_bind]
  exact join_opLoad m z s false _ _ mem fun v => join_opStore_done _ _ _ _ _

theorem join_neg (m : St) (z : Sz) (lock : Bool) (d : Op) (mem : VMem) :
    join ((cNeg slide m z lock d .done).run mem) = liftNeg slide (setMem mem m) z lock d := by
  unfold cNeg liftNeg
  cases lock
  · simp only [Bool.false_eq_true, if_false, Option.bind_eq_bind]
    refine join_opLoad m z d false _ _ mem fun op1 => ?_
    rw [← flagSub_setMem]
    exact join_opStore_done _ _ _ _ _
  · rfl

theorem join_shift (m : St) (k : Shift) (z : Sz) (d c : Op) (mem : VMem) :
    join ((cShift slide m k z d c .done).run mem) = liftShift slide (setMem mem m) k z d c := by
  unfold cShift liftShift
  simp only [Option.bind_eq_bind]
  refine join_opLoad m z d false _ _ mem fun src => ?_
  refine join_opLoad m .b c false _ _ mem fun count => ?_
  exact join_opStore m z d _ _ _ mem fun c mem => rfl

theorem join_shiftd (m : St) (left : Bool) (z : Sz) (d s c : Op) (mem : VMem) :
    join ((cShiftd slide m left z d s c .done).run mem) = liftShiftd slide (setMem mem m) left z d s c := by
  unfold cShiftd liftShiftd
  simp only [Option.bind_eq_bind]
  refine join_opLoad m z d false _ _ mem fun src1 => ?_
  refine join_opLoad m z s false _ _ mem fun src2 => ?_
  refine join_opLoad m .b c false _ _ mem fun count => ?_
  exact join_opStore m z d _ _ _ mem fun c mem => rfl

theorem join_rotate (m : St) (left : Bool) (z : Sz) (d c : Op) (mem : VMem) :
    join ((cRotate slide m left z d c .done).run mem) = liftRotate slide (setMem mem m) left z d c := by
  unfold cRotate liftRotate
  simp only [Option.bind_eq_bind]
  refine join_opLoad m z d false _ _ mem fun src => ?_
  refine join_opLoad m .b c false _ _ mem fun count => ?_
  exact join_opStore m z d _ _ _ mem fun c mem => rfl

theorem mulStore_setMem (m : St) (mem : VMem) (z : Sz) (v : Val (z.bits * 2)) :
    mulStore (setMem mem m) z v = setMem mem (mulStore m z v) := by
  cases z <;> rfl

theorem join_mul1 (cfg : Cfg) (m : St) (signed : Bool) (z : Sz) (s : Op) (mem : VMem) :
    join ((cMul1 slide cfg m signed z s .done).run mem) = liftMul1 cfg slide (setMem mem m) signed z s := by
  unfold cMul1 liftMul1
  simp only [Option.bind_eq_bind]
  refine join_opLoad m z s false _ _ mem fun op1 => ?_
  rw [mulStore_setMem]
  rfl

theorem join_imul2 (cfg : Cfg) (m : St) (z : Sz) (d s t : Op) (mem : VMem) :
    join ((cImul2 slide cfg m z d s t .done).run mem) = liftImul2 cfg slide (setMem mem m) z d s t := by
  unfold cImul2 liftImul2
  simp only [Option.bind_eq_bind]
  refine join_opLoad m z s false _ _ mem fun op1 => ?_
  refine join_opLoad m z t false _ _ mem fun op2 => ?_
  exact join_opStore m z d _ _ _ mem fun c mem => rfl

theorem join_div (m : St) (signed : Bool) (z : Sz) (s : Op) (high : High) (mem : VMem) :
    join ((cDiv slide m signed z s high .done).run mem) = liftDiv slide (setMem mem m) signed z s high := by
  unfold cDiv liftDiv divCore
  simp only [Option.bind_eq_bind]
  split
  · unfold div8
    simp only [Option.bind_eq_bind, Option.bind_assoc]
    refine join_opLoad m .b s false _ _ mem fun divisor => ?_
    refine join_pure _ _ _ mem fun p => ?_
    rfl
  · cases divShort signed z high with
    | none => rfl
    | some short =>
      simp only [pure']
      cases short
      · simp only [Bool.false_eq_true, if_false, divFull, Option.bind_eq_bind, Option.bind_assoc]
        refine join_opLoad m z s false _ _ mem fun divisor => ?_
        refine join_pure _ _ _ mem fun p => ?_
        simp only [Option.pure_def, Option.bind_some, store_setMem]
        rfl
      · simp only [if_true, divLow, Option.bind_eq_bind, Option.bind_assoc]
        refine join_opLoad m z s false _ _ mem fun divisor => ?_
        refine join_pure _ _ _ mem fun p => ?_
        simp only [Option.pure_def, Option.bind_some, store_setMem]
        rfl

theorem join_xlat (m : St) (a32 : Bool) (mem : VMem) :
    join ((cXlat m a32 .done).run mem) = liftXlat (setMem mem m) a32 := by
  unfold cXlat liftXlat
  simp only [Option.bind_eq_bind]
  exact join_load m _ _ _ _ _ mem fun v => rfl

theorem bitscanStore_setMem (m : St) (mem : VMem) (eq : Val 1) (z : Sz) (r : Fin 16) (v : Val z.bits) :
    bitscanStore slide (setMem mem m) eq z (.reg r) v = (bitscanStore slide m eq z (.reg r) v).map (setMem mem) := by
  cases z <;> rfl

theorem join_bitscan (m : St) (trailing : Bool) (z : Sz) (r : Fin 16) (s : Op) (mem : VMem) :
    join ((cBitscan slide m trailing z r s .done).run mem) = liftBitscan slide (setMem mem m) trailing z (.reg r) s := by
  unfold cBitscan liftBitscan
  simp only [Option.bind_eq_bind]
  refine join_opLoad m z s false _ _ mem fun src => ?_
  rw [bitscanStore_setMem]
  cases bitscanStore slide m (icmp .eq src (some 0)) z (.reg r)
    (if trailing then cttz true src else IR.sub (some (BitVec.ofNat _ (z.bits - 1))) (ctlz true src)) <;> rfl

theorem join_popcnt (m : St) (z : Sz) (d s : Op) (mem : VMem) :
    join ((cPopcnt slide m z d s .done).run mem) = liftPopcnt slide (setMem mem m) z d s := by
  unfold cPopcnt liftPopcnt
  simp only [Option.bind_eq_bind]
  refine join_opLoad m z s false _ _ mem fun src => ?_
  exact join_opStore m z d _ _ _ mem fun c mem => rfl

theorem clobber_setMem (cfg : Cfg) (m : St) (mem : VMem) : clobber cfg (setMem mem m) = setMem mem (clobber cfg m) := by
  unfold clobber
  split <;> rfl

theorem join_call (cfg : Cfg) (hcall : cfg.callFunction = none) (m : St) (s : Op) (next : BitVec 64) (mem : VMem) :
    join ((cCall slide cfg m s .done).run mem) = liftCall cfg slide (setMem mem m) (fun m => opLoad slide m .q s true) next := by
  unfold cCall liftCall
  simp only [Option.bind_eq_bind, hcall, clobber_setMem]
  refine join_opLoad _ .q s true _ _ mem fun v => ?_
  exact join_push _ _ _ _ _ mem fun c mem => rfl

theorem join_ctl (m : St) (k : Ctl) (o : Op) (mem : VMem) :
    join ((cCtl slide m k o .done).run mem) = liftCtl slide (setMem mem m) k o := by
  cases k <;> first | rfl | exact join_opStore_done _ _ _ _ _

theorem join_strBody (m : St) (k : Str) (z : Sz) (ax : Val z.bits) (si di : Val 64) (fin : Val z.bits → Val z.bits → Code St)
    (K : St × Val z.bits × Val z.bits → Option St) (mem : VMem)
    (h : ∀ a b mem, join ((fin a b).run mem) = K (setMem mem m, a, b)) :
    join ((cStrBody k z ax si di fin).run mem) = (strBody k z ax (setMem mem m) si di).bind K := by
  unfold cStrBody strBody
  cases k with
  | lods =>
    simp only [Option.bind_eq_bind, Option.bind_assoc, Option.bind_some]
    exact join_load m _ _ _ _ _ mem fun v => h _ _ _
  | stos =>
    simp only [Option.bind_eq_bind, Option.bind_assoc, Option.bind_some]
    exact join_store m _ _ _ _ _ (fun c => K (c, ax, ax)) mem fun mem => h _ _ _
  | movs =>
    simp only [Option.bind_eq_bind, Option.bind_assoc, Option.bind_some]
    exact join_load m _ _ _ _ _ mem fun v => join_store m _ _ _ _ _ (fun c => K (c, v, v)) mem fun mem => h _ _ _
  | scas =>
    simp only [Option.bind_eq_bind, Option.bind_assoc, Option.bind_some]
    exact join_load m _ _ _ _ _ mem fun v => h _ _ _
  | cmps =>
    simp only [Option.bind_eq_bind, Option.bind_assoc, Option.bind_some]
    exact join_load m _ _ _ _ _ mem fun a => join_load m _ _ _ _ _ mem fun b => h _ _ _

theorem join_str (m : St) (k : Str) (z : Sz) (mem : VMem) :
    join ((cStr m k z .done).run mem) = liftStr (setMem mem m) k z .none := by
  unfold cStr liftStr
  rw [if_neg (by simp)]
  simp only [repMode, Option.bind_eq_bind]
  refine join_strBody m k z _ _ _ _ _ mem fun a b mem => ?_
  cases k <;> cases z <;> rfl

end Verif.Conc.X86
