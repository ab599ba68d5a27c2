import Verif.Conc.A64Link

/-! The accesses of `aCode`, run without interruption, are those of `lift` in `Verif.A64.Model`; how many there are. -/

namespace Verif.Conc.A64

open Verif.IR Verif.A64

variable {slide : BitVec 64}

/-- Registers and memory as one state. -/
def join (x : Option (St × VMem)) : Option St := x.map fun p => setMem p.2 p.1

theorem addr_setMem (m : St) (mem : VMem) (n : Nat) (rn : Reg) (mode : AM) :
    addr slide (setMem mem m) n rn mode = ((addr slide m n rn mode).1, setMem mem (addr slide m n rn mode).2) := by
  cases mode <;> simp only [addr, get_setMem, set_setMem] <;> rfl

theorem join_load (s : St) (a : Val 64) (n al : Nat) (o : Ord) (k : Val (8 * n) → Code St) (K : Val (8 * n) → Option St) (mem : VMem)
    (h : ∀ v, join ((k v).run mem) = K v) : join ((cLoad a n al o k).run mem) = (load (setMem mem s) a n al).bind K := by
  unfold cLoad load
  cases a with
  | none => rfl
  | some a =>
    simp only [Code.run, Acc.perform, setMem]
    split
    · exact h _
    · rfl

theorem join_store (s : St) (a : Val 64) (n al : Nat) (o : Ord) (v : Val (8 * n)) (c : Code St) (K : St → Option St) (mem : VMem)
    (h : ∀ mem, join (c.run mem) = K (setMem mem s)) :
    join ((cStore a n al o v c).run mem) = (store (setMem mem s) a n al v).bind K := by
  unfold cStore store
  cases a with
  | none => rfl
  | some a =>
    simp only [Code.run, Acc.perform, setMem]
    split
    · exact h _
    · rfl

theorem join_loadGp (m : St) (rt : Reg) (w : Nat) (e : Ext) (mo : Bool) (a : Val 64) (fin : St → Code St) (K : St → Option St)
    (mem : VMem) (h : ∀ m, join ((fin m).run mem) = K (setMem mem m)) :
    join ((cLoadGp m rt w e mo a fin).run mem) = (loadGp (setMem mem m) rt w e mo a).bind K := by
  unfold cLoadGp loadGp
  rw [join_load m a _ _ _ _ (fun v => ((extend v w e 0).map fun v => (setMem mem m).set rt v).bind K) mem]
  · rw [Option.bind_assoc]
  · intro v
    cases extend v w e 0 with
    | none => rfl
    | some v => simp only [pure', Option.map_some, Option.bind_some, set_setMem, h]

theorem join_storeGp (m : St) (rt : Reg) (w : Nat) (e : Ext) (mo : Bool) (a : Val 64) (c : Code St) (K : St → Option St)
    (mem : VMem) (h : ∀ mem, join (c.run mem) = K (setMem mem m)) :
    join ((cStoreGp m rt w e mo a c).run mem) = (storeGp (setMem mem m) rt w e mo a).bind K := by
  unfold cStoreGp storeGp
  split
  · exact join_store m _ _ _ _ _ _ _ _ h
  · rfl

theorem setStatus_setMem (m : St) (mem : VMem) (w : Nat) (excl : Option Reg) :
    setStatus (setMem mem m) w excl = setMem mem (setStatus m w excl) := by
  cases excl with
  | none => rfl
  | some r => exact set_setMem _ _ _ _

/-- Run without interruption, the accesses of the code of an instruction are those of `lift`. -/
theorem aCode_run (cfg : Cfg) (i : Instr) (ho : other i = false) (hcall : cfg.callFunction = none) (start : BitVec 64) (len : Nat)
    (m : St) (mem : VMem) :
    join ((aCode slide cfg i start len m).run mem) = (lift cfg slide i start len (setMem mem m)).map (·.st) := by
  have hst : ∀ x : Option St, ((x.map fun m => ({ st := { m with pc := .const (start + BitVec.ofNat 64 len) } } : Out)).map (·.st)) =
      x.bind fun m => some { m with pc := .const (start + BitVec.ofNat 64 len) } := fun x => by cases x <;> rfl
  have hfin : ∀ mem (m : St), join ((Code.done { m with pc := .const (start + BitVec.ofNat 64 len) } : Code St).run mem) =
      some { setMem mem m with pc := .const (start + BitVec.ofNat 64 len) } := fun mem m => rfl
  have hpc : ({ setMem mem m with pc := .const start } : St) = setMem mem { m with pc := .const start } := rfl
  unfold aCode
  cases i with
  | ldr w32 e mode mo rt rn =>
    simp only [lift, memCode, hst, liftLdr, hpc, addr_setMem]
    exact join_loadGp _ _ _ _ _ _ _ _ _ (hfin _)
  | ldp w32 e mode mo rt rt2 rn =>
    simp only [lift, memCode, hst, liftLdp, hpc, addr_setMem, Option.bind_assoc]
    exact join_loadGp _ _ _ _ _ _ _ _ _ fun m => join_loadGp _ _ _ _ _ _ _ _ _ (hfin _)
  | str w32 e mode mo excl rt rn =>
    simp only [lift, memCode, hst, liftStr, hpc, addr_setMem, Option.bind_map]
    exact join_storeGp _ _ _ _ _ _ _ _ _ fun mem => by simp only [Function.comp, setStatus_setMem]; exact hfin _ _
  | stp w32 e mode mo excl rt rt2 rn =>
    simp only [lift, memCode, hst, liftStp, hpc, addr_setMem, Option.bind_assoc, Option.bind_map]
    exact join_storeGp _ _ _ _ _ _ _ _ _ fun mem => join_storeGp _ _ _ _ _ _ _ _ _ fun mem => by
      simp only [Function.comp, setStatus_setMem]; exact hfin _ _
  | ldrFp sz mode rt rn =>
    simp only [lift, memCode, hst, liftLdrFp, hpc, addr_setMem, Option.bind_map]
    exact join_load _ _ _ _ _ _ _ _ fun v => rfl
  | ldpFp sz mode rt rt2 rn =>
    simp only [lift, memCode, hst, liftLdpFp, hpc, addr_setMem, Option.bind_assoc, Option.bind_map, setV_setMem]
    exact join_load _ _ _ _ _ _ _ _ fun v2 => join_load _ _ _ _ _ _ _ _ fun v => rfl
  | strFp sz mode rt rn =>
    simp only [lift, memCode, hst, liftStrFp, hpc, addr_setMem]
    exact join_store _ _ _ _ _ _ _ _ _ fun mem => rfl
  | stpFp sz mode rt rt2 rn =>
    simp only [lift, memCode, hst, liftStpFp, hpc, addr_setMem, Option.bind_assoc]
    exact join_store _ _ _ _ _ _ _ _ _ fun mem => join_store _ _ _ _ _ _ _ _ _ fun mem => rfl
  | dmb crm =>
    simp only [lift, memCode, dmbOk, dmbOrd, bne_iff_ne, ne_eq]
    have : crm % 4 < 4 := Nat.mod_lt _ (by decide)
    generalize crm % 4 = r at this
    obtain rfl | rfl | rfl | rfl : r = 0 ∨ r = 1 ∨ r = 2 ∨ r = 3 := by omega
    all_goals rfl
  | _ =>
    rw [noAccess_run cfg _ (fun _ _ => rfl) ho hcall start len m mem]
    simp only [memCode, ho, Bool.false_eq_true, if_false]
    cases lift cfg slide _ start len m <;> rfl

/-! ### Number of accesses -/

theorem single_load (a : Val 64) (n al : Nat) (o : Ord) (k : Val (8 * n) → Code St) (h : ∀ v, (k v).ended) :
    (cLoad a n al o k).single := by
  cases a with
  | none => trivial
  | some a => exact h

theorem single_store (a : Val 64) (n al : Nat) (o : Ord) (v : Val (8 * n)) (c : Code St) (h : c.ended) :
    (cStore a n al o v c).single := by
  cases a with
  | none => trivial
  | some a => exact fun _ => h

/-- The code of an instruction with one access, or fence, at most. -/
theorem aCode_single (cfg : Cfg) (i : Instr) (h : accesses i ≤ 1) (start : BitVec 64) (len : Nat) (m : St) :
    (aCode slide cfg i start len m).single := by
  unfold aCode
  cases i with
  | ldr w32 e mode mo rt rn =>
    refine single_load _ _ _ _ _ fun v => ?_
    cases extend v (W w32) e 0 <;> trivial
  | str w32 e mode mo excl rt rn =>
    simp only [memCode, cStoreGp]
    split
    · exact single_store _ _ _ _ _ _ trivial
    · trivial
  | ldrFp sz mode rt rn => exact single_load _ _ _ _ _ fun v => trivial
  | strFp sz mode rt rn => exact single_store _ _ _ _ _ _ trivial
  | dmb crm =>
    simp only [memCode]
    cases dmbOrd crm <;> trivial
  | ldp => exact absurd h (by simp [accesses])
  | stp => exact absurd h (by simp [accesses])
  | ldpFp => exact absurd h (by simp [accesses])
  | stpFp => exact absurd h (by simp [accesses])
  | _ =>
    simp only [memCode]
    split
    · trivial
    · cases lift cfg slide _ start len m <;> trivial

end Verif.Conc.A64
