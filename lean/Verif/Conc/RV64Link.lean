import Verif.Conc.RV64
import Verif.Conc.Lemmas

/-! The accesses of the code of RV64 instructions agree with the sequential model of the lifter. -/

namespace Verif.Conc.RV64

open Verif.IR Verif.RV64

theorem run_load (a : Val 64) (n : Nat) (o : Ord) (k : Val (8 * n) → Code St) (s : St) (mem : VMem) :
    (loadCode a n o k).run mem = (loadN { s with mem } a n).bind fun v => (k v).run mem := by
  unfold loadCode loadN
  cases a with
  | none => rfl
  | some a =>
    simp only [Code.run, Acc.perform]
    split <;> rfl

theorem run_store (a : Val 64) (n : Nat) (o : Ord) (v : Val (8 * n)) (c : Code St) (s : St) (mem : VMem) :
    (storeCode a n o v c).run mem = (storeN { s with mem } a n v).bind fun s => c.run s.mem := by
  unfold storeCode storeN
  cases a with
  | none => rfl
  | some a =>
    simp only [Code.run, Acc.perform]
    split <;> rfl

/-- The state with another memory. -/
def setMem (mem : VMem) (s : St) : St := { s with mem }

theorem storeGp_setMem (s : St) (mem : VMem) (r : Nat) {w : Nat} (v : Val w) :
    storeGp (setMem mem s) r v = setMem mem (storeGp s r v) := by
  unfold storeGp; split <;> rfl

theorem storeFp_setMem (s : St) (mem : VMem) (r : Nat) {w : Nat} (v : Val w) :
    storeFp (setMem mem s) r v = setMem mem (storeFp s r v) := rfl

theorem loadGp_setMem (s : St) (mem : VMem) (r w : Nat) : loadGp (setMem mem s) r w = loadGp s r w := rfl
theorem loadFp_setMem (s : St) (mem : VMem) (r w : Nat) : loadFp (setMem mem s) r w = loadFp s r w := rfl

theorem liftDivRem_setMem (s : St) (mem : VMem) (i : Frv) (w : Nat) (op : DivOp) :
    liftDivRem (setMem mem s) i w op = (liftDivRem s i w op).map (setMem mem) := by
  unfold liftDivRem
  simp only [loadGp_setMem]
  split
  · rfl
  · split
    · simp only [storeGp_setMem, Option.map_some]
    · simp only [storeGp_setMem, Option.map_map]
      rfl

theorem liftFp_setMem (s : St) (mem : VMem) (i : Frv) (op : FOp) (f : FW) :
    liftFp (setMem mem s) i op f = (liftFp s i op f).map (setMem mem) := by
  cases op <;> simp only [liftFp, liftFpArith, liftFminmax, liftFmadd, liftFcmp, liftFcvtIToF, liftFcvtFToI, loadFp_setMem,
    loadGp_setMem, storeFp_setMem, storeGp_setMem, Option.map_map, Option.map_some]
  · split <;> rfl
  · rfl
  · split <;> rfl

theorem liftPlain_setMem (slide : BitVec 64) (i : Frv) (s : St) (mem : VMem) (h : ∀ s fin, memCode i s fin = none) :
    liftPlain slide i (setMem mem s) = (liftPlain slide i s).map (Option.map (setMem mem)) := by
  cases hm : i.mnem <;>
  first
  | (exfalso; have := h s .done; simp only [memCode, hm, reduceCtorEq] at this; done)
  | (simp only [hm, liftPlain]; rfl)
  | (simp only [hm, liftPlain, liftDivRem_setMem, liftFp_setMem, Option.map_map]; rfl)
  | (simp only [hm, liftPlain, liftBinOpR, liftBinOpI, liftShift, liftMulh, liftFclass, liftShNAdd,
      liftUnary, liftRotate, liftBit, liftBitExtract, liftOrcb, liftCLMul, storeGp_setMem]; rfl)
  | (simp only [hm, liftPlain, storeGp_setMem]; split <;> rfl)

/-- The outcome with another memory. -/
def withMem (mem : VMem) (o : Out) : Out := { o with st := setMem mem o.st }

theorem lift_setMem (slide : BitVec 64) (i : Frv) (start : BitVec 64) (len : Nat) (m : St) (mem : VMem)
    (h : ∀ s fin, memCode i s fin = none) :
    lift {} slide i start len (setMem mem m) = (lift {} slide i start len m).map (withMem mem) := by
  have hp := liftPlain_setMem slide i { m with pc := .const start } mem h
  have hpl : ∀ stop : BitVec 64, finishPlain start stop (setMem mem { m with pc := .const start })
        (liftPlain slide i (setMem mem { m with pc := .const start })) =
      (finishPlain start stop { m with pc := .const start } (liftPlain slide i { m with pc := .const start })).map
        (withMem mem) := by
    intro stop
    rw [hp]
    cases liftPlain slide i { m with pc := .const start } with
    | none => rfl
    | some o => cases o <;> rfl
  unfold lift
  simp only
  split
  all_goals first
    | exact hpl _
    | rfl
    | skip
  all_goals simp only [liftJal, jalFinish, jalState, liftEcall]
  · unfold storeGp; split <;> split <;> rfl
  · unfold storeGp; split <;> split <;> rfl
  · split <;> rfl

/-- The end of the code of a straight-line instruction, and its outcome in the sequential model. -/
def fin (stop : BitVec 64) (s : St) : Code St := .done { s with pc := .const stop }

def outcome (stop : BitVec 64) (old : VMem) (s : St) : St × VMem := (setMem old { s with pc := .const stop }, s.mem)

theorem finish_outcome (start stop : BitVec 64) (s : St) (x : Option St) (old : VMem) :
    ((finishPlain start stop s (x.map some)).map fun o => (setMem old o.st, o.st.mem)) = x.map (outcome stop old) := by
  cases x <;> rfl

theorem storeGp_old (s : St) (r : Nat) {w : Nat} (v : Val w) : (storeGp s r v).mem = s.mem := by
  unfold storeGp; split <;> rfl

theorem setMem_fin (stop : BitVec 64) (s s' : St) (mem : VMem) (h : s'.mem = s.mem) :
    (fin stop s').run mem = some (outcome stop s.mem (setMem mem s')) := by
  simp only [fin, Code.run, outcome, setMem, ← h]

theorem run_ld (stop : BitVec 64) (s : St) (i : Frv) (n : Nat) (ext : Val (8 * n) → Val 64) (mem : VMem) :
    (ldCode s i n ext (fin stop)).run mem = (liftLoad (setMem mem s) i n ext).map (outcome stop s.mem) := by
  unfold ldCode liftLoad
  rw [run_load _ _ _ _ s, show addr (setMem mem s) i = addr s i from rfl]
  change Option.bind (loadN (setMem mem s) _ _) _ = _
  cases loadN (setMem mem s) (addr s i) n with
  | none => rfl
  | some v =>
    simp only [Option.bind_some, Option.map_some, storeGp_setMem]
    exact setMem_fin _ _ _ _ (storeGp_old _ _ _)

theorem run_ldFp (stop : BitVec 64) (s : St) (i : Frv) (n : Nat) (mem : VMem) :
    (loadCode (addr s i) n .notAtomic fun v => fin stop (storeFp s i.rd v)).run mem =
      (liftLoadFp (setMem mem s) i n).map (outcome stop s.mem) := by
  unfold liftLoadFp
  rw [run_load _ _ _ _ s, show addr (setMem mem s) i = addr s i from rfl]
  change Option.bind (loadN (setMem mem s) _ _) _ = _
  cases loadN (setMem mem s) (addr s i) n with
  | none => rfl
  | some v =>
    simp only [Option.bind_some, Option.map_some, storeFp_setMem]
    exact setMem_fin _ _ _ _ rfl

theorem run_lr (stop : BitVec 64) (s : St) (i : Frv) (n : Nat) (mem : VMem) :
    (loadCode (loadGp s i.rs1 64) n .notAtomic fun v => fin stop (storeGp s i.rd v)).run mem =
      ((loadN (setMem mem s) (loadGp s i.rs1 64) n).map fun v => storeGp (setMem mem s) i.rd v).map (outcome stop s.mem) := by
  rw [run_load _ _ _ _ s]
  change Option.bind (loadN (setMem mem s) _ _) _ = _
  cases loadN (setMem mem s) (loadGp s i.rs1 64) n with
  | none => rfl
  | some v =>
    simp only [Option.bind_some, Option.map_some, storeGp_setMem]
    exact setMem_fin _ _ _ _ (storeGp_old _ _ _)

theorem run_st (stop : BitVec 64) (s : St) (a : Val 64) (n : Nat) (v : Val (8 * n)) (mem : VMem) :
    (storeCode a n .notAtomic v (fin stop s)).run mem = (storeN (setMem mem s) a n v).map (outcome stop s.mem) := by
  rw [run_store _ _ _ _ _ s]
  change Option.bind (storeN (setMem mem s) _ _ _) _ = _
  unfold storeN
  cases a with
  | none => rfl
  | some a =>
    simp only
    split <;> rfl

theorem run_amo (stop : BitVec 64) (s : St) (i : Frv) (n : Nat) (op : RmwOp) (mem : VMem) :
    (amoCode s i n op (fin stop)).run mem = (liftAmo (setMem mem s) i n op).map (outcome stop s.mem) := by
  unfold amoCode liftAmo
  have hb : ∀ k, (amoOrd k).isSome = decide (k ≤ 3) := by
    intro k
    match k with
    | 0 | 1 | 2 | 3 => rfl
    | k + 4 => simp [amoOrd, amoOrdering]
  have hb := hb i.imm.toNat
  cases ho : amoOrd i.imm.toNat with
  | none =>
    rw [ho] at hb
    rw [if_neg (by simpa using hb)]
    rfl
  | some o =>
    rw [ho] at hb
    rw [if_pos (by simpa using hb.symm)]
    simp only [rmwCode, loadGp_setMem, loadN, storeN]
    cases loadGp s i.rs1 64 with
    | none => rfl
    | some a =>
      simp only [Code.run, Acc.perform]
      by_cases ha : a.toNat % n = 0
      · simp only [if_pos ha, Option.bind_some, Option.map_some]
        unfold storeGp fin outcome
        split <;> rfl
      · simp only [if_neg ha, Option.bind_none, Option.map_none]

/-- The accesses of an instruction, executed without interruption, are what the sequential model of the lifter does. -/
theorem code_run (slide : BitVec 64) (i : Frv) (start : BitVec 64) (len : Nat) (m : St) (mem : VMem) :
    (code slide i start len m).run mem =
      (lift {} slide i start len (setMem mem m)).map fun o => (setMem m.mem o.st, o.st.mem) := by
  by_cases h : ∀ s fin, memCode i s fin = none
  · rw [lift_setMem _ _ _ _ _ _ h]
    unfold code
    rw [h]
    simp only
    have hkeep : ∀ o, lift {} slide i start len m = some o → o.st.mem = m.mem := by
      intro o ho
      have h2 := lift_setMem slide i start len m m.mem h
      rw [show setMem m.mem m = m from rfl, ho] at h2
      simp only [Option.map_some, Option.some.injEq] at h2
      rw [h2]
      rfl
    cases ho : lift {} slide i start len m with
    | none => rfl
    | some o =>
      have := hkeep o ho
      simp only [Code.run, Option.map_some, withMem, setMem, ← this]
  · have hl : lift {} slide i start len (setMem mem m) = finishPlain start (start + BitVec.ofNat 64 len)
        { setMem mem m with pc := .const start } (liftPlain slide i { setMem mem m with pc := .const start }) := by
      unfold lift
      simp only
      split
      all_goals first
        | rfl
        | (exfalso; apply h; intro s fin; simp only [memCode, *])
    rw [hl]
    unfold code
    cases hm : i.mnem <;>
    first
    | (exfalso; apply h; intro s fin; simp only [memCode, hm]; done)
    | (simp only [memCode, hm, liftPlain, finish_outcome]
       first
       | exact run_ld _ _ _ _ _ _
       | exact run_st _ { m with pc := .const start } _ _ _ _
       | exact run_amo _ _ _ _ _ _
       | exact run_lr _ _ _ _ _
       | exact run_ldFp _ _ _ _ _
       | (rw [show ({ setMem mem m with pc := .const start } : St) = setMem mem { m with pc := .const start } from rfl]
          simp only [storeGp_setMem, loadGp_setMem]
          refine (run_st _ _ _ _ _ _).trans ?_
          rw [storeGp_old]))

end Verif.Conc.RV64
