import Verif.X86.BvLemmas

/-! Operand access, register writes and flag updates preserve the relation between the state of the
lifted code and the architectural state. -/

set_option linter.unusedSimpArgs false

namespace Verif.X86

open Verif.IR Verif.X86.Spec

/-! ### Program counter -/

theorem pc_get (slide off v : BitVec 64) (p : Pc) (h : p.val slide = some v) :
    p.get slide off = some (v + off) := by
  cases p with
  | value x =>
    cases x with
    | none => simp [Pc.val, Pc.get, IR.add, bin] at h
    | some x => simp [Pc.val, Pc.get, IR.add, bin] at h ⊢; subst h; simp
  | check x a =>
    cases x with
    | none => simp [Pc.val, Pc.get, IR.add, bin] at h
    | some x => simp [Pc.val, Pc.get, IR.add, bin] at h ⊢; subst h; simp
  | const a =>
    simp [Pc.val, Pc.get, addrPCBase] at h ⊢; subst h
    rw [BitVec.add_assoc, BitVec.add_comm off, BitVec.add_assoc]
  | cond c a b =>
    cases c with
    | none => simp [Pc.val, Pc.get, addrPCBase, select] at h
    | some c =>
      simp only [Pc.val, Pc.get, addrPCBase, select] at h ⊢
      split at h <;> simp at h <;> subst h <;> simp_all <;>
        rw [BitVec.add_assoc, BitVec.add_comm off, BitVec.add_assoc]

/-! ### Registers -/

theorem trunc_some {w : Nat} (v : Nat) (x : BitVec w) : trunc v (some x) = some (x.setWidth v) := rfl
theorem zext_some {w : Nat} (v : Nat) (x : BitVec w) : zext v (some x) = some (x.setWidth v) := rfl
theorem sext_some {w : Nat} (v : Nat) (x : BitVec w) : sext v (some x) = some (x.signExtend v) := rfl
theorem add_some {w : Nat} (x y : BitVec w) : IR.add (some x) (some y) = some (x + y) := rfl
theorem sub_some {w : Nat} (x y : BitVec w) : IR.sub (some x) (some y) = some (x - y) := rfl
theorem mul_some {w : Nat} (x y : BitVec w) : IR.mul (some x) (some y) = some (x * y) := rfl
theorem and_some {w : Nat} (x y : BitVec w) : IR.and (some x) (some y) = some (x &&& y) := rfl
theorem or_some {w : Nat} (x y : BitVec w) : IR.or (some x) (some y) = some (x ||| y) := rfl
theorem xor_some {w : Nat} (x y : BitVec w) : IR.xor (some x) (some y) = some (x ^^^ y) := rfl
theorem not_some {w : Nat} (x : BitVec w) : IR.not (some x) = some (~~~ x) := rfl
theorem neg_some {w : Nat} (x : BitVec w) : IR.neg (some x) = some (- x) := rfl
theorem icmp_some {w : Nat} (p : Pred) (x y : BitVec w) :
    icmp p (some x) (some y) = some (BitVec.ofBool (p.eval x y)) := rfl

theorem extract0 {w n : Nat} (x : BitVec w) : x.extractLsb' 0 n = x.setWidth n := by
  apply BitVec.eq_of_getLsbD_eq; intro i hi; simp [hi]

theorem merge_bv (w : Nat) (hw : w ≤ 64) (x : BitVec 64) (v : BitVec w) :
    (x &&& BitVec.allOnes 64 <<< w) ||| v.setWidth 64 = (x.extractLsb' w (64 - w) ++ v).cast (by omega) := by
  apply BitVec.eq_of_getLsbD_eq
  intro i hi
  simp only [BitVec.getLsbD_or, BitVec.getLsbD_and, BitVec.getLsbD_shiftLeft, BitVec.getLsbD_allOnes,
    BitVec.getLsbD_setWidth, hi, decide_true, Bool.true_and, BitVec.getLsbD_cast,
    BitVec.getLsbD_append, BitVec.getLsbD_extractLsb']
  by_cases h : i < w
  · simp [h]
  · have h2 : v.getLsbD i = false := BitVec.getLsbD_of_ge _ _ (by omega)
    simp [h, h2, show w + (i - w) = i by omega, show i - w < 64 by omega,
      show i - w < 64 - w by omega]

theorem storeH_bv (x : BitVec 64) (v : BitVec 8) :
    (v.setWidth 64) <<< 8 ||| (x &&& 0xffffffffffff00ff#64)
      = x.extractLsb' 16 48 ++ v ++ x.extractLsb' 0 8 := by
  apply BitVec.eq_of_getLsbD_eq
  intro i hi
  have hm : (0xffffffffffff00ff#64) = BitVec.allOnes 48 ++ 0#8 ++ BitVec.allOnes 8 := by decide
  rw [hm]
  simp only [BitVec.getLsbD_or, BitVec.getLsbD_and, BitVec.getLsbD_shiftLeft, BitVec.getLsbD_allOnes,
    BitVec.getLsbD_setWidth, hi, decide_true, Bool.true_and, BitVec.getLsbD_zero,
    BitVec.getLsbD_append, BitVec.getLsbD_extractLsb']
  by_cases h : i < 8
  · simp [h]
  · by_cases h3 : i - 8 < 8
    · simp [h, h3, show i - 8 < 64 by omega]
    · have h2 : v.getLsbD (i - 8) = false := BitVec.getLsbD_of_ge _ _ (by omega)
      simp [h, h2, h3, show 16 + (i - 8 - 8) = i by omega, show i - 8 - 8 < 48 by omega]

end Verif.X86

namespace Verif.X86.Spec

open Verif.IR

variable {slide : BitVec 64} {m : St} {s : S}

theorem Rel.get (h : Rel slide m s) (r : Fin 16) (z : Sz) : m.get r z = some (s.reg r z) := by
  rw [St.get, h.gp, trunc_some, S.reg, extract0]

theorem Rel.getH (h : Rel slide m s) (r : Fin 4) : m.getH (hreg r) = some (s.regH r) := by
  rw [St.getH, h.gp, lshr_some, if_pos (by decide), trunc_some, S.regH]
  congr 1

theorem Rel.getFl (h : Rel slide m s) {f : Flag} {b : Bool} (hf : s.fl f = some b) :
    m.getF f = some (BitVec.ofBool b) := h.fl f b hf

theorem getF_setGp (m : St) (r : Fin 16) (v : Val 64) (f : Flag) :
    (m.setGp r v).getF f = m.getF f := by
  cases f <;> rfl

theorem Rel.setGp (h : Rel slide m s) (r : Fin 16) (v : BitVec 64) :
    Rel slide (m.setGp r (some v)) (s.setGp r v) where
  gp x := by simp only [St.setGp, S.setGp]; split <;> simp [h.gp]
  vec := h.vec
  fs := h.fs
  gs := h.gs
  mem := h.mem
  pc := h.pc
  fl f b hf := by rw [getF_setGp]; exact h.fl f b hf

theorem Rel.store (h : Rel slide m s) (r : Fin 16) (z : Sz) (v : BitVec z.bits) :
    Rel slide (m.store r z (some v)) (s.setReg r z v) := by
  cases z with
  | b =>
    simp only [St.store, St.merge, h.gp, and_some, zext_some, or_some, S.setReg]
    rw [merge_bv _ (by decide)]
    exact h.setGp _ _
  | w =>
    simp only [St.store, St.merge, h.gp, and_some, zext_some, or_some, S.setReg]
    rw [merge_bv _ (by decide)]
    exact h.setGp _ _
  | d =>
    simp only [St.store, zext_some, S.setReg]
    have : v.setWidth 64 = 0#32 ++ v := by
      apply BitVec.eq_of_getLsbD_eq; intro i hi
      simp only [BitVec.getLsbD_setWidth, hi, decide_true, Bool.true_and, BitVec.getLsbD_append,
        BitVec.getLsbD_zero]
      split
      · rfl
      · exact BitVec.getLsbD_of_ge _ _ (by simp only [Sz.bits, Sz.bytes] at *; omega)
    rw [this]; exact h.setGp _ _
  | q =>
    simp only [St.store, zext_some, S.setReg]
    have : v.setWidth 64 = v := BitVec.setWidth_eq v
    rw [this]; exact h.setGp _ _

theorem Rel.storeH (h : Rel slide m s) (r : Fin 4) (v : BitVec 8) :
    Rel slide (m.storeH (hreg r) (some v)) (s.setRegH r v) := by
  simp only [St.storeH, h.gp, zext_some, and_some, shl_some]
  rw [if_pos (by decide), or_some]
  have := storeH_bv (s.gp (hreg r)) v
  rw [show (8#64).toNat = 8 from rfl, this]
  exact h.setGp _ _

/-! ### Memory -/

theorem Rel.read (h : Rel slide m s) (a : BitVec 64) (n k : Nat) (hk : a.toNat % k = 0) :
    X86.load m (some a) n k = some (some (s.mem.read a n)) := by
  simp only [X86.load, hk, if_true, h.mem, VMem.read_toV]

theorem Rel.write (h : Rel slide m s) (a : BitVec 64) (n k : Nat) (v : BitVec (8 * n))
    (hk : a.toNat % k = 0) :
    ∃ m', X86.store m (some a) n k (some v) = some m' ∧ Rel slide m' (s.store a n v) ∧
      m' = { m with mem := m'.mem } := by
  refine ⟨{ m with mem := (s.mem.write a n v).toV }, ?_, ?_, rfl⟩
  · simp only [X86.store, hk, if_true, h.mem, VMem.write_toV]
  · exact { gp := h.gp, vec := h.vec, fs := h.fs, gs := h.gs, mem := rfl, pc := h.pc
            fl := fun f b hf => by have := h.fl f b hf; cases f <;> exact this }

/-- The address with the data segment forced. -/
def S.ea' (s : S) (o : MemOp) (ds : Bool) : BitVec 64 :=
  s.ea (if ds then { o with seg := .none } else o)

theorem shift_pow (k : Fin 4) : 1#64 <<< k.val = BitVec.ofNat 64 (2 ^ k.val) := by
  revert k; decide
theorem shift_pow32 (k : Fin 4) : 1#32 <<< k.val = BitVec.ofNat 32 (2 ^ k.val) := by
  revert k; decide

theorem setWidth_add32 (a b : BitVec 64) :
    (a + b).setWidth 32 = a.setWidth 32 + b.setWidth 32 :=
  BitVec.setWidth_add a b (by decide)

theorem setWidth_mul32 (a b : BitVec 64) :
    (a * b).setWidth 32 = a.setWidth 32 * b.setWidth 32 :=
  BitVec.setWidth_mul a b (by decide)

theorem setWidth_pow32 (k : Fin 4) :
    (BitVec.ofNat 64 (2 ^ k.val)).setWidth 32 = BitVec.ofNat 32 (2 ^ k.val) := by
  revert k; decide

theorem opAddr_ds (o : MemOp) (ds : Bool) :
    X86.opAddr slide m o ds = X86.opAddr slide m (if ds then { o with seg := .none } else o) false := by
  cases ds <;> rfl

theorem opAddr_plain (h : Rel slide m s) (o : MemOp) (ho : MemOp.plain o = true) :
    X86.opAddr slide m o false = some (some (s.ea o)) := by
  obtain ⟨seg, a32, base, idx, off⟩ := o
  have hi := pc_get slide off s.ip m.pc h.pc
  cases base <;> cases idx <;> cases seg <;> cases a32 <;> simp [MemOp.plain] at ho <;>
    simp [X86.opAddr, S.ea, S.offset, S.segBase, X86.idxVal, St.ipRel, hi, h.gp, h.fs, h.gs,
      add_some, mul_some, trunc_some, zext_some, extract0, setWidth_add32, setWidth_mul32,
      shift_pow, shift_pow32, setWidth_pow32] <;> ac_rfl

theorem Rel.opAddr (h : Rel slide m s) (o : MemOp) (ds : Bool)
    (ho : MemOp.plain (if ds then { o with seg := .none } else o) = true) :
    X86.opAddr slide m o ds = some (some (S.ea' s o ds)) := by
  rw [opAddr_ds, opAddr_plain h _ ho]; rfl

theorem Rel.opLoad (h : Rel slide m s) (z : Sz) (o : Op) (v : BitVec z.bits)
    (ho : Op.plain o = true) (hv : s.read z o = some v) :
    X86.opLoad slide m z o = some (some v) := by
  cases o with
  | imm x => simp only [S.read, Option.some.injEq] at hv; simp only [X86.opLoad, hv]
  | reg r => simp only [S.read, Option.some.injEq] at hv; simp only [X86.opLoad, h.get, hv]
  | regH r =>
    cases z <;> simp only [S.read, Option.some.injEq, reduceCtorEq] at hv
    simp only [X86.opLoad, h.getH, hv]
  | mem o =>
    simp only [S.read, Option.some.injEq] at hv
    simp only [X86.opLoad, opAddr_plain h o ho, Option.bind_eq_bind, Option.bind_some,
      h.read _ _ 1 (Nat.mod_one _), hv]

/-- Loading the operand of an indirect jump: the segment override is ignored. -/
theorem Rel.opLoad_ds (h : Rel slide m s) (z : Sz) (o : Op) (v : BitVec z.bits)
    (ho : Op.plain o = true) (hs : ∀ a, o = .mem a → a.seg = .none) (hv : s.read z o = some v) :
    X86.opLoad slide m z o true = some (some v) := by
  rw [← h.opLoad z o v ho hv]
  cases o with
  | mem o =>
    have : o = { o with seg := .none } := by
      have := hs o rfl; cases o; simp at this; subst this; rfl
    simp only [X86.opLoad]; rw [opAddr_ds, if_pos rfl, ← this]
  | _ => rfl

theorem Rel.opStore (h : Rel slide m s) (z : Sz) (o : Op) (v : BitVec z.bits)
    (ho : Op.plain o = true) {s' : S} (hv : s.write z o v = some s') :
    ∃ m', X86.opStore slide m z o (some v) = some m' ∧ Rel slide m' s' := by
  cases o with
  | imm x => simp [S.write, S.writeAt] at hv
  | reg r =>
    simp only [S.write, S.writeAt, Option.some.injEq] at hv
    exact ⟨_, rfl, hv ▸ h.store r z v⟩
  | regH r =>
    cases z <;> simp only [S.write, S.writeAt, Option.some.injEq, reduceCtorEq] at hv
    exact ⟨_, rfl, hv ▸ h.storeH r v⟩
  | mem o =>
    simp only [S.write, S.writeAt, Option.some.injEq] at hv
    simp only [X86.opStore, opAddr_plain h o ho, Option.bind_eq_bind, Option.bind_some]
    obtain ⟨m', h1, h2, _⟩ := h.write (s.ea o) z.bytes 1 v (Nat.mod_one _)
    exact ⟨m', h1, hv ▸ h2⟩

end Verif.X86.Spec
