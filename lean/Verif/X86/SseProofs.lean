import Verif.X86.SseLanes
import Verif.X86.Spec

/-! Operands and registers of SSE instructions. -/

set_option linter.unusedSimpArgs false
set_option linter.constructorNameAsVariable false

namespace Verif.X86.Spec

open Verif.IR Verif.Bits

variable {slide : BitVec 64} {m : St} {s s' : S}

/-- The memory operand, if any, is one the lifter handles (see `MemOp.plain`). -/
def XOp.plain : XOp → Bool
  | .mem o => MemOp.plain o
  | _ => true

theorem merge128 (w : Nat) (hw : w ≤ 128) (x : BitVec 128) (v : BitVec w) :
    (x &&& BitVec.allOnes 128 <<< w) ||| v.setWidth 128 = (x.extractLsb' w (128 - w) ++ v).setWidth 128 := by
  apply BitVec.eq_of_getLsbD_eq
  intro i hi
  simp only [BitVec.getLsbD_or, BitVec.getLsbD_and, BitVec.getLsbD_shiftLeft, BitVec.getLsbD_allOnes,
    BitVec.getLsbD_setWidth, hi, decide_true, Bool.true_and,
    BitVec.getLsbD_append, BitVec.getLsbD_extractLsb']
  by_cases h : i < w
  · simp [h]
  · have h2 : v.getLsbD i = false := BitVec.getLsbD_of_ge _ _ (by omega)
    simp [h, h2, show w + (i - w) = i by omega, show i - w < 128 by omega,
      show i - w < 128 - w by omega]

theorem Rel.setXv (h : Rel slide m s) (r : Fin 16) (v : BitVec 128) :
    Rel slide { m with vec := fun x => if x = r then some v else m.vec x } (s.setX r v) where
  gp := h.gp
  vec x := by simp only [S.setX]; split <;> simp [h.vec]
  fs := h.fs
  gs := h.gs
  mem := h.mem
  pc := h.pc
  fl f b hf := by have := h.fl f b hf; cases f <;> exact this

theorem Rel.mergeX (h : Rel slide m s) (r : Fin 16) {w : Nat} (v : BitVec w) (hw : w ≤ 128) :
    Rel slide (m.mergeX r (some v)) (s.setLow r v) := by
  unfold St.mergeX S.setLow
  by_cases e : w = 128
  · subst e
    rw [if_pos rfl, zext_some]
    have : ((s.vec r).extractLsb' 128 (128 - 128) ++ v).setWidth 128 = v.setWidth 128 := by
      rw [← merge128 128 (by decide)]
      have : BitVec.allOnes 128 <<< 128 = 0#128 := by decide
      rw [this]; simp
    rw [this]
    exact h.setXv r _
  · rw [if_neg e, h.vec, and_some, zext_some, or_some, merge128 w hw]
    exact h.setXv r _

theorem Rel.merge128 (h : Rel slide m s) (r : Fin 16) (v : BitVec 128) :
    Rel slide (m.mergeX r (some v)) (s.setX r v) := by
  unfold St.mergeX
  rw [if_pos rfl, zext_some, BitVec.setWidth_eq]
  exact h.setXv r _

theorem Rel.setX (h : Rel slide m s) (r : Fin 16) {w n : Nat} {v : Vec w} {f : Nat → BitVec w}
    (hn : w * n = 128) (hf : ∀ i, i < n → v i = some (f i)) : Rel slide (m.setX r n v) (s.setXs r w f) := by
  have e : 128 / w = n := by
    have hw : 0 < w := by
      rcases Nat.eq_zero_or_pos w with h0 | h0
      · subst h0; simp at hn
      · exact h0
    rw [← hn, Nat.mul_div_cancel_left _ hw]
  unfold St.setX S.setXs
  rw [e, Vec.toBits_eq hf]
  unfold St.mergeX
  rw [if_pos hn, zext_some]
  exact h.setXv r _

theorem Rel.xload (h : Rel slide m s) {n al al' : Nat} {o : XOp} {v : BitVec (8 * n)} (ho : XOp.plain o = true)
    (hal : al ∣ al') (hv : s.xsrc n al' o = some v) : xload slide m n al o = some (some v) := by
  cases o with
  | x r =>
    simp only [S.xsrc, Option.some.injEq] at hv
    simp only [X86.xload, h.vec, trunc_some, ← hv, extract0]
  | gp r =>
    simp only [S.xsrc, Option.some.injEq] at hv
    simp only [X86.xload, h.gp, trunc_some, ← hv, extract0]
  | mem o =>
    simp only [S.xsrc] at hv
    split at hv
    next ha =>
      simp only [Option.some.injEq] at hv
      simp only [X86.xload, opAddr_plain h o ho, Option.bind_eq_bind, Option.bind_some]
      rw [h.read _ _ _ (Nat.mod_eq_zero_of_dvd (Nat.dvd_trans hal (Nat.dvd_of_mod_eq_zero ha))), hv]
    · simp at hv

/-- A full-width operand as vector. -/
theorem Rel.xloadV (h : Rel slide m s) {z : Sz} {al : Nat} {o : XOp} {v : BitVec 128} (ho : XOp.plain o = true)
    (hal : al ∣ 16) (hv : s.xsrc 16 16 o = some v) :
    xloadV slide m z z.cnt al o = some (Vec.ofBits z.bits (some v)) := by
  unfold X86.xloadV
  have := h.xload (n := 16) ho hal hv
  cases z <;> exact congrArg (Option.map _) this

theorem Rel.xvec (h : Rel slide m s) (z : Sz) (r : Fin 16) : m.xvec z r = Vec.ofBits z.bits (some (s.vec r)) := by
  rw [St.xvec, h.vec]

/-- Instructions on two full registers. -/
theorem Rel.bin128 (h : Rel slide m s) {z : Sz} {al n w : Nat} {d : Fin 16} {o : XOp}
    {f : Vec z.bits → Vec z.bits → Vec w} {F : (Nat → BitVec z.bits) → (Nat → BitVec z.bits) → Nat → BitVec w}
    (ho : XOp.plain o = true) (hal : al ∣ 16) (hn : w * n = 128)
    (hs : s.packed z d o F = some s')
    (hf : ∀ (a b : BitVec 128) i, i < n → f (Vec.ofBits z.bits (some a)) (Vec.ofBits z.bits (some b)) i =
      some (F (fun i => lane z.bits a i) (fun i => lane z.bits b i) i)) : ∃ m', bin128 slide m z al d o n f = some m' ∧ Rel slide m' s' := by
  unfold S.packed at hs
  cases hv : s.xsrc 16 16 o with
  | none => rw [hv] at hs; simp at hs
  | some v =>
    rw [hv] at hs
    simp only [Option.bind_eq_bind, Option.bind_some, pure, Option.some.injEq] at hs
    refine ⟨_, ?_, hs ▸ h.setX d hn (hf (s.vec d) v)⟩
    simp only [X86.bin128, h.xloadV ho hal hv, h.xvec, Option.bind_eq_bind, Option.bind_some, pure]

/-- Instructions on the low elements. -/
theorem Rel.scalar (h : Rel slide m s) {z : Sz} {al : Nat} {d : Fin 16} {o : XOp}
    {f : Val z.bits → Val z.bits → Val z.bits} {F : BitVec z.bits → BitVec z.bits → BitVec z.bits}
    (ho : XOp.plain o = true) (hal : ∀ a, o = .mem a → (s.ea a).toNat % al = 0)
    (hs : s.scalar z d o F = some s') (hf : ∀ a b, f (some a) (some b) = some (F a b)) :
    ∃ m', (do
      let b ← X86.xload slide m z.bytes al o
      return m.mergeX d (f (trunc z.bits (m.vec d)) b)) = some m' ∧ Rel slide m' s' := by
  unfold S.scalar at hs
  cases hv : s.xsrc z.bytes 1 o with
  | none => rw [hv] at hs; simp at hs
  | some v =>
    rw [hv] at hs
    simp only [Option.bind_eq_bind, Option.bind_some, pure, Option.some.injEq] at hs
    have hl : X86.xload slide m z.bytes al o = some (some v) := by
      apply h.xload ho (Nat.dvd_refl _)
      cases o with
      | mem a =>
        simp only [S.xsrc, Nat.mod_one, if_true] at hv
        simp only [S.xsrc, hal a rfl, if_true, hv]
      | _ => exact hv
    have e : (s.vec d).setWidth z.bits = lane z.bits (s.vec d) 0 := by rw [← extract0]; rfl
    refine ⟨_, ?_, hs ▸ h.mergeX d (F (lane z.bits (s.vec d) 0) v) (by cases z <;> decide)⟩
    simp only [hl, Option.bind_eq_bind, Option.bind_some, pure, h.vec, trunc_some, e]
    exact congrArg (fun x => some (m.mergeX d x)) (hf _ _)

end Verif.X86.Spec
