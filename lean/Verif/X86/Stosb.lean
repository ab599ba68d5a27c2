import Verif.X86.Strings

/-! REP STOSB, lifted as a memset. -/

set_option linter.unusedSimpArgs false
set_option linter.constructorNameAsVariable false

namespace Verif.X86.Spec

open Verif.IR

variable {slide : BitVec 64} {m : St} {s s' : S}

/-! ### REP STOSB as memset -/

/-- The region REP STOSB fills starts here. -/
def stosBase (df : Bool) (di cx : BitVec 64) : BitVec 64 := if df then di + (1 - cx) else di

theorem region_step (df : Bool) (di cx x : BitVec 64) (hc : cx ≠ 0) :
    (x - stosBase df di cx).toNat < cx.toNat ↔
      x = di ∨ (x - stosBase df (if df then di - 1 else di + 1) (cx - 1)).toNat < (cx - 1).toNat := by
  have hc1 : (cx - 1).toNat = cx.toNat - 1 := by bv_omega
  have hc0 : cx.toNat ≠ 0 := fun h => hc (BitVec.eq_of_toNat_eq (by simpa using h))
  have key : ∀ a b : BitVec 64, a - b = 0 ↔ a = b := by
    intro a b
    constructor
    · intro h; have := congrArg (· + b) h; simpa [BitVec.sub_add_cancel] using this
    · rintro rfl; exact BitVec.sub_self _
  cases df
  · simp only [stosBase, Bool.false_eq_true, if_false]
    have e : x - (di + 1) = x - di - 1 := by
      simp only [BitVec.sub_eq_add_neg, BitVec.neg_add, BitVec.add_assoc]
    rw [e, hc1, ← key x di]
    generalize x - di = d
    have h1 : d = 0 ↔ d.toNat = 0 := ⟨fun h => by rw [h]; rfl, fun h => BitVec.eq_of_toNat_eq (by simpa using h)⟩
    have h2 : d ≠ 0 → (d - 1).toNat = d.toNat - 1 := by intro; bv_omega
    by_cases hd : d = 0
    · simp only [hd, true_or, iff_true]; exact Nat.pos_of_ne_zero hc0
    · have : d.toNat ≠ 0 := fun h => hd (h1.mpr h)
      rw [h2 hd]
      simp only [hd, false_or]
      omega
  · simp only [stosBase, if_true]
    have e : di - 1 + (1 - (cx - 1)) = di + (1 - cx) := by
      grind
    rw [e, hc1]
    have e2 : x = di ↔ x - (di + (1 - cx)) = cx - 1 := by
      rw [← key x di, ← key (x - (di + (1 - cx)))]
      have : x - (di + (1 - cx)) - (cx - 1) = x - di := by
        grind
      rw [this]
    rw [e2]
    generalize x - (di + (1 - cx)) = d
    have h1 : d = cx - 1 ↔ d.toNat = cx.toNat - 1 := by
      rw [← hc1]; exact ⟨fun h => by rw [h], BitVec.eq_of_toNat_eq⟩
    rw [h1]
    omega

theorem write_byte (m : Mem) (a x : BitVec 64) (v : BitVec (8 * 1)) :
    m.write a 1 v x = if x = a then v else m x := by
  simp only [Mem.write]
  by_cases h : x = a
  · subst h; simp
  · rw [if_neg h, if_neg]; intro h2; apply h; bv_omega

theorem stosb_spec (df : Bool) (s' : S) : ∀ (fuel : Nat) (s : S), s.fl .df = some df →
    repStep .stos .b .rep false .none fuel s = some s' →
    s' = ({ s with mem := fun x => if (x - stosBase df (s.gp rdi) (s.gp rcx)).toNat < (s.gp rcx).toNat
              then s.reg rax .b else s.mem x }.setGp rdi
            (if df then s.gp rdi - s.gp rcx else s.gp rdi + s.gp rcx)).setGp rcx 0 := by
  intro fuel
  induction fuel with
  | zero =>
    intro s hdf hs
    unfold repStep at hs
    simp only [S.ptr, Bool.false_eq_true, if_false] at hs
    split at hs
    · next hc =>
      simp only [Option.some.injEq] at hs
      subst hs
      exact stosb_zero s df hc
    · simp at hs
  | succ fuel ih =>
    intro s hdf hs
    unfold repStep at hs
    simp only [S.ptr, Bool.false_eq_true, if_false] at hs
    split at hs
    · next hc =>
      simp only [Option.some.injEq] at hs
      subst hs
      exact stosb_zero s df hc
    · next hc =>
      simp only [strStep, hdf, Option.bind_eq_bind, Option.bind_some, repStop, advance_eq, S.ptr,
        Bool.false_eq_true, if_false] at hs
      have := ih _ (by simpa [S.setGp, S.store] using hdf) hs
      rw [this]
      have e1 : ∀ (s : S) (v : BitVec 64), (s.setGp rcx v).gp rcx = v := fun _ _ => rfl
      have e2 : ∀ (s : S) (v : BitVec 64), (s.setGp rcx v).gp rdi = s.gp rdi := fun _ _ => rfl
      have e3 : ∀ (s : S) (v : BitVec 64), (s.setGp rdi v).gp rdi = v := fun _ _ => rfl
      have e4 : adv df .b (s.gp rdi) = if df then s.gp rdi - 1 else s.gp rdi + 1 := rfl
      have e5 : ∀ (s : S) (a : BitVec 64) (n : Nat) (v : BitVec (8 * n)) r, (s.store a n v).gp r = s.gp r :=
        fun _ _ _ _ _ => rfl
      simp only [e1, e2, e3, e5, e4]
      have hd : (if df = true then (if df = true then s.gp rdi - 1 else s.gp rdi + 1) - (s.gp rcx - 1)
          else (if df = true then s.gp rdi - 1 else s.gp rdi + 1) + (s.gp rcx - 1)) =
          if df then s.gp rdi - s.gp rcx else s.gp rdi + s.gp rcx := by
        cases df <;> simp only [Bool.false_eq_true, if_true, if_false] <;> bv_omega
      rw [hd]
      simp only [S.setGp, S.store, S.mk.injEq, and_true, true_and]
      refine ⟨?_, ?_⟩
      · funext r
        by_cases h1 : r = rcx
        · simp [h1]
        · by_cases h2 : r = rdi
          · simp [h2]
          · simp [h1, h2]
      · funext x
        rw [write_byte]
        have hr := region_step df (s.gp rdi) (s.gp rcx) x hc
        by_cases hx : x = s.gp rdi
        · rw [if_pos (hr.mpr (Or.inl hx)), if_pos hx]
          exact ite_self _
        · rw [if_neg hx]
          by_cases hy : (x - stosBase df (if df = true then s.gp rdi - 1 else s.gp rdi + 1) (s.gp rcx - 1)).toNat <
              (s.gp rcx - 1).toNat
          · rw [if_pos hy, if_pos (hr.mpr (Or.inr hy))]; rfl
          · rw [if_neg hy, if_neg (fun h => (hr.mp h).elim hx hy)]
where
  stosb_zero (s : S) (df : Bool) (hc : s.gp rcx = 0) :
      s = ({ s with mem := fun x => if (x - stosBase df (s.gp rdi) (s.gp rcx)).toNat < (s.gp rcx).toNat
              then s.reg rax .b else s.mem x }.setGp rdi
            (if df then s.gp rdi - s.gp rcx else s.gp rdi + s.gp rcx)).setGp rcx 0 := by
    have h1 : (if df then s.gp rdi - s.gp rcx else s.gp rdi + s.gp rcx) = s.gp rdi := by
      rw [hc]; cases df <;> simp
    rw [h1]
    cases s
    simp only [S.setGp, S.mk.injEq, and_true, true_and] at hc ⊢
    refine ⟨?_, ?_⟩
    · funext r
      by_cases h1 : r = rcx
      · simp only [h1, if_true]; exact hc
      · by_cases h2 : r = rdi
        · rw [if_neg h1, if_pos h2, h2]
        · rw [if_neg h1, if_neg h2]
    · funext x
      rw [hc]
      simp

theorem body_stosb (h : Rel slide m s) (hd : ∃ df, s.fl .df = some df)
    (hs : stepStr s .stos .b .rep false .none = some s') :
    ∃ m', liftStr m .stos .b .rep = some m' ∧ Rel slide m' s' := by
  obtain ⟨df, hdf⟩ := hd
  have hs1 : repStep .stos .b .rep false .none (s.gp rcx).toNat s = some s' := by
    simpa [stepStr, S.ptr] using hs
  rw [stosb_spec df s' _ s hdf hs1]
  unfold liftStr
  rw [if_pos ⟨rfl, rfl, rfl⟩]
  simp only [h.gp, h.getFl hdf, h.get]
  refine ⟨_, rfl, ?_⟩
  have e1 : (if BitVec.ofBool df = 1#1 then s.gp rdi + (1 - s.gp rcx) else s.gp rdi) =
      stosBase df (s.gp rdi) (s.gp rcx) := by cases df <;> rfl
  have e2 : (if BitVec.ofBool df = 1#1 then stosBase df (s.gp rdi) (s.gp rcx) - 1 else s.gp rdi + s.gp rcx) =
      if df then s.gp rdi - s.gp rcx else s.gp rdi + s.gp rcx := by
    cases df
    · rfl
    · simp only [stosBase, if_true]
      rw [if_pos (by rfl)]
      bv_omega
  rw [e1, e2]
  have h0 : Rel slide
      { m with mem := fun x => if (x - stosBase df (s.gp rdi) (s.gp rcx)).toNat < (s.gp rcx).toNat
          then some (s.reg rax .b) else m.mem x }
      { s with mem := fun x => if (x - stosBase df (s.gp rdi) (s.gp rcx)).toNat < (s.gp rcx).toNat
          then s.reg rax .b else s.mem x } :=
    { gp := h.gp, vec := h.vec, fs := h.fs, gs := h.gs, pc := h.pc
      mem := by
        funext x
        simp only [Mem.toV, h.mem]
        split <;> rfl
      fl := fun f b hb => by have := h.fl f b hb; cases f <;> exact this }
  exact (h0.setGp rdi _).setGp rcx 0

/-- String instructions with 64-bit addresses and no segment override. -/
theorem sim_str {cfg : Cfg} {len : Nat} (k : Str) (z : Sz) (rep : Rep)
    (hd : ∃ df, s.fl .df = some df) (ha : StrAligned s k z)
    (hs : step (.str k z rep false .none) len s = some s') :
    Simulates cfg slide (.str k z rep false .none) len s s' := by
  refine .of_body (fun m => liftStr m k z rep) (fun _ _ => rfl) (fun m h => ?_)
  by_cases hm : repMode k rep = .no
  · refine body_str_once h k z rep hm ha ?_
    simp only [step, exec, stepStr] at hs
    cases rep with
    | none => exact hs
    | rep => cases k <;> simp [repMode, Str.isCmp] at hm
    | repnz => cases k <;> simp [repMode, Str.isCmp] at hm hs
  · by_cases hb : k = .stos ∧ z = .b
    · obtain ⟨rfl, rfl⟩ := hb
      cases rep with
      | none => simp [repMode] at hm
      | repnz => simp [repMode, Str.isCmp] at hm
      | rep => exact body_stosb h hd hs
    · exact body_str_rep h k z rep hm hb hd ha hs

end Verif.X86.Spec
