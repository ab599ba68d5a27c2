import Verif.Decode.Props

/-! C03, which addresses the decoder cannot handle: the two keys that the hash map keeps for itself. -/

namespace Verif.Decode

variable {P : Type}

/-- The two highest addresses. -/
def Highest (a : Addr) : Prop := 2 ^ 64 - 2 ≤ a.toNat

theorem reserved_iff (a : Addr) : reserved a = true ↔ Highest a := by
  unfold reserved Highest
  simp only [Bool.or_eq_true, beq_iff_eq]
  constructor
  · rintro (rfl | rfl) <;> decide
  · intro h
    have := a.isLt
    rcases (show a.toNat = 2 ^ 64 - 1 ∨ a.toNat = 2 ^ 64 - 2 by omega) with h | h
    · exact .inl (BitVec.eq_of_toNat_eq (by rw [h]; rfl))
    · exact .inr (BitVec.eq_of_toNat_eq (by rw [h]; rfl))

/-- C03: a decode call returns if it is not for one of the two highest addresses, and no instruction ends there or branches there. -/
theorem C03_returns_below {cls : Classifier P} {h : List (Call P)} {fn : Fn P} (H : Hist cls h fn) (c : Call P) (ha : ¬ Highest c.addr)
    (hdec : ∀ a len p, c.dec a = some (len, p) → ¬ Highest (Inst.stop (P := P) ⟨a, len, p⟩) ∧ ¬ Highest (cls ⟨a, len, p⟩).2) :
    ∃ fn', Returns cls c fn fn' := by
  have key : ∀ a, ¬ Highest a → reserved a = false := fun a h => by
    rw [← Bool.not_eq_true, reserved_iff]
    exact h
  exact C03_decode_returns H c ⟨key _ ha, fun a len p hd => ⟨key _ (hdec a len p hd).1, fun _ => key _ (hdec a len p hd).2⟩⟩

/-- Both addresses have to be excluded: a conditional branch to either of them makes the decoder insert it into the map. -/
theorem C03_both_reserved_counterexample (a : Addr) (ha : a = -1#64 ∨ a = -2#64) :
    ∃ (c : Call (Kind × Addr)) (n : Nat), c.addr = 0x1000#64 ∧ c.dec 0x1000#64 = some (4, .condBranch, a) ∧
      steps exCls c n (.outer [c.addr], Fn.init _) = none := by
  rcases ha with rfl | rfl
  · exact ⟨⟨fun _ => some (4, .condBranch, -1#64), 0x1000#64, .all, true⟩, 2, rfl, rfl, by decide +kernel⟩
  · exact ⟨⟨fun _ => some (4, .condBranch, -2#64), 0x1000#64, .all, true⟩, 2, rfl, rfl, by decide +kernel⟩

example : ∃ fn', Returns exCls exCall (Fn.init _) fn' := by
  refine C03_returns_below .init _ (by unfold Highest; decide) fun a len p h => ?_
  obtain ⟨h1, h2⟩ := exCall_noReserved.2 a len p h
  have key : ∀ a, reserved a = false → ¬ Highest a := fun a h h' => by
    rw [(reserved_iff a).2 h'] at h
    cases h
  refine ⟨key _ h1, fun h' => ?_⟩
  by_cases h0 : (exCls ⟨a, len, p⟩).2 = 0
  · rw [h0] at h'
    revert h'
    unfold Highest
    decide
  · exact key _ (h2 h0) h'

end Verif.Decode
