import Verif.IR.Pc

/-! The program counter with an offset, as for addresses that are relative to it. -/

namespace Verif.IR

/-- C10: whatever form the program counter has, an offset is added to its run-time value. -/
theorem Pc.C10_offset (slide off : BitVec 64) (p : Pc) : p.get slide off = add (p.val slide) (some off) := by
  have h : ∀ v : Val 64, add v (some off) = add (add v (some 0#64)) (some off) := by
    intro v
    cases v <;> simp [add, bin]
  cases p with
  | value v => exact h v
  | check v a => exact h v
  | const a => simp only [Pc.val, Pc.get, addrPCBase, add, bin]; congr 1; simp; bv_omega
  | cond c a b =>
    cases c with
    | none => rfl
    | some c =>
      have hc : c = 0#1 ∨ c = 1#1 := by revert c; decide
      rcases hc with rfl | rfl <;> simp [Pc.val, Pc.get, addrPCBase, add, bin, select] <;> bv_omega

end Verif.IR
