import Verif.IR.Pc

/-!
The program counter of relocated code (C36).
-/

namespace Verif.IR

/-- The program counter of absolutely lifted code at addresses `d` higher. -/
def Pc.reloc (d : BitVec 64) : Pc → Pc
  | .value v => .value v
  | .const a => .const (a + d)
  | .cond c a b => .cond c (a + d) (b + d)
  | .check v a => .check v (a + d)

/-- It has the same run-time value. -/
theorem Pc.get_reloc (d off : BitVec 64) (p : Pc) : (p.reloc d).get 0#64 off = p.get d off := by
  have h : ∀ a : BitVec 64, a + d + off = a + off + d := by
    intro a
    rw [BitVec.add_assoc, BitVec.add_comm d off, ← BitVec.add_assoc]
  cases p <;> simp [Pc.reloc, Pc.get, addrPCBase, h]

end Verif.IR
