import Verif.RegFile.Model

/-!
Specification of the register file: a flat register.

A register is just its bits.  A full write replaces all of them by the zero-extended value, a partial
write replaces the low ones, a read returns low bits (or bits 8..15 for AH..DH).
-/

namespace Verif.RegFile.Spec
open Verif.RegFile

/-- Bits a read of the given facet must return. -/
def read (flat : Bits) : Facet → Bits
  | .ty t => fun i => decide (i < t.size) && flat i
  | .i8h => fun i => decide (i < 8) && flat (i + 8)

/-- The value of a flag given by its definition. -/
def flagBit (b : Bool) : Bits := fun i => decide (i = 0) && b

/-- What a deferred value is: stated on numbers, not on the IR used to compute it. -/
def lazy : Lazy → Bits
  | @Lazy.isZero _ v => flagBit (decide (v.toNat = 0))
  | @Lazy.isNeg _ v => flagBit (decide (v.toInt < 0))
  | @Lazy.isULT _ a b => flagBit (decide (a.toNat < b.toNat))
  | @Lazy.addOverflow _ res lhs rhs =>
    -- operands of equal sign, result of the other sign
    flagBit (decide ((lhs.toInt < 0 ↔ rhs.toInt < 0) ∧ ¬ (res.toInt < 0 ↔ lhs.toInt < 0)))
  | @Lazy.truncI8 _ v => fun i => decide (i < 8) && v.toNat.testBit i
  | .load v => v.bits
  | @Lazy.x86Aux _ res lhs rhs =>
    -- carry into bit 4
    flagBit ((lhs.toNat.testBit 4 != rhs.toNat.testBit 4) != res.toNat.testBit 4)

/-- The flat register after an access. -/
def step (flat : Bits) : Op → Bits
  | .read _ _ => flat
  | .set v => v.bits
  | .merge v => fun i => if i < v.ty.size then v.bits i else flat i
  | .lazy l => lazy l

/-- The values the reads of an access sequence return on a flat register. -/
def reads (flat : Bits) : List Op → List Bits
  | [] => []
  | .read f c :: ops => read flat f :: reads (step flat (.read f c)) ops
  | op :: ops => reads (step flat op) ops

/-- The flat register after an access sequence. -/
def final (flat : Bits) (ops : List Op) : Bits := ops.foldl step flat

/-- The register file as a map from register names to bits: a register's writes change only it. -/
def fileStep (regs : AReg → Bits) (reg : AReg) (op : Op) : AReg → Bits :=
  fun r => if r = reg then step (regs reg) op else regs r

/-- Values read by an interleaved access sequence. -/
def fileReads (regs : AReg → Bits) : List (AReg × Op) → List Bits
  | [] => []
  | (reg, op) :: ops =>
    (match op with | .read f _ => [read (regs reg) f] | _ => []) ++ fileReads (fileStep regs reg op) ops

/-- Contents after an interleaved access sequence. -/
def fileFinal (regs : AReg → Bits) (ops : List (AReg × Op)) : AReg → Bits :=
  ops.foldl (fun regs o => fileStep regs o.1 o.2) regs

/-- x86-64 general-purpose register write, by the Intel SDM (vol. 1, 3.4.1.1): 32-bit results are
zero-extended to 64 bits, 8- and 16-bit results leave the other bits, AH/BH/CH/DH are bits 8..15. -/
def x86Write (old : Bits) (f : Facet) (v : Bits) : Bits := fun i =>
  match f with
  | .i8h => if 8 ≤ i ∧ i < 16 then v (i - 8) else old i
  | .ty (.int 8) => if i < 8 then v i else old i
  | .ty (.int 16) => if i < 16 then v i else old i
  | .ty (.int 32) => if i < 32 then v i else false
  | .ty _ => v i

end Verif.RegFile.Spec
