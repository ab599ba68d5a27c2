import Verif.IR.Basic

/-!
The program counter kept by the register file during lifting, with its run-time value.
-/

namespace Verif.IR

/-- `RegFile::impl::PCReg`, /repo/src/regfile.cc:250-267.  Addresses are link-time addresses known
to the lifter; a `Val` is an SSA value at run time. -/
inductive Pc where
  | value (v : Val 64)
  | const (a : BitVec 64)
  | cond (c : Val 1) (a b : BitVec 64)
  | check (v : Val 64) (a : BitVec 64)

/-- `AddrPCBase`, /repo/src/regfile.cc:289-293.  `slide` is the run-time value of `pcBase` minus
`pcBaseAddr` (0 if the code is not position independent). -/
def addrPCBase (slide a : BitVec 64) : Val 64 := some (a + slide)

/-- `GetPCValue`, /repo/src/regfile.cc:598-615. -/
def Pc.get (slide : BitVec 64) (off : BitVec 64) : Pc → Val 64
  | .value v => add v (some off)
  | .check v _ => add v (some off)
  | .const a => addrPCBase slide (a + off)
  | .cond c a b => select c (addrPCBase slide (a + off)) (addrPCBase slide (b + off))

/-- Run-time program counter. -/
def Pc.val (slide : BitVec 64) (p : Pc) : Val 64 := p.get slide 0#64

@[ir] theorem Pc.val_const (slide a : BitVec 64) : (Pc.const a).val slide = some (a + slide) := by
  simp [Pc.val, Pc.get, addrPCBase]
@[ir] theorem Pc.val_value (slide v : BitVec 64) : (Pc.value (some v)).val slide = some v := by
  simp [Pc.val, Pc.get, add, bin]
@[ir] theorem Pc.val_check (slide v a : BitVec 64) : (Pc.check (some v) a).val slide = some v := by
  simp [Pc.val, Pc.get, add, bin]
@[ir] theorem Pc.val_cond (slide a b : BitVec 64) (c : Bool) :
    (Pc.cond (some (BitVec.ofBool c)) a b).val slide = some ((if c then a else b) + slide) := by
  cases c <;> simp [Pc.val, Pc.get, addrPCBase, select]

end Verif.IR
