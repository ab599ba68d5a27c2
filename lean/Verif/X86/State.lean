import Verif.IR.Mem
import Verif.IR.Pc

/-!
Registers, operands and memory accesses of the x86-64 lifter, /repo/src/x86-64/lifter-operand.cc.  The
simplifications are those listed in `Verif.X86.Model`.
-/

namespace Verif.X86

set_option linter.constructorNameAsVariable false

open Verif.IR

/-- Operand size. -/
inductive Sz where
  | b | w | d | q
  deriving DecidableEq, Repr

/-- Size in bytes (`Op::size()`). -/
abbrev Sz.bytes : Sz → Nat
  | .b => 1 | .w => 2 | .d => 4 | .q => 8

/-- Size in bits (`Op::bits()`). -/
abbrev Sz.bits (z : Sz) : Nat := 8 * z.bytes

inductive Seg where
  | none | fs | gs
  deriving DecidableEq, Repr

/-- Base of a memory operand: absent, `FD_REG_IP`, or a register. -/
inductive Base where
  | none | ip | reg (r : Fin 16)
  deriving DecidableEq, Repr

/-- A memory operand: `seg()`, `addrsz() == 4`, `base()`, `index()` and `scale()` (as shift count),
`off()`; /repo/src/instr.h:93-124. -/
structure MemOp where
  seg : Seg := .none
  a32 : Bool := false
  base : Base := .none
  idx : Option (Fin 16 × Fin 4) := .none
  off : BitVec 64 := 0
  deriving DecidableEq, Repr

/-- An operand: register, high-byte register AH-BH (`FD_RT_GPH`), memory, or immediate. -/
inductive Op where
  | reg (r : Fin 16)
  | regH (r : Fin 4)
  | mem (m : MemOp)
  | imm (v : BitVec 64)
  deriving DecidableEq, Repr

/-- `Condition`, /repo/src/x86-64/lifter-private.h:55-58. -/
inductive Cond where
  | o | no | c | nc | z | nz | be | a | s | ns | p | np | l | ge | le | g
  deriving DecidableEq, Repr

inductive Arith where
  | add | adc | sub | sbb | cmp | xadd
  deriving DecidableEq, Repr

inductive Logic where
  | and | or | xor | test
  deriving DecidableEq, Repr

inductive Shift where
  | shl | shr | sar
  deriving DecidableEq, Repr

inductive BitOp where
  | bt | btc | btr | bts
  deriving DecidableEq, Repr

inductive Str where
  | lods | stos | movs | scas | cmps
  deriving DecidableEq, Repr

inductive Rep where
  | none | rep | repnz
  deriving DecidableEq, Repr

/-- What the IR builder knows about the upper half of the dividend when lifting a division:
nothing, that it is the constant 0, or that it is an arithmetic right shift of the lower half by a
constant (`some k`) or by a variable amount (`Option.none`). -/
inductive High where
  | unknown | null | ashr (k : Option Nat)
  deriving DecidableEq, Repr

inductive LoopKind where
  | loop | loopz | loopnz
  deriving DecidableEq, Repr

/-- Architectural flags. -/
inductive Flag where
  | of | sf | zf | af | pf | cf | df
  deriving DecidableEq, Repr

/-- Run-time state of the lifted code: registers, flags (the parity flag is kept as a byte,
/repo/src/regfile.cc:320-323), XMM registers, segment bases in the
CPU struct, memory and the lifter's PC. -/
structure St where
  gp : Fin 16 → Val 64
  fl : Flag → Val 1
  pf : Val 8
  vec : Fin 16 → Val 128
  fs : Val 64
  gs : Val 64
  mem : VMem
  pc : Pc

abbrev rax : Fin 16 := 0
abbrev rcx : Fin 16 := 1
abbrev rdx : Fin 16 := 2
abbrev rbx : Fin 16 := 3
abbrev rsp : Fin 16 := 4
abbrev rbp : Fin 16 := 5
abbrev rsi : Fin 16 := 6
abbrev rdi : Fin 16 := 7

/-! ### Register file -/

/-- `SetReg` of a 64-bit value. -/
def St.setGp (m : St) (r : Fin 16) (v : Val 64) : St :=
  { m with gp := fun x => if x = r then v else m.gp x }

/-- `GetReg` with an integer facet. -/
def St.get (m : St) (r : Fin 16) (z : Sz) : Val z.bits := trunc z.bits (m.gp r)

/-- `GetReg` with facet `I8H`, /repo/src/regfile.cc:521-525. -/
def St.getH (m : St) (r : Fin 16) : Val 8 := trunc 8 (lshr (m.gp r) (some 8#64))

/-- `SetReg` of a flag. -/
def St.setF (m : St) (f : Flag) (v : Val 1) : St :=
  match f with
  | .pf => { m with pf := zext 8 v }
  | _ => { m with fl := fun x => if x = f then v else m.fl x }

/-- `SetReg` of the parity byte. -/
def St.setPf (m : St) (v : Val 8) : St := { m with pf := v }

/-- `GetFlag`, /repo/src/lifter-base.h:79-86. -/
def St.getF (m : St) (f : Flag) : Val 1 :=
  match f with
  | .pf => IR.not (trunc 1 (ctpop m.pf))
  | _ => m.fl f

/-- `SetFlagUndef`, /repo/src/lifter-base.h:87-96. -/
def St.undef (m : St) (fs : List Flag) : St :=
  fs.foldl (fun m f => match f with
    | .pf => m.setPf none
    | _ => m.setF f none) m

/-- `Merge` of a narrow value, /repo/src/regfile.cc:575-592, 421-433. -/
def St.merge (m : St) (r : Fin 16) {w : Nat} (v : Val w) : St :=
  m.setGp r (IR.or (IR.and (m.gp r) (some (BitVec.allOnes 64 <<< w))) (zext 64 v))

/-- `StoreGpFacet`/`StoreGp` for `I8`, `I16`, `I32`, `I64`,
/repo/src/x86-64/lifter-operand.cc:180-196. -/
def St.store (m : St) (r : Fin 16) (z : Sz) (v : Val z.bits) : St :=
  match z with
  | .b => m.merge r v
  | .w => m.merge r v
  | .d => m.setGp r (zext 64 v)
  | .q => m.setGp r (zext 64 v)

/-- `StoreGpFacet` for `I8H`, /repo/src/x86-64/lifter-operand.cc:185-190. -/
def St.storeH (m : St) (r : Fin 16) (v : Val 8) : St :=
  m.setGp r (IR.or (IR.shl (zext 64 v) (some 8#64))
    (IR.and (m.gp r) (some 0xffffffffffff00ff#64)))

/-- `AddrIPRel`, /repo/src/lifter-base.h:119-121. -/
def St.ipRel (m : St) (slide : BitVec 64) (off : BitVec 64 := 0) : Val 64 := m.pc.get slide off

/-! ### Operands -/

/-- Register extended by 16 to `Fin 16`. -/
def hreg (r : Fin 4) : Fin 16 := ⟨r, by omega⟩

/-- Index contribution to an address: `index * scale`, also where the code uses `GEP` with an element
type of `scale` bytes. -/
def idxVal (m : St) : Option (Fin 16 × Fin 4) → Val 64
  | none => some 0
  | some (r, k) => IR.mul (m.gp r) (some (1#64 <<< k.val))

/-- `OpAddr`, /repo/src/x86-64/lifter-operand.cc:59-143.  `ds` is the forced data segment of jumps
and calls.  The variants for pointer bases compute the same sum of base, offset and scaled index: see
`Verif.X86.Spec.C56_x86_address`. -/
def opAddr (slide : BitVec 64) (m : St) (o : MemOp) (ds : Bool := false) : Option (Val 64) :=
  let seg := if ds then .none else o.seg
  if seg ≠ .none ∨ o.a32 = true then
    match o.base with
    | .ip => none
    | _ =>
      let base : Val 64 := match o.base with | .reg r => m.gp r | _ => some 0
      if o.a32 then
        let r := IR.add (IR.add (some (o.off.setWidth 32)) (trunc 32 base))
          (match o.idx with
            | none => some 0#32
            | some (r, k) => IR.mul (trunc 32 (m.gp r)) (some (1#32 <<< k.val)))
        if seg ≠ .none then none else some (zext 64 r)
      else
        let r := IR.add (IR.add (some o.off) base) (idxVal m o.idx)
        some (match seg with
          | .fs => IR.add r m.fs
          | .gs => IR.add r m.gs
          | .none => r)
  else
    match o.base with
    | .ip => some (m.ipRel slide o.off)
    | .reg r => some (IR.add (IR.add (m.gp r) (some o.off)) (idxVal m o.idx))
    | .none => some (IR.add (some o.off) (idxVal m o.idx))

/-- Load of `n` bytes with an alignment: undefined behaviour for a misaligned or poison address. -/
def load (m : St) (a : Val 64) (n : Nat) (align : Nat) : Option (Val (8 * n)) :=
  match a with
  | none => none
  | some a => if a.toNat % align = 0 then some (m.mem.read a n) else none

/-- Store of `n` bytes. -/
def store (m : St) (a : Val 64) (n : Nat) (align : Nat) (v : Val (8 * n)) : Option St :=
  match a with
  | none => none
  | some a => if a.toNat % align = 0 then some { m with mem := m.mem.write a n v } else none

/-- `OpLoad` with an integer facet and `ALIGN_NONE`, /repo/src/x86-64/lifter-operand.cc:158-178. -/
def opLoad (slide : BitVec 64) (m : St) (z : Sz) (o : Op) (ds : Bool := false) :
    Option (Val z.bits) :=
  match o with
  | .imm v => some (some (v.setWidth z.bits))
  | .reg r => some (m.get r z)
  | .regH r => match z with
    | .b => some (m.getH (hreg r))
    | z => some (m.get (hreg r) z)
  | .mem o => do
    let a ← opAddr slide m o ds
    load m a z.bytes 1

/-- `OpStoreGp`, /repo/src/x86-64/lifter-operand.cc:198-214. -/
def opStore (slide : BitVec 64) (m : St) (z : Sz) (o : Op) (v : Val z.bits) : Option St :=
  match o with
  | .imm _ => none
  | .reg r => some (m.store r z v)
  | .regH r => match z with
    | .b => some (m.storeH (hreg r) v)
    | z => some (m.store (hreg r) z v)
  | .mem o => do
    let a ← opAddr slide m o
    store m a z.bytes 1 v

/-- `CreateAtomicRMW` on the memory operand `o`: returns the old value.  (The `lock` prefix is only
valid with a memory destination; the emitted `atomicrmw` has natural alignment.) -/
def atomicRmw (slide : BitVec 64) (m : St) (z : Sz) (o : Op) (f : Val z.bits → Val z.bits) :
    Option (Val z.bits × St) :=
  match o with
  | .mem o => do
    let a ← opAddr slide m o
    let old ← load m a z.bytes z.bytes
    let m ← store m a z.bytes z.bytes (f old)
    return (old, m)
  | _ => none

/-- The old value of the destination of a read-modify-write instruction: an `atomicrmw` applying `f`
with the `lock` prefix (64-77, 146-152 and 195-205 of lifter-gp.cc), a plain load otherwise. -/
def rmwLoad (slide : BitVec 64) (m : St) (z : Sz) (lock : Bool) (d : Op) (f : Val z.bits → Val z.bits) :
    Option (Val z.bits × St) :=
  if lock then atomicRmw slide m z d f else (opLoad slide m z d).map (fun v => (v, m))

/-- `OpStoreGp` under a condition known when lifting. -/
def opStoreIf (slide : BitVec 64) (m : St) (c : Bool) (z : Sz) (o : Op) (v : Val z.bits) : Option St :=
  if c then opStore slide m z o v else some m

/-- `StackPush`, /repo/src/x86-64/lifter-operand.cc:228-234. -/
def stackPush (m : St) (z : Sz) (v : Val z.bits) : Option St := do
  let sp := IR.add (m.gp rsp) (some (-(BitVec.ofNat 64 z.bytes)))
  let m ← store m sp z.bytes z.bytes v
  return m.setGp rsp sp

/-- `StackPop`, /repo/src/x86-64/lifter-operand.cc:236-240. -/
def stackPop (m : St) (src : Fin 16 := rsp) : Option (Val 64 × St) := do
  let sp := m.gp src
  let m1 := m.setGp rsp (IR.add sp (some 8#64))
  let v ← load m1 sp 8 8
  return (v, m1)

end Verif.X86
