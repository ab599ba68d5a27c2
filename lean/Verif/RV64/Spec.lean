import Verif.RV64.Model

/-!
Specification of the RV64 instructions after the RISC-V unprivileged ISA manual, independent of the
lifter.  Only the type of decoded instructions is shared with the model.
-/

namespace Verif.RV64.Spec

open Verif.RV64 Verif.IR

/-- Architectural state. -/
structure State where
  gp : Nat → BitVec 64
  fp : Nat → BitVec 64
  mem : Mem
  pc : BitVec 64

/-- Reading an integer register: `x0` is zero. -/
def State.x (s : State) (r : Nat) : BitVec 64 := if r = 0 then 0#64 else s.gp r

/-- Writing an integer register: writes to `x0` are ignored. -/
def State.setX (s : State) (r : Nat) (v : BitVec 64) : State :=
  if r = 0 then s else { s with gp := fun k => if k = r then v else s.gp k }

/-- Sign-extended low 32 bits. -/
def sx32 (v : BitVec 64) : BitVec 64 := (v.setWidth 32).signExtend 64

/-- Truth value as register content. -/
def bit (b : Bool) : BitVec 64 := if b then 1#64 else 0#64

/-- RV64I register-register/immediate instructions and RV64M multiplications: the value written to
`rd`, as a function of `rs1`, `rs2`, the immediate and the pc. -/
def aluVal (m : Mnem) (x y imm pc : BitVec 64) : Option (BitVec 64) :=
  match m with
  | .lui => some imm
  | .auipc => some (pc + imm)
  | .addi => some (x + imm)
  | .add => some (x + y)
  | .addiw => some (sx32 (x + imm))
  | .addw => some (sx32 (x + y))
  | .sub => some (x - y)
  | .subw => some (sx32 (x - y))
  | .andi => some (x &&& imm)
  | .and => some (x &&& y)
  | .ori => some (x ||| imm)
  | .or => some (x ||| y)
  | .xori => some (x ^^^ imm)
  | .xor => some (x ^^^ y)
  | .slli => some (x <<< (imm.toNat % 64))
  | .sll => some (x <<< (y.toNat % 64))
  | .slliw => some (sx32 (x <<< (imm.toNat % 32)))
  | .sllw => some (sx32 (x <<< (y.toNat % 32)))
  | .srli => some (x >>> (imm.toNat % 64))
  | .srl => some (x >>> (y.toNat % 64))
  | .srliw => some (((x.setWidth 32) >>> (imm.toNat % 32)).signExtend 64)
  | .srlw => some (((x.setWidth 32) >>> (y.toNat % 32)).signExtend 64)
  | .srai => some (BitVec.ofInt 64 (x.toInt >>> (imm.toNat % 64)))
  | .sra => some (BitVec.ofInt 64 (x.toInt >>> (y.toNat % 64)))
  | .sraiw => some (BitVec.ofInt 64 ((x.setWidth 32).toInt >>> (imm.toNat % 32)))
  | .sraw => some (BitVec.ofInt 64 ((x.setWidth 32).toInt >>> (y.toNat % 32)))
  | .slt => some (bit (x.toInt < y.toInt))
  | .slti => some (bit (x.toInt < imm.toInt))
  | .sltu => some (bit (x.toNat < y.toNat))
  | .sltiu => some (bit (x.toNat < imm.toNat))
  | .mul => some (BitVec.ofInt 64 (x.toInt * y.toInt))
  | .mulw => some (sx32 (BitVec.ofInt 64 (x.toInt * y.toInt)))
  | .mulh => some (BitVec.ofInt 64 (x.toInt * y.toInt / 2 ^ 64))
  | .mulhsu => some (BitVec.ofInt 64 (x.toInt * y.toNat / 2 ^ 64))
  | .mulhu => some (BitVec.ofNat 64 (x.toNat * y.toNat / 2 ^ 64))
  | _ => none

/-- Signed division of the M extension: rounds towards zero, division by zero gives -1, overflow
gives the dividend. -/
def divS {w : Nat} (x y : BitVec w) : BitVec w :=
  if y = 0#w then BitVec.allOnes w
  else if x = BitVec.intMin w ∧ y = BitVec.allOnes w then x
  else BitVec.ofInt w (x.toInt.tdiv y.toInt)
def remS {w : Nat} (x y : BitVec w) : BitVec w :=
  if y = 0#w then x
  else if x = BitVec.intMin w ∧ y = BitVec.allOnes w then 0#w
  else BitVec.ofInt w (x.toInt.tmod y.toInt)
def divU {w : Nat} (x y : BitVec w) : BitVec w :=
  if y = 0#w then BitVec.allOnes w else BitVec.ofNat w (x.toNat / y.toNat)
def remU {w : Nat} (x y : BitVec w) : BitVec w :=
  if y = 0#w then x else BitVec.ofNat w (x.toNat % y.toNat)

/-- RV64M division and remainder. -/
def divVal (m : Mnem) (x y : BitVec 64) : Option (BitVec 64) :=
  match m with
  | .div => some (divS x y)
  | .divu => some (divU x y)
  | .rem => some (remS x y)
  | .remu => some (remU x y)
  | .divw => some ((divS (x.setWidth 32) (y.setWidth 32)).signExtend 64)
  | .divuw => some ((divU (x.setWidth 32) (y.setWidth 32)).signExtend 64)
  | .remw => some ((remS (x.setWidth 32) (y.setWidth 32)).signExtend 64)
  | .remuw => some ((remU (x.setWidth 32) (y.setWidth 32)).signExtend 64)
  | _ => none

/-- Carry-less product of two 64-bit words. -/
def clprod (x y : BitVec 64) : BitVec 128 :=
  (List.range 64).foldl
    (fun acc k => if y.getLsbD k then acc ^^^ ((x.setWidth 128) <<< k) else acc) 0#128

/-- Zero-extended low word. -/
def zx32 (v : BitVec 64) : BitVec 64 := v &&& 0xffffffff#64

/-- Zba, Zbb, Zbc, Zbs instructions. -/
def bitVal (m : Mnem) (x y imm : BitVec 64) : Option (BitVec 64) :=
  match m with
  | .adduw => some (y + zx32 x)
  | .sh1add => some (y + x * 2#64)
  | .sh2add => some (y + x * 4#64)
  | .sh3add => some (y + x * 8#64)
  | .sh1adduw => some (y + zx32 x * 2#64)
  | .sh2adduw => some (y + zx32 x * 4#64)
  | .sh3adduw => some (y + zx32 x * 8#64)
  | .slliuw => some (zx32 x <<< (imm.toNat % 64))
  | .andn => some (x &&& ~~~ y)
  | .orn => some (x ||| ~~~ y)
  | .xnor => some (~~~ (x ^^^ y))
  | .clz => some (BitVec.ofNat 64 (Bits.clz x))
  | .clzw => some (BitVec.ofNat 64 (Bits.clz (x.setWidth 32)))
  | .ctz => some (BitVec.ofNat 64 (Bits.ctz x))
  | .ctzw => some (BitVec.ofNat 64 (Bits.ctz (x.setWidth 32)))
  | .cpop => some (BitVec.ofNat 64 (Bits.popcount x))
  | .cpopw => some (BitVec.ofNat 64 (Bits.popcount (x.setWidth 32)))
  | .max => some (if x.toInt ≤ y.toInt then y else x)
  | .maxu => some (if x.toNat ≤ y.toNat then y else x)
  | .min => some (if x.toInt ≤ y.toInt then x else y)
  | .minu => some (if x.toNat ≤ y.toNat then x else y)
  | .orcb => some (Bits.ofLanes 8 8 (fun k => if Bits.lane 8 x k = 0#8 then 0#8 else 0xff#8))
  | .rev8 => some (Bits.ofLanes 8 8 (fun k => Bits.lane 8 x (7 - k)))
  | .rol => some (x.rotateLeft (y.toNat % 64))
  | .ror => some (x.rotateRight (y.toNat % 64))
  | .rori => some (x.rotateRight (imm.toNat % 64))
  | .rolw => some (((x.setWidth 32).rotateLeft (y.toNat % 32)).signExtend 64)
  | .rorw => some (((x.setWidth 32).rotateRight (y.toNat % 32)).signExtend 64)
  | .roriw => some (((x.setWidth 32).rotateRight (imm.toNat % 32)).signExtend 64)
  | .sextb => some ((x.setWidth 8).signExtend 64)
  | .sexth => some ((x.setWidth 16).signExtend 64)
  | .zexth => some (x &&& 0xffff#64)
  | .clmul => some ((clprod x y).extractLsb' 0 64)
  | .clmulh => some ((clprod x y).extractLsb' 64 64)
  | .clmulr => some ((clprod x y).extractLsb' 63 64)
  | .bclr => some (x &&& ~~~ (BitVec.twoPow 64 (y.toNat % 64)))
  | .bclri => some (x &&& ~~~ (BitVec.twoPow 64 (imm.toNat % 64)))
  | .bext => some (bit (x.getLsbD (y.toNat % 64)))
  | .bexti => some (bit (x.getLsbD (imm.toNat % 64)))
  | .binv => some (x ^^^ BitVec.twoPow 64 (y.toNat % 64))
  | .binvi => some (x ^^^ BitVec.twoPow 64 (imm.toNat % 64))
  | .bset => some (x ||| BitVec.twoPow 64 (y.toNat % 64))
  | .bseti => some (x ||| BitVec.twoPow 64 (imm.toNat % 64))
  | _ => none

/-- Branch condition. -/
def taken (m : Mnem) (x y : BitVec 64) : Option Bool :=
  match m with
  | .beq => some (x = y)
  | .bne => some (x ≠ y)
  | .blt => some (x.toInt < y.toInt)
  | .bge => some (y.toInt ≤ x.toInt)
  | .bltu => some (x.toNat < y.toNat)
  | .bgeu => some (y.toNat ≤ x.toNat)
  | _ => none

/-- Integer loads: number of bytes and whether sign-extended. -/
def loadKind : Mnem → Option (Nat × Bool)
  | .lb => some (1, true)
  | .lbu => some (1, false)
  | .lh => some (2, true)
  | .lhu => some (2, false)
  | .lw => some (4, true)
  | .lwu => some (4, false)
  | .ld => some (8, true)
  | _ => none

/-- Integer stores: number of bytes. -/
def storeKind : Mnem → Option Nat
  | .sb => some 1
  | .sh => some 2
  | .sw => some 4
  | .sd => some 8
  | _ => none

/-- Atomic memory operations: number of bytes and the combination of old memory value and `rs2`. -/
def amoKind (m : Mnem) : Option ((n : Nat) × (BitVec (8 * n) → BitVec (8 * n) → BitVec (8 * n))) :=
  match m with
  | .amoswapw => some ⟨4, fun _ v => v⟩
  | .amoswapd => some ⟨8, fun _ v => v⟩
  | .amoaddw => some ⟨4, fun o v => o + v⟩
  | .amoaddd => some ⟨8, fun o v => o + v⟩
  | .amoandw => some ⟨4, fun o v => o &&& v⟩
  | .amoandd => some ⟨8, fun o v => o &&& v⟩
  | .amoorw => some ⟨4, fun o v => o ||| v⟩
  | .amoord => some ⟨8, fun o v => o ||| v⟩
  | .amoxorw => some ⟨4, fun o v => o ^^^ v⟩
  | .amoxord => some ⟨8, fun o v => o ^^^ v⟩
  | .amomaxw => some ⟨4, fun o v => if o.toInt ≤ v.toInt then v else o⟩
  | .amomaxd => some ⟨8, fun o v => if o.toInt ≤ v.toInt then v else o⟩
  | .amomaxuw => some ⟨4, fun o v => if o.toNat ≤ v.toNat then v else o⟩
  | .amomaxud => some ⟨8, fun o v => if o.toNat ≤ v.toNat then v else o⟩
  | .amominw => some ⟨4, fun o v => if o.toInt ≤ v.toInt then o else v⟩
  | .amomind => some ⟨8, fun o v => if o.toInt ≤ v.toInt then o else v⟩
  | .amominuw => some ⟨4, fun o v => if o.toNat ≤ v.toNat then o else v⟩
  | .amominud => some ⟨8, fun o v => if o.toNat ≤ v.toNat then o else v⟩
  | _ => none

/-- Next-instruction state: `rd` written, pc advanced by the instruction length. -/
def State.wr (s : State) (rd : Nat) (v : BitVec 64) (len : Nat) : State :=
  { s.setX rd v with pc := s.pc + BitVec.ofNat 64 len }

/-- `JAL`: link register gets the address of the next instruction, the target is relative. -/
def jal (s : State) (rd : Nat) (imm : BitVec 64) (len : Nat) : State :=
  { s.setX rd (s.pc + BitVec.ofNat 64 len) with pc := s.pc + imm }

/-- `JALR`: the target is the old `rs1` plus the immediate with the lowest bit cleared. -/
def jalr (s : State) (rd rs1 : Nat) (imm : BitVec 64) (len : Nat) : State :=
  { s.setX rd (s.pc + BitVec.ofNat 64 len) with pc := (s.x rs1 + imm) &&& ~~~ 1#64 }

/-- Class number of an IEEE bit pattern with `e` exponent and `f` fraction bits (order of the bits
in the result of `FCLASS`). -/
def fclassIdx (e f : Nat) (v : BitVec (1 + e + f)) : Nat :=
  let neg := v.getLsbD (e + f)
  let exp := v.toNat / 2 ^ f % 2 ^ e
  let frac := v.toNat % 2 ^ f
  if exp = 2 ^ e - 1 then
    if frac ≠ 0 then (if 2 ^ (f - 1) ≤ frac then 9 else 8) else (if neg then 0 else 7)
  else if exp = 0 then
    if frac = 0 then (if neg then 3 else 4) else (if neg then 2 else 5)
  else if neg then 1 else 6

/-- NaN-boxed single-precision value. -/
def nanBox (v : BitVec 32) : BitVec 64 := 0xffffffff#32 ++ v

end Verif.RV64.Spec
