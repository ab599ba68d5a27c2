import Verif.A64.SpecState
import Verif.A64.Simd

/-!
Specification of the AArch64 SIMD instructions after the Arm Architecture Reference Manual: what every
lane of the result is, in integer arithmetic.  It uses from the model only the instruction datatype and the
table of arrangements (`VA.e`, `VA.n`, `VA.w`).

`none` stands for encodings that do not exist and for instructions left unspecified here (the rounding
shifts SRSHL, URSHL, SRSHR, URSHR, RSHRN).  Some arrangements that the architecture does not have, such as
MUL on 2D, are specified all the same.
-/

namespace Verif.A64.Spec

open Verif.IR (Mem)
open Verif.A64 Verif.Bits

set_option linter.constructorNameAsVariable false

/-- Element `i` of a register, for elements of `w` bits. -/
def S.el (s : S) (r : Fin 32) (w i : Nat) : BitVec w := (s.vec r).extractLsb' (w * i) w

/-- Write `n` elements; the rest of the register becomes zero. -/
def S.setEls (s : S) (r : Fin 32) (w n : Nat) (f : Nat → BitVec w) : S := s.setVec r (ofLanes w n f)

/-- Is it an arrangement of 128 bits? -/
def VA.wide (va : VA) : Bool := va.w * va.n == 128

/-- First element used by the instructions that read half a register: the "2" variants have a full
arrangement and read the upper half. -/
def VA.base (va : VA) : Nat := if VA.wide va then va.n / 2 else 0

/-- All ones if the condition holds. -/
def maskOf (w : Nat) (c : Bool) : BitVec w := if c then BitVec.allOnes w else 0

/-- Shift by the signed amount `k`: left if positive, right (rounding down) if negative. -/
def shiftBy (x : Int) (k : Int) : Int := if 0 ≤ k then x * 2 ^ k.toNat else x / 2 ^ (-k).toNat

/-- Element of the result from the old destination `d` and the operands `a`, `b`. -/
def el3 {w : Nat} (op : Three) (sgn : Bool) (d a b : BitVec w) : BitVec w :=
  match op with
  | .and => bits w fun i => a.getLsbD i && b.getLsbD i
  | .bic => bits w fun i => a.getLsbD i && !b.getLsbD i
  | .orr => bits w fun i => a.getLsbD i || b.getLsbD i
  | .orn => bits w fun i => a.getLsbD i || !b.getLsbD i
  | .eor => bits w fun i => a.getLsbD i != b.getLsbD i
  | .bit => bits w fun i => if b.getLsbD i then a.getLsbD i else d.getLsbD i
  | .bif => bits w fun i => if b.getLsbD i then d.getLsbD i else a.getLsbD i
  | .bsl => bits w fun i => if d.getLsbD i then a.getLsbD i else b.getLsbD i
  | .add => BitVec.ofInt w (val sgn a + val sgn b)
  | .sub => BitVec.ofInt w (val sgn a - val sgn b)
  | .mul => BitVec.ofInt w (val sgn a * val sgn b)
  | .mla => BitVec.ofInt w (val sgn d + val sgn a * val sgn b)
  | .mls => BitVec.ofInt w (val sgn d - val sgn a * val sgn b)
  | .hadd round => BitVec.ofInt w ((val sgn a + val sgn b + (if round then 1 else 0)) / 2)
  | .hsub => BitVec.ofInt w ((val sgn a - val sgn b) / 2)
  | .max => BitVec.ofInt w (max (val sgn a) (val sgn b))
  | .min => BitVec.ofInt w (min (val sgn a) (val sgn b))
  | .abd => BitVec.ofNat w (val sgn a - val sgn b).natAbs
  | .aba => BitVec.ofInt w (val sgn d + (val sgn a - val sgn b).natAbs)
  | .cmeq => maskOf w (a == b)
  | .cmge => maskOf w (decide (b.toInt ≤ a.toInt))
  | .cmgt => maskOf w (decide (b.toInt < a.toInt))
  | .cmhi => maskOf w (decide (b.toNat < a.toNat))
  | .cmhs => maskOf w (decide (b.toNat ≤ a.toNat))
  | .cmtst => maskOf w ((List.range w).any fun i => a.getLsbD i && b.getLsbD i)
  | .shl _ => BitVec.ofInt w (shiftBy (val sgn a) (b.extractLsb' 0 8).toInt)
  | .fcmeq => maskOf w (Fp.cmp a b == .eq)
  | .fcmge => maskOf w (Fp.cmp a b == .gt || Fp.cmp a b == .eq)
  | .fcmgt => maskOf w (Fp.cmp a b == .gt)

def el2 {w : Nat} (op : Two) (a : BitVec w) : BitVec w :=
  match op with
  | .not => bits w fun i => !a.getLsbD i
  | .neg => BitVec.ofInt w (- a.toInt)
  | .abs => BitVec.ofNat w a.toInt.natAbs
  | .clz => BitVec.ofNat w (clz a)
  | .cnt => BitVec.ofNat w (popcount a)
  | .rbit => bits w fun i => a.getLsbD (w - 1 - i)
  | .cmeq => maskOf w (a == 0)
  | .cmge => maskOf w (decide (0 ≤ a.toInt))
  | .cmgt => maskOf w (decide (0 < a.toInt))
  | .cmle => maskOf w (decide (a.toInt ≤ 0))
  | .cmlt => maskOf w (decide (a.toInt < 0))
  | .fabs => bits w fun i => i != w - 1 && a.getLsbD i
  | .fneg => bits w fun i => (i == w - 1) ^^ a.getLsbD i
  | .fcmeq => maskOf w (Fp.cmp a 0 == .eq)
  | .fcmge => maskOf w (Fp.cmp a 0 == .gt || Fp.cmp a 0 == .eq)
  | .fcmgt => maskOf w (Fp.cmp a 0 == .gt)
  | .fcmle => maskOf w (Fp.cmp a 0 == .lt || Fp.cmp a 0 == .eq)
  | .fcmlt => maskOf w (Fp.cmp a 0 == .lt)

/-- Floating-point operations: on single and double precision. -/
def Three.isFp : Three → Bool
  | .fcmeq | .fcmge | .fcmgt => true
  | _ => false

def Two.isFp : Two → Bool
  | .fabs | .fneg | .fcmeq | .fcmge | .fcmgt | .fcmle | .fcmlt => true
  | _ => false

/-- Element sizes of floating-point operations. -/
def fpOk (fp : Bool) (va : VA) : Bool := !fp || decide (32 ≤ va.w)

/-- Scalar forms: of the operations on D registers, and of the floating-point comparisons also on S
registers. -/
def Three.scalarOk (op : Three) (va : VA) : Bool :=
  match op with
  | .add | .sub | .cmeq | .cmge | .cmgt | .cmhi | .cmhs | .cmtst | .shl _ => va.w == 64
  | .fcmeq | .fcmge | .fcmgt => decide (32 ≤ va.w)
  | _ => false

def Two.scalarOk (op : Two) (va : VA) : Bool :=
  match op with
  | .neg | .abs | .cmeq | .cmge | .cmgt | .cmle | .cmlt => va.w == 64
  | .fcmeq | .fcmge | .fcmgt | .fcmle | .fcmlt => decide (32 ≤ va.w)
  | _ => false

/-- Element of twice the width. -/
def elLong {w : Nat} (op : Long) (sgn : Bool) (d : BitVec (2 * w)) (a b : BitVec w) : BitVec (2 * w) :=
  match op with
  | .add => BitVec.ofInt (2 * w) (val sgn a + val sgn b)
  | .sub => BitVec.ofInt (2 * w) (val sgn a - val sgn b)
  | .mul => BitVec.ofInt (2 * w) (val sgn a * val sgn b)
  | .mla => BitVec.ofInt (2 * w) (d.toNat + val sgn a * val sgn b)
  | .mls => BitVec.ofInt (2 * w) (d.toNat - val sgn a * val sgn b)
  | .abd => BitVec.ofNat (2 * w) (val sgn a - val sgn b).natAbs
  | .aba => BitVec.ofNat (2 * w) (d.toNat + (val sgn a - val sgn b).natAbs)

def elPair {w : Nat} (op : Pair) (sgn : Bool) (a b : BitVec w) : BitVec w :=
  match op with
  | .add => BitVec.ofNat w (a.toNat + b.toNat)
  | .max => BitVec.ofInt w (max (val sgn a) (val sgn b))
  | .min => BitVec.ofInt w (min (val sgn a) (val sgn b))

/-- Sum, greatest or least of `f 0`, …, `f (n - 1)`. -/
def sumOf (f : Nat → Int) : Nat → Int
  | 0 => 0
  | n + 1 => sumOf f n + f n

def maxOf (f : Nat → Int) : Nat → Int
  | 0 => 0
  | 1 => f 0
  | n + 1 => max (maxOf f n) (f n)

def minOf (f : Nat → Int) : Nat → Int
  | 0 => 0
  | 1 => f 0
  | n + 1 => min (minOf f n) (f n)

/-- The instructions that narrow: the plain variant clears the upper half, the "2" variant writes the upper
half and keeps the lower one. -/
def S.narrow (s : S) (va : VA) (rd : Fin 32) (f : Nat → BitVec va.w) : S :=
  if VA.wide va then s.setEls rd va.w va.n fun i => if i < va.n / 2 then s.el rd va.w i else f (i - va.n / 2)
  else s.setEls rd va.w va.n f

/-- Write element `j` only. -/
def S.setEl (s : S) (r : Fin 32) (w j : Nat) (x : BitVec w) : S :=
  s.setEls r w (128 / w) fun i => if i = j then x else s.el r w i

/-! ### Loads and stores of structures -/

/-- Register write-back of the post-index forms. -/
def S.postIndex (s : S) (rn : Reg) : Post → S
  | none => s
  | some (rm, imm) => s.setReg rn (s.reg 64 rn + (if rm = .zr then imm else s.reg 64 rm))

/-- Replace the registers `rt`, `rt + 1`, …, `rt + k - 1` (modulo 32). -/
def S.setRegs (s : S) (rt : Fin 32) (k : Nat) (f : Nat → BitVec 128) : S :=
  { s with vec := fun r => if (r - rt).val < k then f (r - rt).val else s.vec r }

/-- Replace `n` bytes of memory. -/
def S.setBytes (s : S) (a : BitVec 64) (n : Nat) (f : Nat → BitVec 8) : S :=
  { s with mem := fun x => if (x - a).toNat < n then f (x - a).toNat else s.mem x }

/-- Element at position `i` of an array of elements of `e` bytes. -/
def S.arr (s : S) (a : BitVec 64) (e i : Nat) : BitVec (8 * e) := s.mem.read (a + BitVec.ofNat 64 (e * i)) e

/-- Byte `b` of element `i` of a register. -/
def S.byte (s : S) (r : Fin 32) (e i b : Nat) : BitVec 8 := (s.vec r).extractLsb' (8 * (e * i + b)) 8

/-- The register `k` after `rt`. -/
def nth (rt : Fin 32) (k : Nat) : Fin 32 := ⟨(rt.val + k) % 32, Nat.mod_lt _ (by decide)⟩

/-- Number of registers in a list. -/
def regsOk (k : Nat) : Bool := decide (1 ≤ k ∧ k ≤ 4)

/-! ### Instructions -/

def S.simd (s : S) : Simd → Option S
  | .three op sgn scalar va rd rn rm =>
    if op = .shl true then none else
    if scalar then
      if Three.scalarOk op va then
        some (s.setVec rd (el3 op sgn (s.el rd va.w 0) (s.el rn va.w 0) (s.el rm va.w 0)))
      else none
    else if fpOk (Three.isFp op) va then
      some (s.setEls rd va.w va.n fun i => el3 op sgn (s.el rd va.w i) (s.el rn va.w i) (s.el rm va.w i))
    else none
  | .two op scalar va rd rn =>
    if scalar then
      if Two.scalarOk op va then some (s.setVec rd (el2 op (s.el rn va.w 0))) else none
    else if fpOk (Two.isFp op) va then
      some (s.setEls rd va.w va.n fun i => el2 op (s.el rn va.w i))
    else none
  | .shlImm scalar va rd rn imm =>
    let f (i : Nat) := BitVec.ofNat va.w ((s.el rn va.w i).toNat * 2 ^ imm)
    if imm < va.w then
      if scalar then (if va.w = 64 then some (s.setVec rd (f 0)) else none)
      else some (s.setEls rd va.w va.n f)
    else none
  | .shr sgn round scalar va rd rn imm =>
    let f (i : Nat) := BitVec.ofInt va.w (val sgn (s.el rn va.w i) / 2 ^ imm)
    if round = false ∧ 1 ≤ imm ∧ imm ≤ va.w then
      if scalar then (if va.w = 64 then some (s.setVec rd (f 0)) else none)
      else some (s.setEls rd va.w va.n f)
    else none
  | .sra sgn round scalar va rd rn imm =>
    let f (i : Nat) := BitVec.ofInt va.w ((s.el rd va.w i).toNat +
      (val sgn (s.el rn va.w i) + (if round then 2 ^ (imm - 1) else 0)) / 2 ^ imm)
    if 1 ≤ imm ∧ imm ≤ va.w then
      if scalar then (if va.w = 64 then some (s.setVec rd (f 0)) else none)
      else some (s.setEls rd va.w va.n f)
    else none
  | .shll sgn va rd rn imm =>
    if va.w < 64 ∧ imm < va.w then
      some (s.setEls rd (2 * va.w) (64 / va.w) fun i =>
        BitVec.ofInt (2 * va.w) (val sgn (s.el rn va.w (VA.base va + i)) * 2 ^ imm))
    else none
  | .shrn round va rd rn imm =>
    if round = false ∧ va.w < 64 ∧ 1 ≤ imm ∧ imm ≤ va.w then
      some (s.narrow va rd fun i => BitVec.ofNat va.w ((s.el rn (2 * va.w) i).toNat / 2 ^ imm))
    else none
  | .xtn va rd rn =>
    if va.w < 64 then some (s.narrow va rd fun i => s.el rn va.w (2 * i)) else none
  | .long op sgn va rd rn rm =>
    if va.w < 64 then
      some (s.setEls rd (2 * va.w) (64 / va.w) fun i => elLong op sgn (s.el rd (2 * va.w) i)
        (s.el rn va.w (VA.base va + i)) (s.el rm va.w (VA.base va + i)))
    else none
  | .longElem op sgn va rd rn rm idx =>
    if va.w < 64 ∧ idx < 128 / va.w then
      some (s.setEls rd (2 * va.w) (64 / va.w) fun i => elLong op sgn (s.el rd (2 * va.w) i)
        (s.el rn va.w (VA.base va + i)) (s.el rm va.w idx))
    else none
  | .wide sub sgn va rd rn rm =>
    if va.w < 64 then
      some (s.setEls rd (2 * va.w) (64 / va.w) fun i =>
        let a : Int := (s.el rn (2 * va.w) i).toNat
        let b := val sgn (s.el rm va.w (VA.base va + i))
        BitVec.ofInt (2 * va.w) (if sub then a - b else a + b))
    else none
  | .mulElem op va rd rn rm idx =>
    if (op = .mul ∨ op = .mla ∨ op = .mls) ∧ idx < 128 / va.w then
      some (s.setEls rd va.w va.n fun i => el3 op false (s.el rd va.w i) (s.el rn va.w i) (s.el rm va.w idx))
    else none
  | .pair op sgn va rd rn rm =>
    if 2 ≤ va.n then
      some (s.setEls rd va.w va.n fun i =>
        if i < va.n / 2 then elPair op sgn (s.el rn va.w (2 * i)) (s.el rn va.w (2 * i + 1))
        else elPair op sgn (s.el rm va.w (2 * i - va.n)) (s.el rm va.w (2 * i + 1 - va.n)))
    else none
  | .addp rd rn => some (s.setVec rd (BitVec.ofNat 64 ((s.el rn 64 0).toNat + (s.el rn 64 1).toNat)))
  | .addlp acc sgn va rd rn =>
    if va.w < 64 then
      some (s.setEls rd (2 * va.w) (va.n / 2) fun i => BitVec.ofInt (2 * va.w)
        ((if acc then ((s.el rd (2 * va.w) i).toNat : Int) else 0) +
          val sgn (s.el rn va.w (2 * i)) + val sgn (s.el rn va.w (2 * i + 1))))
    else none
  | .across op sgn va rd rn =>
    let f (i : Nat) : Int := val sgn (s.el rn va.w i)
    some (s.setVec rd (BitVec.ofInt va.w (match op with
      | .add => sumOf f va.n
      | .max => maxOf f va.n
      | .min => minOf f va.n)))
  | .immOp bic va rd imm =>
    some (s.setEls rd va.w va.n fun i => bits va.w fun b =>
      if bic then (s.el rd va.w i).getLsbD b && !imm.getLsbD b
      else (s.el rd va.w i).getLsbD b || imm.getLsbD b)
  | .movi scalar va rd imm =>
    if scalar then some (s.setVec rd imm)
    else some (s.setEls rd va.w va.n fun _ => imm.extractLsb' 0 va.w)
  | .dupElem scalar va rd rn idx =>
    if idx < 128 / va.w then
      if scalar then some (s.setVec rd (s.el rn va.w idx)) else some (s.setEls rd va.w va.n fun _ => s.el rn va.w idx)
    else none
  | .dupGpr w32 va rd rn =>
    if va.w ≤ W w32 then some (s.setEls rd va.w va.n fun _ => (s.reg 64 rn).extractLsb' 0 va.w) else none
  | .ext va rd rn rm imm =>
    if imm < va.n then
      some (s.setEls rd va.w va.n fun i =>
        if imm + i < va.n then s.el rn va.w (imm + i) else s.el rm va.w (imm + i - va.n))
    else none
  | .insElem va rd dst rn src =>
    if dst < 128 / va.w ∧ src < 128 / va.w then some (s.setEl rd va.w dst (s.el rn va.w src)) else none
  | .insGpr w32 va rd idx rn =>
    if va.w ≤ W w32 ∧ idx < 128 / va.w then
      some (s.setEl rd va.w idx ((s.reg 64 rn).extractLsb' 0 va.w))
    else none
  | .mov sgn w32 va rd rn idx =>
    if va.w ≤ W w32 ∧ idx < 128 / va.w then
      some (s.setReg rd (BitVec.ofInt (W w32) (val sgn (s.el rn va.w idx))))
    else none
  | .tbl tbx va nreg rd rn rm =>
    if va.w = 8 ∧ regsOk nreg then
      some (s.setEls rd 8 va.n fun i =>
        let t := (s.el rm 8 i).toNat
        if t < 16 * nreg then s.el (nth rn (t / 16)) 8 (t % 16) else if tbx then s.el rd 8 i else 0)
    else none
  | .uzp odd va rd rn rm =>
    if 2 ≤ va.n then
      let p := if odd then 1 else 0
      some (s.setEls rd va.w va.n fun i =>
        if 2 * i < va.n then s.el rn va.w (2 * i + p) else s.el rm va.w (2 * i - va.n + p))
    else none
  | .zip upper va rd rn rm =>
    if 2 ≤ va.n then
      let b := if upper then va.n / 2 else 0
      some (s.setEls rd va.w va.n fun i =>
        if i % 2 = 0 then s.el rn va.w (b + i / 2) else s.el rm va.w (b + i / 2))
    else none
  | .rev container va rd rn =>
    if (container = 16 ∨ container = 32 ∨ container = 64) ∧ va.w < container then
      let k := container / va.w
      some (s.setEls rd va.w va.n fun i => s.el rn va.w (i / k * k + (k - 1 - i % k)))
    else none
  | .ld1 nreg va rt rn post =>
    if rn = .zr ∨ regsOk nreg = false then none else
    let a := s.reg 64 rn
    some ((s.postIndex rn post).setRegs rt nreg fun j =>
      (ofLanes va.w va.n fun i => s.arr a va.e (va.n * j + i)).setWidth 128)
  | .ldN k va rt rn post =>
    if rn = .zr ∨ regsOk k = false ∨ k = 1 ∨ va = .d1 then none else
    let a := s.reg 64 rn
    some ((s.postIndex rn post).setRegs rt k fun j =>
      (ofLanes va.w va.n fun i => s.arr a va.e (k * i + j)).setWidth 128)
  | .ldSingle k va rt idx rn post =>
    if rn = .zr ∨ regsOk k = false ∨ 128 / va.w ≤ idx then none else
    let a := s.reg 64 rn
    some ((s.postIndex rn post).setRegs rt k fun j =>
      (ofLanes va.w (128 / va.w) fun i => if i = idx then s.arr a va.e j else s.el (nth rt j) va.w i).setWidth 128)
  | .ldR k va rt rn post =>
    if rn = .zr ∨ regsOk k = false then none else
    let a := s.reg 64 rn
    some ((s.postIndex rn post).setRegs rt k fun j =>
      (ofLanes va.w va.n fun _ => s.arr a va.e j).setWidth 128)
  | .st1 nreg va rt rn post =>
    if rn = .zr ∨ regsOk nreg = false then none else
    some ((s.postIndex rn post).setBytes (s.reg 64 rn) (va.e * va.n * nreg) fun o =>
      s.byte (nth rt (o / va.e / va.n)) va.e (o / va.e % va.n) (o % va.e))
  | .stN k va rt rn post =>
    if rn = .zr ∨ regsOk k = false ∨ k = 1 ∨ va = .d1 then none else
    some ((s.postIndex rn post).setBytes (s.reg 64 rn) (va.e * va.n * k) fun o =>
      s.byte (nth rt (o / va.e % k)) va.e (o / va.e / k) (o % va.e))
  | .stSingle k va rt idx rn post =>
    if rn = .zr ∨ regsOk k = false ∨ 128 / va.w ≤ idx then none else
    some ((s.postIndex rn post).setBytes (s.reg 64 rn) (va.e * k) fun o =>
      s.byte (nth rt (o / va.e)) va.e idx (o % va.e))

end Verif.A64.Spec
