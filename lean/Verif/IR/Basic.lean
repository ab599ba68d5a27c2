import Verif.IR.Attr
import Verif.IR.Bits

/-!
Semantics of the LLVM IR operations emitted by rellume.

A value of type `iN` is `Val N`: `some v` is a defined value, `none` is *poison* (we also use it for
`undef`, which is coarser: an undef is treated as if it were poison).  Operations are strict in
poison except `select`.  Operations with immediate undefined behaviour (division) return in
`Option`: `none` is undefined behaviour of the whole execution.  Source: LLVM Language Reference.
-/

namespace Verif.IR

/-- An SSA value of type `iN`; `none` is poison/undef. -/
abbrev Val (w : Nat) := Option (BitVec w)

/-- Strict unary operation. -/
def un {a b : Nat} (f : BitVec a → BitVec b) : Val a → Val b
  | some x => some (f x)
  | none => none

/-- Strict binary operation. -/
def bin {a b c : Nat} (f : BitVec a → BitVec b → BitVec c) : Val a → Val b → Val c
  | some x, some y => some (f x y)
  | _, _ => none

@[ir] theorem un_some {a b : Nat} (f : BitVec a → BitVec b) (x : BitVec a) :
    un f (some x) = some (f x) := rfl
@[ir] theorem bin_some {a b c : Nat} (f : BitVec a → BitVec b → BitVec c) (x : BitVec a) (y : BitVec b) :
    bin f (some x) (some y) = some (f x y) := rfl

variable {w : Nat}

def add (a b : Val w) : Val w := bin (· + ·) a b
def sub (a b : Val w) : Val w := bin (· - ·) a b
def mul (a b : Val w) : Val w := bin (· * ·) a b
def and (a b : Val w) : Val w := bin (· &&& ·) a b
def or (a b : Val w) : Val w := bin (· ||| ·) a b
def xor (a b : Val w) : Val w := bin (· ^^^ ·) a b
def not (a : Val w) : Val w := un (~~~ ·) a
def neg (a : Val w) : Val w := un (- ·) a

/-- `shl`/`lshr`/`ashr`: poison if the amount is not smaller than the width. -/
def shl : Val w → Val w → Val w
  | some x, some s => if s.toNat < w then some (x <<< s.toNat) else none
  | _, _ => none
def lshr : Val w → Val w → Val w
  | some x, some s => if s.toNat < w then some (x >>> s.toNat) else none
  | _, _ => none
def ashr : Val w → Val w → Val w
  | some x, some s => if s.toNat < w then some (x.sshiftRight s.toNat) else none
  | _, _ => none

def trunc (v : Nat) (a : Val w) : Val v := un (BitVec.setWidth v) a
def zext (v : Nat) (a : Val w) : Val v := un (BitVec.setWidth v) a
def sext (v : Nat) (a : Val w) : Val v := un (BitVec.signExtend v) a

/-- Comparison yielding `i1`. -/
def cmp (p : BitVec w → BitVec w → Bool) (a b : Val w) : Val 1 :=
  bin (fun x y => BitVec.ofBool (p x y)) a b

/-- `icmp` predicates. -/
inductive Pred where
  | eq | ne | ult | ule | ugt | uge | slt | sle | sgt | sge
  deriving DecidableEq, Repr

def Pred.eval : Pred → BitVec w → BitVec w → Bool
  | .eq, x, y => x == y
  | .ne, x, y => x != y
  | .ult, x, y => x.ult y
  | .ule, x, y => x.ule y
  | .ugt, x, y => y.ult x
  | .uge, x, y => y.ule x
  | .slt, x, y => x.slt y
  | .sle, x, y => x.sle y
  | .sgt, x, y => y.slt x
  | .sge, x, y => y.sle x

def icmp (p : Pred) (a b : Val w) : Val 1 := cmp p.eval a b

/-- `select`: the arm that is not chosen may be poison. -/
def select (c : Val 1) (a b : Val w) : Val w :=
  match c with
  | some c => if c = 1#1 then a else b
  | none => none

def ctpop (a : Val w) : Val w := un (fun x => BitVec.ofNat w (Bits.popcount x)) a
/-- `llvm.ctlz(x, is_zero_poison)`. -/
def ctlz (zeroPoison : Bool) : Val w → Val w
  | some x => if zeroPoison && x == 0#w then none else some (BitVec.ofNat w (Bits.clz x))
  | none => none
/-- `llvm.cttz(x, is_zero_poison)`. -/
def cttz (zeroPoison : Bool) : Val w → Val w
  | some x => if zeroPoison && x == 0#w then none else some (BitVec.ofNat w (Bits.ctz x))
  | none => none
def bitreverse (a : Val w) : Val w := un Bits.bitrev a

/-- `llvm.bswap` on `8*n` bits. -/
def bswap {n : Nat} (a : Val (8 * n)) : Val (8 * n) :=
  un (fun x => Bits.ofLanes 8 n (fun i => Bits.lane 8 x (n - 1 - i))) a

/-- `llvm.fshl(a, b, s)`: concatenate, shift left by `s mod w`, take the upper half. -/
def fshl : Val w → Val w → Val w → Val w
  | some a, some b, some s => some (((a ++ b) <<< (s.toNat % w)).extractLsb' w w)
  | _, _, _ => none
/-- `llvm.fshr(a, b, s)`: concatenate, shift right by `s mod w`, take the lower half. -/
def fshr : Val w → Val w → Val w → Val w
  | some a, some b, some s => some (((a ++ b) >>> (s.toNat % w)).extractLsb' 0 w)
  | _, _, _ => none

def smax (a b : Val w) : Val w := bin (fun x y => if x.slt y then y else x) a b
def smin (a b : Val w) : Val w := bin (fun x y => if x.slt y then x else y) a b
def umax (a b : Val w) : Val w := bin (fun x y => if x.ult y then y else x) a b
def umin (a b : Val w) : Val w := bin (fun x y => if x.ult y then x else y) a b

/-- Integer division: undefined behaviour for a zero or poison divisor and for signed overflow. -/
def udiv : Val w → Val w → Option (Val w)
  | a, some y => if y = 0#w then none else some (un (fun x => x.udiv y) a)
  | _, none => none
def urem : Val w → Val w → Option (Val w)
  | a, some y => if y = 0#w then none else some (un (fun x => x.umod y) a)
  | _, none => none
def sdiv : Val w → Val w → Option (Val w)
  | some x, some y => if y = 0#w ∨ (x = BitVec.intMin w ∧ y = BitVec.allOnes w) then none
      else some (some (x.sdiv y))
  | none, some y => if y = 0#w ∨ y = BitVec.allOnes w then none else some none
  | _, none => none
def srem : Val w → Val w → Option (Val w)
  | some x, some y => if y = 0#w ∨ (x = BitVec.intMin w ∧ y = BitVec.allOnes w) then none
      else some (some (x.srem y))
  | none, some y => if y = 0#w ∨ y = BitVec.allOnes w then none else some none
  | _, none => none

attribute [ir] add sub mul and or xor not neg trunc zext sext cmp icmp ctpop bitreverse bswap
  smax smin umax umin

@[ir] theorem shl_some (x s : BitVec w) :
    shl (some x) (some s) = if s.toNat < w then some (x <<< s.toNat) else none := rfl
@[ir] theorem lshr_some (x s : BitVec w) :
    lshr (some x) (some s) = if s.toNat < w then some (x >>> s.toNat) else none := rfl
@[ir] theorem ashr_some (x s : BitVec w) :
    ashr (some x) (some s) = if s.toNat < w then some (x.sshiftRight s.toNat) else none := rfl
@[ir] theorem select_some (c : BitVec 1) (a b : Val w) :
    select (some c) a b = if c = 1#1 then a else b := rfl
@[ir] theorem select_bool (c : Bool) (a b : Val w) :
    select (some (BitVec.ofBool c)) a b = if c then a else b := by
  cases c <;> rfl
@[ir] theorem ctlz_false (x : BitVec w) : ctlz false (some x) = some (BitVec.ofNat w (Bits.clz x)) := rfl
@[ir] theorem cttz_false (x : BitVec w) : cttz false (some x) = some (BitVec.ofNat w (Bits.ctz x)) := rfl
@[ir] theorem fshl_some (a b s : BitVec w) : fshl (some a) (some b) (some s) =
    some (((a ++ b) <<< (s.toNat % w)).extractLsb' w w) := rfl
@[ir] theorem fshr_some (a b s : BitVec w) : fshr (some a) (some b) (some s) =
    some (((a ++ b) >>> (s.toNat % w)).extractLsb' 0 w) := rfl

/-! ### Funnel shifts of equal operands are rotates -/

theorem fshl_rotate (x : BitVec w) (s : Nat) :
    (((x ++ x) <<< (s % w)).extractLsb' w w) = x.rotateLeft s := by
  rcases Nat.eq_zero_or_pos w with h | h
  · subst h; exact Subsingleton.elim _ _
  apply BitVec.eq_of_getLsbD_eq
  intro i hi
  have hs : s % w < w := Nat.mod_lt _ h
  rw [BitVec.getLsbD_rotateLeft, BitVec.getLsbD_extractLsb', BitVec.getLsbD_shiftLeft,
    BitVec.getLsbD_append]
  simp only [hi, decide_true, Bool.true_and]
  by_cases h1 : i < s % w
  · have : w + i - s % w < w := by omega
    simp [h1, this, show w + i < w + w by omega, show ¬ w + i < s % w by omega,
      show w - s % w + i = w + i - s % w by omega]
  · simp [h1, show w + i < w + w by omega, show ¬ w + i < s % w by omega,
      show ¬ w + i - s % w < w by omega, show w + i - s % w - w = i - s % w by omega]

theorem fshr_rotate (x : BitVec w) (s : Nat) :
    (((x ++ x) >>> (s % w)).extractLsb' 0 w) = x.rotateRight s := by
  rcases Nat.eq_zero_or_pos w with h | h
  · subst h; exact Subsingleton.elim _ _
  apply BitVec.eq_of_getLsbD_eq
  intro i hi
  have hs : s % w < w := Nat.mod_lt _ h
  rw [BitVec.getLsbD_rotateRight, BitVec.getLsbD_extractLsb', BitVec.getLsbD_ushiftRight,
    BitVec.getLsbD_append]
  simp only [hi, decide_true, Bool.true_and, Nat.zero_add]
  by_cases h1 : i < w - s % w
  · simp [h1, show s % w + i < w by omega]
  · simp [h1, show ¬ s % w + i < w by omega, show s % w + i - w = i - (w - s % w) by omega]

end Verif.IR
