import Verif.IR.FpIeee

/-!
Rounding to integers, conversion to integers, minimum and maximum, fused multiply-add, and the LLVM
instructions and intrinsics for them.  The relations in `Verif.Ieee` say what IEEE 754 wants.
-/

set_option linter.unusedSimpArgs false

namespace Verif.Fp

variable {w : Nat}

/-- Rounding directions: to nearest with ties to even, toward zero, down, up, to nearest with ties away
from zero. -/
inductive Mode where
  | even | zero | down | up | away
  deriving DecidableEq, Repr

/-- `± n / d` rounded to an integer; the sign only matters for rounding down and up. -/
def roundQ (mode : Mode) (neg : Bool) (n d : Nat) : Nat :=
  match mode with
  | .even => rne n d
  | .zero => n / d
  | .down => if neg then (n + (d - 1)) / d else n / d
  | .up => if neg then n / d else (n + (d - 1)) / d
  | .away => (2 * n + d) / (2 * d)

/-- Rounding to an integral number in the same format. -/
def integral (mode : Mode) (x : BitVec w) : BitVec w :=
  if isNaN x then quiet x
  else if isInf x then x
  else round w x.msb (roundQ mode x.msb (units x) (2 ^ uexp w) * 2 ^ uexp w) 1

/-- Conversion to an integer; `none` for NaN and infinity. -/
def toIntM (mode : Mode) (x : BitVec w) : Option Int :=
  if isNaN x || isInf x then none
  else
    let q := (roundQ mode x.msb (units x) (2 ^ uexp w) : Int)
    some (if x.msb then - q else q)

/-- Conversion of an integer, rounding in a given direction.  The largest integers used are far below the
largest number of either format. -/
def ofIntM (mode : Mode) (w : Nat) (z : Int) : BitVec w :=
  let n := z.natAbs * 2 ^ uexp w
  let k := Nat.log2 n - mantBits w
  signed w (decide (z < 0)) (min (infMag w) (k * 2 ^ mantBits w + roundQ mode (decide (z < 0)) n (2 ^ k)))

/-- Can an integer be converted without rounding? -/
def exactInt (w : Nat) (z : Int) : Bool :=
  let r := ofInt w z
  !isInf r && decide (units r = z.natAbs * 2 ^ uexp w)

/-- Is the product infinite, or finite and not rounded? -/
def exactProd (x y : BitVec w) : Bool :=
  isInf x || isInf y ||
    (!isInf (mul x y) && decide (units (mul x y) * 2 ^ uexp w = units x * units y))

/-- Fused multiply-add: `x * y + z` rounded once. -/
def fma (x y z : BitVec w) : BitVec w :=
  let neg := x.msb != y.msb
  if isNaN x then quiet x
  else if isNaN y then quiet y
  else if isNaN z then quiet z
  else if isInf x || isInf y then
    if mag x = 0 ∨ mag y = 0 then indef w
    else if isInf z && z.msb != neg then indef w
    else signed w neg (infMag w)
  else if isInf z then z
  else
    let p := units x * units y
    let t := (if neg then - (p : Int) else p) + sunits z * 2 ^ uexp w
    if t = 0 then signed w (neg && z.msb) 0 else round w (decide (t < 0)) t.natAbs (2 ^ uexp w)

end Verif.Fp

namespace Verif.IR

variable {w : Nat}

/-- `uitofp`. -/
def uitofp (v : Nat) (a : Val w) : Val v := un (fun x => Fp.ofInt v x.toNat) a

/-- `fptoui`: poison if the result does not fit. -/
def fptoui (v : Nat) (a : Val w) : Val v := a.bind fun x => match Fp.toInt x with
  | none => none
  | some z => if 0 ≤ z ∧ z < 2 ^ v then some (BitVec.ofInt v z) else none

/-- `llvm.roundeven`, `llvm.trunc`, `llvm.floor`, `llvm.ceil`, `llvm.round`; `llvm.rint` and
`llvm.nearbyint` round to nearest even in the default environment. -/
def frint (mode : Fp.Mode) (a : Val w) : Val w := un (Fp.integral mode) a

/-- `llvm.minnum`, `llvm.maxnum`: the other operand if one is NaN.  If the operands compare equal, either
of them may be returned, so that the result is not determined for zeros of opposite sign. -/
def minnum (a b : Val w) : Val w := a.bind fun x => b.bind fun y =>
  if Fp.isNaN x then some (if Fp.isNaN y then Fp.quiet x else y)
  else match Fp.cmp x y with
    | .lt | .un => some x
    | .gt => some y
    | .eq => if x = y then some x else none
def maxnum (a b : Val w) : Val w := a.bind fun x => b.bind fun y =>
  if Fp.isNaN x then some (if Fp.isNaN y then Fp.quiet x else y)
  else match Fp.cmp x y with
    | .gt | .un => some x
    | .lt => some y
    | .eq => if x = y then some x else none

end Verif.IR

namespace Verif.Ieee

open Verif.Fp

variable {w : Nat}

/-- The integer `z` is `± n / d` rounded in the given direction: no integer is closer (ties to even or away
from zero), or it is the closest one toward zero, below or above. -/
def RoundsInt (mode : Mode) (neg : Bool) (n d : Nat) (z : Int) : Prop :=
  let q : Int := if neg then - (n : Int) else n
  match mode with
  | .even => 2 * (q - z * d).natAbs < d ∨ (2 * (q - z * d).natAbs = d ∧ z % 2 = 0)
  | .away => 2 * (q - z * d).natAbs < d ∨ (2 * (q - z * d).natAbs = d ∧ n < z.natAbs * d)
  | .zero => z.natAbs * d ≤ n ∧ n < (z.natAbs + 1) * d ∧ (if neg then z ≤ 0 else 0 ≤ z)
  | .down => z * d ≤ q ∧ q < (z + 1) * d
  | .up => (z - 1) * d < q ∧ q ≤ z * d

/-- Strict order of the numbers other than NaN in which the negative zero is below the positive one. -/
def less (x y : BitVec w) : Bool := decide (key x < key y) || (decide (mag x = 0 ∧ mag y = 0) && x.msb && !y.msb)

/-- The operations minimumNumber and maximumNumber of IEEE 754-2019, without the case of two NaNs. -/
def minNumber (x y : BitVec w) : BitVec w :=
  if isNaN x then y else if isNaN y then x else if less y x then y else x
def maxNumber (x y : BitVec w) : BitVec w :=
  if isNaN x then y else if isNaN y then x else if less x y then y else x

/-- Fused multiply-add. -/
def Fused (x y z r : BitVec w) : Prop :=
  let neg := x.msb != y.msb
  let t := (if neg then - ((units x * units y : Nat) : Int) else (units x * units y : Nat)) + sunits z * 2 ^ uexp w
  if isNaN x ∨ isNaN y ∨ isNaN z then isNaN r = true
  else if (isInf x ∧ mag y = 0) ∨ (mag x = 0 ∧ isInf y) then isNaN r = true
  else if isInf x ∨ isInf y then
    (if isInf z ∧ z.msb ≠ neg then isNaN r = true else IsInfinity neg r)
  else if isInf z then r = z
  else if t = 0 then IsZero (neg && z.msb) r
  else Rounds (decide (t < 0)) t.natAbs (2 ^ uexp w) r

end Verif.Ieee

namespace Verif.Fp

variable {w : Nat}

theorem roundQ_ieee (mode : Mode) (neg : Bool) (n d : Nat) (hd : 0 < d) :
    Ieee.RoundsInt mode neg n d (if neg then - (roundQ mode neg n d : Int) else roundQ mode neg n d) := by
  have h1 := Nat.div_add_mod n d
  have h2 := Nat.mod_lt n hd
  rw [Nat.mul_comm] at h1
  have key : ∀ a : Nat, ((a : Int) * d).natAbs = a * d := fun a => by
    rw [Int.natAbs_mul, Int.natAbs_natCast, Int.natAbs_natCast]
  have up : (n + (d - 1)) / d = if n % d = 0 then n / d else n / d + 1 := by
    conv => lhs; rw [← h1]
    rw [Nat.add_assoc, Nat.add_comm, Nat.add_mul_div_right _ _ hd]
    split
    · rw [Nat.div_eq_of_lt (by omega)]; omega
    · rw [show n % d + (d - 1) = (n % d - 1) + d by omega, Nat.add_div_right _ hd,
        Nat.div_eq_of_lt (by omega)]; omega
  have aw : (2 * n + d) / (2 * d) = if 2 * (n % d) < d then n / d else n / d + 1 := by
    have e : 2 * n + d = (2 * (n % d) + d) + n / d * (2 * d) := by
      rw [Nat.mul_left_comm]; omega
    rw [e, Nat.add_mul_div_right _ _ (by omega)]
    split
    · rw [Nat.div_eq_of_lt (by omega)]; omega
    · rw [show 2 * (n % d) + d = (2 * (n % d) - d) + 2 * d by omega, Nat.add_div_right _ (by omega),
        Nat.div_eq_of_lt (by omega)]; omega
  have e1 : ((n / d : Nat) : Int) * d = ((n / d * d : Nat) : Int) := by rw [Int.natCast_mul]
  have e2 : ((n / d + 1 : Nat) : Int) * d = ((n / d * d : Nat) : Int) + d := by
    rw [Int.natCast_add, Int.add_mul, e1]; simp
  generalize hq : n / d = q at *
  generalize hr : n % d = r at *
  generalize hqd : q * d = Q at *
  cases mode
  · -- even
    simp only [Ieee.RoundsInt, roundQ, rne, hq, hr]
    cases neg <;> simp only [Bool.false_eq_true, if_false, if_true] <;> split <;>
      simp only [Int.neg_mul, e1, e2] <;> omega
  · simp only [Ieee.RoundsInt, roundQ, hq]
    have e3 : (q + 1) * d = Q + d := by rw [Nat.add_mul, hqd, Nat.one_mul]
    cases neg <;> simp only [Bool.false_eq_true, if_false, if_true, Int.natAbs_neg, Int.natAbs_natCast, hqd, e3] <;> omega
  · simp only [Ieee.RoundsInt, roundQ, hq, up]
    cases neg <;> simp only [Bool.false_eq_true, if_false, if_true, Int.add_mul, e1]
    · omega
    · split <;> simp only [Int.neg_mul, e1, e2] <;> omega
  · simp only [Ieee.RoundsInt, roundQ, hq, up]
    cases neg <;> simp only [Bool.false_eq_true, if_false, if_true, Int.sub_mul]
    · split <;> simp only [e1, e2] <;> omega
    · simp only [Int.neg_mul, e1]; omega
  · simp only [Ieee.RoundsInt, roundQ, hq, aw]
    have e3 : (q + 1) * d = Q + d := by rw [Nat.add_mul, hqd, Nat.one_mul]
    cases neg <;> simp only [Bool.false_eq_true, if_false, if_true] <;> split <;>
      simp only [Int.neg_mul, Int.natAbs_neg, Int.natAbs_natCast, hqd, e1, e2, e3] <;> omega

theorem fma_ieee (hw : Format w) (x y z : BitVec w) : Ieee.Fused x y z (fma x y z) := by
  have h0 : infMag w ≠ 0 := by rcases hw with rfl | rfl <;> decide
  have zi : ∀ v : BitVec w, mag v = 0 → isInf v = false := by
    intro v hv; simp [isInf, hv, Ne.symm h0]
  unfold Ieee.Fused fma
  simp only
  cases hx : isNaN x
  · cases hy : isNaN y
    · cases hz : isNaN z
      · simp only [Bool.false_eq_true, or_self, if_false]
        by_cases hi : isInf x = true ∨ isInf y = true
        · rw [if_pos (show (isInf x || isInf y) = true by simpa using hi)]
          by_cases hzz : (isInf x = true ∧ mag y = 0) ∨ (mag x = 0 ∧ isInf y = true)
          · rw [if_pos hzz, if_pos (by omega)]
            exact isNaN_indef hw
          · have hm : ¬ (mag x = 0 ∨ mag y = 0) := by
              rintro (h | h)
              · have := zi x h; simp only [this, Bool.false_eq_true, false_or] at hi
                exact hzz (.inr ⟨h, hi⟩)
              · have := zi y h; simp only [this, Bool.false_eq_true, or_false] at hi
                exact hzz (.inl ⟨hi, h⟩)
            rw [if_neg hzz, if_pos hi, if_neg hm]
            by_cases hzi : isInf z = true ∧ z.msb ≠ (x.msb != y.msb)
            · rw [if_pos hzi, if_pos (by simpa using hzi)]; exact isNaN_indef hw
            · rw [if_neg hzi, if_neg (by simpa using hzi)]; exact inf_signed hw _
        · rw [if_neg (show ¬ (isInf x || isInf y) = true by simpa using hi)]
          rw [if_neg (fun h => hi (h.imp And.left And.right)), if_neg hi]
          generalize ((if (x.msb != y.msb) = true then - ((units x * units y : Nat) : Int)
            else (units x * units y : Nat)) + sunits z * 2 ^ uexp w) = t
          cases isInf z
          · simp only [Bool.false_eq_true, if_false]
            by_cases ht : t = 0
            · simp only [ht, if_true]; exact zero_signed hw _
            · simp only [ht, if_false]; exact rounds_round hw _ _ _ (Nat.two_pow_pos _)
          · simp only [if_true]
      · simp only [Bool.false_eq_true, or_true, if_true, if_false, isNaN_quiet hw hz]
    · simp only [Bool.false_eq_true, or_true, true_or, if_true, if_false, isNaN_quiet hw hy]
  · simp only [true_or, if_true, isNaN_quiet hw hx]

/-! The relations leave open which NaN the result is. -/

theorem ite_imp {c : Prop} [Decidable c] {a b a' b' : Prop} (h1 : c → a → a') (h2 : ¬ c → b → b') :
    (if c then a else b) → (if c then a' else b') := by
  split
  next h => exact h1 h
  next h => exact h2 h

theorem rounds_nan {neg : Bool} {n d : Nat} {r : BitVec w} {P : Prop} (hr : isNaN r = true)
    (h : Ieee.Rounds neg n d r) : P := by
  have := h.2.1
  simp only [isNaN, decide_eq_true_eq] at hr
  omega

theorem zero_nan {neg : Bool} {r : BitVec w} {P : Prop} (hr : isNaN r = true) (h : Ieee.IsZero neg r) : P := by
  have := h.2
  simp only [isNaN, decide_eq_true_eq] at hr
  omega

theorem inf_nan {neg : Bool} {r : BitVec w} {P : Prop} (hr : isNaN r = true) (h : Ieee.IsInfinity neg r) : P := by
  have := h.2
  simp only [isNaN, decide_eq_true_eq] at hr
  simp only [isInf, decide_eq_true_eq] at this
  omega

theorem eq_nan {r x : BitVec w} {P : Prop} (hr : isNaN r = true) (hx : ¬ isNaN x = true) (h : r = x) : P :=
  absurd (h ▸ hr) hx

theorem sum_nan {x y r r' : BitVec w} (hr : isNaN r = true) (hr' : isNaN r' = true) :
    Ieee.Sum x y r → Ieee.Sum x y r' :=
  ite_imp (fun _ _ => hr') fun h1 => ite_imp
    (fun _ => ite_imp (fun _ h => eq_nan hr (fun h => h1 (.inl h)) h) fun _ _ => hr') fun _ =>
    ite_imp (fun _ h => eq_nan hr (fun h => h1 (.inl h)) h) fun _ =>
    ite_imp (fun _ h => eq_nan hr (fun h => h1 (.inr h)) h) fun _ =>
    ite_imp (fun _ h => zero_nan hr h) fun _ h => rounds_nan hr h

theorem result_nan {op : Arith} {x y r r' : BitVec w} (h : Ieee.Result op x y r) (hr : isNaN r = true)
    (hr' : isNaN r' = true) : Ieee.Result op x y r' := by
  cases op
  · exact sum_nan hr hr' h
  · exact sum_nan hr hr' h
  · exact ite_imp (fun _ _ => hr') (fun _ => ite_imp (fun _ _ => hr') fun _ =>
      ite_imp (fun _ h => inf_nan hr h) fun _ h => rounds_nan hr h) h
  · exact ite_imp (fun _ _ => hr') (fun _ => ite_imp (fun _ _ => hr') fun _ =>
      ite_imp (fun _ h => inf_nan hr h) fun _ => ite_imp (fun _ h => zero_nan hr h) fun _ h => rounds_nan hr h) h

theorem root_nan {x r r' : BitVec w} (h : Ieee.Root x r) (hr : isNaN r = true)
    (hr' : isNaN r' = true) : Ieee.Root x r' :=
  ite_imp (fun _ _ => hr') (fun h1 => ite_imp (fun _ h => eq_nan hr h1 h) fun _ => ite_imp (fun _ _ => hr') fun _ =>
    ite_imp (fun _ h => eq_nan hr h1 h) fun _ h => by
      have := h.2.1
      simp only [isNaN, decide_eq_true_eq] at hr
      omega) h

theorem fused_nan {x y z r r' : BitVec w} (h : Ieee.Fused x y z r) (hr : isNaN r = true)
    (hr' : isNaN r' = true) : Ieee.Fused x y z r' :=
  ite_imp (fun _ _ => hr') (fun h1 => ite_imp (fun _ _ => hr') fun _ =>
    ite_imp (fun _ => ite_imp (fun _ _ => hr') fun _ h => inf_nan hr h) fun _ =>
    ite_imp (fun _ h => eq_nan hr (fun h => h1 (.inr (.inr h))) h) fun _ =>
    ite_imp (fun _ h => zero_nan hr h) fun _ h => rounds_nan hr h) h

theorem conv_nan {v : Nat} {x : BitVec w} {r r' : BitVec v} (h : Ieee.Conv x r) (hr : isNaN r = true)
    (hr' : isNaN r' = true) : Ieee.Conv x r' :=
  ite_imp (fun _ _ => hr') (fun _ => ite_imp (fun _ h => inf_nan hr h) fun _ h => rounds_nan hr h) h

end Verif.Fp
