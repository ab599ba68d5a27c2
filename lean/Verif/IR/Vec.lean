import Verif.IR.BvLemmas

/-!
LLVM vectors.  A vector of `n` elements of type `iW` is a function from lane numbers; its length is
given to the operations that need it.  Element-wise operations apply the scalar operation per lane and
need no definition here.  Source: LLVM Language Reference.
-/

namespace Verif.Bits

/-- Value of a word, read as unsigned or as two's complement number. -/
def ival {w : Nat} (signed : Bool) (x : BitVec w) : Int := if signed then x.toInt else x.toNat

end Verif.Bits

namespace Verif.IR

variable {w : Nat}

abbrev Vec (w : Nat) := Nat → Val w

/-- `bitcast` of an integer to a vector with elements of `w` bits. -/
def Vec.ofBits (w : Nat) {k : Nat} (x : Val k) : Vec w := fun i => un (fun x => Bits.lane w x i) x

/-- `bitcast` of a vector of `n` elements to an integer: poison if an element is poison. -/
def Vec.toBits (n : Nat) (v : Vec w) : Val (w * n) :=
  if (List.range n).all fun i => (v i).isSome then some (Bits.ofLanes w n fun i => (v i).getD 0) else none

/-- `shufflevector` on two vectors of `n` elements.  A mask entry out of range, which LLVM rejects, is
poison here. -/
def Vec.shuffle (n : Nat) (a b : Vec w) (mask : List Nat) : Vec w := fun i =>
  match mask[i]? with
  | none => none
  | some j => if j < n then a j else if j < 2 * n then b (j - n) else none

/-- `insertelement` and `extractelement` with a constant index on a vector of `n` elements. -/
def Vec.insert (n : Nat) (v : Vec w) (i : Nat) (x : Val w) : Vec w :=
  if i < n then fun k => if k = i then x else v k else fun _ => none

def Vec.extract (n : Nat) (v : Vec w) (i : Nat) : Val w := if i < n then v i else none

/-- `extractelement` with an index computed at run time. -/
def Vec.extractV (n : Nat) (v : Vec w) {k : Nat} (i : Val k) : Val w := i.bind fun i => v.extract n i.toNat

def Vec.splat (x : Val w) : Vec w := fun _ => x

def Vec.zero : Vec w := fun _ => some 0

/-- `llvm.vector.reduce.*` on `n` elements, for an associative operation with identity `e`. -/
def Vec.reduce (op : Val w → Val w → Val w) (e : Val w) (n : Nat) (v : Vec w) : Val w :=
  (List.range n).foldl (fun acc i => op acc (v i)) e

/-- `bitcast` between integers of the same size. -/
def bitcast (v : Nat) (a : Val w) : Val v := un (BitVec.setWidth v) a

/-- `sext` or `zext`. -/
def ext (signed : Bool) (v : Nat) (a : Val w) : Val v := if signed then sext v a else zext v a

/-! ### Lanes -/

theorem Vec.toBits_eq {n : Nat} {v : Vec w} {f : Nat → BitVec w} (h : ∀ i, i < n → v i = some (f i)) :
    v.toBits n = some (Bits.ofLanes w n f) := by
  unfold Vec.toBits
  rw [if_pos]
  · congr 1
    have : ∀ k, k ≤ n → Bits.ofLanes w k (fun i => (v i).getD 0) = Bits.ofLanes w k f := by
      intro k hk
      induction k with
      | zero => rfl
      | succ k ih => simp only [Bits.ofLanes]; rw [ih (by omega), h k (by omega)]; rfl
    exact this n (Nat.le_refl _)
  · rw [List.all_eq_true]
    intro i hi
    rw [h i (List.mem_range.1 hi)]; rfl

@[simp] theorem Vec.ofBits_some {k : Nat} (x : BitVec k) (i : Nat) :
    Vec.ofBits w (some x) i = some (Bits.lane w x i) := rfl

theorem Vec.shuffle_eq {n : Nat} {a b : Vec w} {mask : List Nat} {i j : Nat} (h : mask[i]? = some j) :
    Vec.shuffle n a b mask i = if j < n then a j else if j < 2 * n then b (j - n) else none := by
  simp only [Vec.shuffle, h]

theorem Vec.reduce_eq {op : Val w → Val w → Val w} {e : BitVec w} {n : Nat} {v : Vec w}
    {f : Nat → BitVec w} {g : BitVec w → BitVec w → BitVec w}
    (hop : ∀ x y, op (some x) (some y) = some (g x y)) (h : ∀ i, i < n → v i = some (f i)) :
    v.reduce op (some e) n = some ((List.range n).foldl (fun acc i => g acc (f i)) e) := by
  unfold Vec.reduce
  have : ∀ (l : List Nat) (e : BitVec w), (∀ i ∈ l, i < n) →
      l.foldl (fun acc i => op acc (v i)) (some e) = some (l.foldl (fun acc i => g acc (f i)) e) := by
    intro l
    induction l with
    | nil => intro e _; rfl
    | cons i l ih =>
      intro e hl
      simp only [List.foldl_cons]
      rw [h i (hl i List.mem_cons_self), hop]
      exact ih _ fun j hj => hl j (List.mem_cons_of_mem _ hj)
  exact this _ _ fun i hi => List.mem_range.1 hi

end Verif.IR

namespace Verif.Bits

/-- A lane of the low part of a word. -/
theorem lane_setWidth {k : Nat} (w n : Nat) (x : BitVec k) (i : Nat) (hi : i < n) :
    lane w (x.setWidth (w * n)) i = lane w x i := by
  apply BitVec.eq_of_getLsbD_eq
  intro j hj
  have h1 : w * i + j < w * n := by
    have : w * (i + 1) ≤ w * n := Nat.mul_le_mul_left _ hi
    rw [Nat.mul_succ] at this; omega
  simp only [lane, BitVec.getLsbD_extractLsb', BitVec.getLsbD_setWidth, hj, h1, decide_true,
    Bool.true_and]

theorem lane_ext {w n : Nat} {x y : BitVec (w * n)} (h : ∀ i, i < n → lane w x i = lane w y i) : x = y := by
  rw [← ofLanes_lane w n x, ← ofLanes_lane w n y]
  have : ∀ k, k ≤ n → ofLanes w k (lane w x) = ofLanes w k (lane w y) := by
    intro k hk
    induction k with
    | zero => rfl
    | succ k ih => simp only [ofLanes]; rw [ih (by omega), h k (by omega)]
  exact this n (Nat.le_refl _)

theorem ofLanes_congr {w n : Nat} {f g : Nat → BitVec w} (h : ∀ i, i < n → f i = g i) :
    ofLanes w n f = ofLanes w n g := by
  apply lane_ext
  intro i hi
  rw [lane_ofLanes _ _ _ _ hi, lane_ofLanes _ _ _ _ hi, h i hi]

/-! ### Integers and words -/

theorem ofInt_ival {w : Nat} (sg : Bool) (x : BitVec w) : BitVec.ofInt w (ival sg x) = x := by
  cases sg
  · simp only [ival, Bool.false_eq_true, if_false, BitVec.ofInt_natCast, BitVec.ofNat_toNat, BitVec.setWidth_eq]
  · simp only [ival, if_true, BitVec.ofInt_toInt]

theorem ext_val {w : Nat} (sg : Bool) (v : Nat) (x : BitVec w) :
    IR.ext sg v (some x) = some (BitVec.ofInt v (ival sg x)) := by
  cases sg
  · simp only [IR.ext, Bool.false_eq_true, if_false, IR.zext, IR.un_some, ival, Bv.setWidth_eq_ofInt]
  · simp only [IR.ext, if_true, IR.sext, IR.un_some, ival, Bv.signExtend_eq_ofInt]

theorem two_pow_int (n : Nat) : ((2 ^ n : Nat) : Int) = 2 ^ n := by push_cast; rfl

/-- Bits of an integer, by shifting right and truncating. -/
theorem ushr_trunc {v w k : Nat} (h : w + k ≤ v) (z : Int) :
    ((BitVec.ofInt v z) >>> k).setWidth w = BitVec.ofInt w (z / 2 ^ k) := by
  apply BitVec.eq_of_toNat_eq
  rw [BitVec.toNat_setWidth, BitVec.toNat_ushiftRight, BitVec.toNat_ofInt, BitVec.toNat_ofInt,
    Nat.shiftRight_eq_div_pow]
  apply Int.ofNat.inj
  show (((z % ((2 ^ v : Nat) : Int)).toNat / 2 ^ k % 2 ^ w : Nat) : Int)
    = (((z / 2 ^ k) % ((2 ^ w : Nat) : Int)).toNat : Int)
  have hv : (0 : Int) < ((2 ^ v : Nat) : Int) := by have := Nat.two_pow_pos v; omega
  have hw : (0 : Int) < ((2 ^ w : Nat) : Int) := by have := Nat.two_pow_pos w; omega
  have hk : (0 : Int) < ((2 ^ k : Nat) : Int) := by have := Nat.two_pow_pos k; omega
  rw [Int.natCast_emod, Int.natCast_ediv, Int.toNat_of_nonneg (Int.emod_nonneg _ (Int.ne_of_gt hv)),
    Int.toNat_of_nonneg (Int.emod_nonneg _ (Int.ne_of_gt hw)), ← two_pow_int k]
  obtain ⟨d, rfl⟩ : ∃ d, v = k + w + d := ⟨v - k - w, by omega⟩
  have e : ((2 ^ (k + w + d) : Nat) : Int) = ((2 ^ k : Nat) : Int) * (((2 ^ w : Nat) : Int) * ((2 ^ d : Nat) : Int)) := by
    rw [Nat.pow_add, Nat.pow_add]; push_cast; rw [Int.mul_assoc]
  rw [e]
  generalize ((2 ^ k : Nat) : Int) = K at *
  generalize ((2 ^ w : Nat) : Int) = W at *
  generalize ((2 ^ d : Nat) : Int) = D at *
  rw [Int.emod_def z, Int.mul_assoc K (W * D), Int.sub_eq_add_neg, ← Int.mul_neg,
    Int.add_mul_ediv_left _ _ (Int.ne_of_gt hk), ← Int.mul_neg, Int.mul_assoc, Int.add_mul_emod_self_left]

/-- The same with an arithmetic shift. -/
theorem sshr_trunc {v w k : Nat} (h : w + k ≤ v) (z : Int) :
    ((BitVec.ofInt v z).sshiftRight k).setWidth w = BitVec.ofInt w (z / 2 ^ k) := by
  rw [← ushr_trunc h]
  apply BitVec.eq_of_getLsbD_eq
  intro i hi
  rw [BitVec.getLsbD_setWidth, BitVec.getLsbD_setWidth, BitVec.getLsbD_sshiftRight,
    BitVec.getLsbD_ushiftRight]
  simp only [hi, decide_true, Bool.true_and, show ¬ v ≤ i by omega, decide_false, Bool.not_false,
    show k + i < v by omega, if_true]

theorem trunc_ofInt {v w : Nat} (h : w ≤ v) (z : Int) : (BitVec.ofInt v z).setWidth w = BitVec.ofInt w z := by
  have := ushr_trunc (k := 0) (show w + 0 ≤ v from h) z
  simpa using this

theorem ival_lt {w : Nat} (sg : Bool) (x : BitVec w) : ival sg x < 2 ^ w := by
  have h1 := x.isLt
  have h2 : (x.toNat : Int) < 2 ^ w := by rw [← two_pow_int]; exact_mod_cast h1
  cases sg
  · simpa [ival] using h2
  · have := @BitVec.toInt_lt w x
    have h3 : x.toInt ≤ (x.toNat : Int) := by rw [BitVec.toInt_eq_toNat_cond]; split <;> omega
    simp only [ival, if_true]; omega

theorem ival_le {w : Nat} (sg : Bool) (x : BitVec w) : -2 ^ w ≤ ival sg x := by
  have h0 : (0 : Int) < 2 ^ w := Int.pow_pos (by decide)
  cases sg
  · simp only [ival, Bool.false_eq_true, if_false]; omega
  · have h1 : 2 * x.toInt ≥ -2 ^ w := @BitVec.le_two_mul_toInt w x
    simp only [ival, if_true]; omega

/-- A number in the signed range is the signed value of its word. -/
theorem toInt_ofInt_of {w : Nat} {z : Int} (h1 : -2 ^ (w - 1) ≤ z) (h2 : z < 2 ^ (w - 1)) (hw : 0 < w) :
    (BitVec.ofInt w z).toInt = z := by
  rw [BitVec.toInt_ofInt]
  have e : ((2 ^ w : Nat) : Int) = 2 * 2 ^ (w - 1) := by
    rw [two_pow_int, ← Int.pow_succ', Nat.sub_add_cancel hw]
  apply Int.bmod_eq_of_le
  · rw [e]; omega
  · rw [e]; omega

end Verif.Bits
