import Verif.Facet.Model

/-! C70: the types of operands. -/

namespace Verif.Facet

/-- The number of bits of a value of a type; pointers have 64. -/
def Ty.bits : Ty → Nat
  | .int n => n
  | .float => 32
  | .double => 64
  | .ptr => 64
  | .vec n e => n * e.bits

/-- The views that stand for different types, depending on the size of the operand. -/
def Pseudo (f : Fc) : Prop := f = .I ∨ f = .VI8 ∨ f = .VI16 ∨ f = .VI32 ∨ f = .VI64 ∨ f = .VF32 ∨ f = .VF64

instance (f : Fc) : Decidable (Pseudo f) := by unfold Pseudo; infer_instance

def Fc.all : List Fc := [.I1, .I8, .I16, .I32, .I64, .I128, .F32, .F64, .V1I8, .V2I8, .V4I8, .V8I8, .V16I8, .V1I16, .V2I16, .V4I16, .V8I16,
  .V1I32, .V2I32, .V4I32, .V1I64, .V2I64, .V1F32, .V2F32, .V4F32, .V1F64, .V2F64, .PTR, .I8H, .I, .VI8, .VI16, .VI32, .VI64, .VF32, .VF64]

theorem Fc.mem_all (f : Fc) : f ∈ Fc.all := by cases f <;> decide

/-- C70: a view that is not a pseudo-view has a type, and its size is the number of bits of this type; a pseudo-view has neither. -/
theorem C70_size (f : Fc) : if Pseudo f then size f = none ∧ type f = none else ∃ t, type f = some t ∧ size f = some t.bits := by
  have h : ∀ f ∈ Fc.all, if Pseudo f then size f = none ∧ type f = none else (type f).isSome ∧ size f = (type f).map Ty.bits := by
    decide +kernel
  have := h f (Fc.mem_all f)
  split at this
  · rw [if_pos (by assumption)]; exact this
  · rw [if_neg (by assumption)]
    obtain ⟨h1, h2⟩ := this
    obtain ⟨t, ht⟩ := Option.isSome_iff_exists.1 h1
    exact ⟨t, ht, by rw [h2, ht]; rfl⟩

/-- C70: no value is larger than a vector register. -/
theorem C70_size_le (f : Fc) (n : Nat) (h : size f = some n) : 0 < n ∧ n ≤ 128 := by
  have key : ∀ f ∈ Fc.all, ∀ n ∈ size f, 0 < n ∧ n ≤ 128 := by decide +kernel
  exact key f (Fc.mem_all f) n h

/-- C70: the view of a value is found from its type, except for pointers, and for the high byte, which has the type of the low byte. -/
theorem C70_from_type (f : Fc) (t : Ty) (h : type f = some t) :
    fromType t = if f = .PTR then none else if f = .I8H then some .I8 else some f := by
  have key : ∀ f ∈ Fc.all, ∀ t ∈ type f, fromType t = if f = .PTR then none else if f = .I8H then some .I8 else some f := by
    decide +kernel
  exact key f (Fc.mem_all f) t h

theorem ofBits_size {n : Nat} {f : Fc} (h : ofBits n = some f) : type f = some (.int n) := by
  obtain ⟨e, he, rfl⟩ := Option.map_eq_some_iff.1 h
  have h1 := List.find?_some he
  have h2 := List.mem_of_find?_eq_some he
  have key : ∀ e ∈ scalarInts, type e.1 = some (.int e.2.1) := by decide +kernel
  rw [key e h2, of_decide_eq_true h1]

theorem ofVector_type {n : Nat} {sc f : Fc} (h : ofVector n sc = some f) : ∃ t, type sc = some t ∧ type f = some (.vec n t) := by
  obtain ⟨e, he, rfl⟩ := Option.map_eq_some_iff.1 h
  have h0 := List.find?_some he
  obtain ⟨h1, h2⟩ := of_decide_eq_true h0
  have h3 := List.mem_of_find?_eq_some he
  have key : ∀ e ∈ vectors, (type e.2.2).isSome ∧ type e.1 = (type e.2.2).map (.vec e.2.1) := by decide +kernel
  obtain ⟨k1, k2⟩ := key e h3
  subst h1 h2
  obtain ⟨t, ht⟩ := Option.isSome_iff_exists.1 k1
  exact ⟨t, ht, by rw [k2, ht]; rfl⟩

/-- What a pseudo-view stands for: integers, or vectors of these elements. -/
def elem : Fc → Option Ty
  | .VI8 => some (.int 8)
  | .VI16 => some (.int 16)
  | .VI32 => some (.int 32)
  | .VI64 => some (.int 64)
  | .VF32 => some .float
  | .VF64 => some .double
  | _ => none

/-- C70: if a pseudo-view of an operand of `bits` bits has a type, it is the integer of this size, or the vector of as many elements as fit
into it.  For all sizes of operands. -/
theorem C70_resolve (f g : Fc) (bits : Nat) (hf : Pseudo f) (h : resolve f bits = some g) :
    type g = some (match elem f with | none => .int bits | some e => .vec (bits / e.bits) e) := by
  rcases hf with rfl | rfl | rfl | rfl | rfl | rfl | rfl
  · exact ofBits_size h
  all_goals
    obtain ⟨t, ht, hg⟩ := ofVector_type (show ofVector (bits / _) _ = some g from h)
    cases ht
    exact hg

/-- C70: so that for operands whose size is a power of two the type has exactly the bits of the operand. -/
theorem C70_resolve_bits (f g : Fc) (k : Nat) (hf : Pseudo f) (h : resolve f (2 ^ k) = some g) :
    ∃ t, type g = some t ∧ t.bits = 2 ^ k := by
  have hg := C70_resolve f g _ hf h
  cases he : elem f with
  | none => rw [he] at hg; exact ⟨_, hg, rfl⟩
  | some e =>
    rw [he] at hg
    refine ⟨_, hg, ?_⟩
    obtain ⟨j, hj⟩ : ∃ j, e.bits = 2 ^ j := by
      rcases hf with rfl | rfl | rfl | rfl | rfl | rfl | rfl <;> cases he
      · exact ⟨3, rfl⟩
      · exact ⟨4, rfl⟩
      · exact ⟨5, rfl⟩
      · exact ⟨6, rfl⟩
      · exact ⟨5, rfl⟩
      · exact ⟨6, rfl⟩
    -- a vector has at least one element
    have hpos : 0 < 2 ^ k / e.bits := by
      obtain ⟨n, hn⟩ : ∃ n, size g = some n ∧ n = 2 ^ k / e.bits * e.bits := by
        have := C70_size g
        split at this
        · rw [this.2] at hg; cases hg
        · obtain ⟨t, ht, hs⟩ := this
          rw [ht] at hg
          cases hg
          exact ⟨_, hs, rfl⟩
      have := (C70_size_le g n hn.1).1
      rw [hn.2] at this
      exact Nat.pos_of_mul_pos_right this
    show 2 ^ k / e.bits * e.bits = 2 ^ k
    rw [hj] at hpos ⊢
    have hle : 2 ^ j ≤ 2 ^ k := by
      rcases Nat.lt_or_ge (2 ^ k) (2 ^ j) with hlt | hge
      · rw [Nat.div_eq_of_lt hlt] at hpos
        cases hpos
      · exact hge
    exact Nat.div_mul_cancel (Nat.pow_dvd_pow 2 ((Nat.pow_le_pow_iff_right (by decide)).1 hle))

/-- The condition on the size is needed: an operand of 40 bits would be accessed with 32. -/
theorem C70_size_counterexample : ∃ g, resolve .VI32 40 = some g ∧ size g = some 32 := ⟨.V1I32, by decide, by decide⟩

/-- C70: the assertions do not fail for the operands of SSE instructions: all sizes from that of an element to 128 bits. -/
theorem C70_resolve_defined (f : Fc) (e : Ty) (he : elem f = some e) (k : Nat) (h1 : e.bits ≤ 2 ^ k) (h2 : 2 ^ k ≤ 128) :
    (resolve f (2 ^ k)).isSome := by
  have hk : k ≤ 7 := by
    rcases Nat.lt_or_ge 7 k with h | h
    · have := Nat.pow_le_pow_right (n := 2) (by decide) h
      omega
    · exact h
  have key : ∀ f ∈ Fc.all, ∀ e ∈ elem f, ∀ k ∈ List.range 8, e.bits ≤ 2 ^ k → (resolve f (2 ^ k)).isSome := by decide +kernel
  exact key f (Fc.mem_all f) e he k (List.mem_range.2 (by omega)) h1

/-- C70: nor for integers of the sizes of operands and registers. -/
theorem C70_int_defined (k : Nat) (h1 : 3 ≤ k) (h2 : k ≤ 7) : ∃ g, resolve .I (2 ^ k) = some g := by
  have key : ∀ k ∈ List.range 8, 3 ≤ k → (resolve .I (2 ^ k)).isSome := by decide +kernel
  exact Option.isSome_iff_exists.1 (key k (List.mem_range.2 (by omega)) h1)

example : ∃ g, resolve .VF32 (2 ^ 6) = some g ∧ type g = some (.vec 2 .float) := ⟨.V2F32, by decide, by decide⟩

end Verif.Facet
