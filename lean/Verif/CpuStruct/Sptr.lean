import Verif.CpuStruct.Public

/-! C16, the pointers into the struct that a lifted function computes at its beginning, and their names. -/

namespace Verif.CpuStruct

/-- `CallConv::InitSptrs`, /repo/src/callconv.cc:178-186: the vector `sptr` of a function whose struct is at `base`; `none` is a null
pointer. -/
def initSptrs (base : BitVec 64) (fs : List Field) : List (Option (BitVec 64)) :=
  (entries fs).foldl (fun v e => v.set e.idx (some (base + BitVec.ofNat 64 e.off))) (List.replicate (entries fs).length none)

/-- The enumerator `SptrIdx::<arch>::<NAME>`, /repo/src/function-info.h:41-68: the position among the entries with a register. -/
def sptrIdx (fs : List Field) (name : String) : Option Nat :=
  (fs.filter (·.reg.isSome)).findIdx? (fun f => f.name = some name)

theorem foldl_set (base : BitVec 64) (fs : List Field) : ∀ (n : Nat) (v : List (Option (BitVec 64))),
    v.length = n + (entriesFrom n fs).length →
    (entriesFrom n fs).foldl (fun v e => v.set e.idx (some (base + BitVec.ofNat 64 e.off))) v =
      v.take n ++ (fs.filter (·.reg.isSome)).map (fun f => some (base + BitVec.ofNat 64 f.off)) := by
  induction fs with
  | nil =>
    intro n v hv
    simp only [entriesFrom, List.length_nil] at hv
    simp only [entriesFrom, List.foldl_nil, List.filter_nil, List.map_nil, List.append_nil]
    exact (List.take_of_length_le (by omega)).symm
  | cons f fs ih =>
    intro n v hv
    cases hr : f.reg with
    | none =>
      simp only [entriesFrom, hr] at hv ⊢
      rw [ih n v hv, List.filter_cons_of_neg (by simp [hr])]
    | some p =>
      simp only [entriesFrom, hr, List.length_cons] at hv ⊢
      rw [List.foldl_cons, ih (n + 1) _ (by rw [List.length_set]; omega), List.filter_cons_of_pos (by simp [hr]), List.map_cons]
      have hn : n < v.length := by omega
      rw [List.take_add_one, List.take_set_of_le (Nat.le_refl n), List.getElem?_set_self hn]
      simp

/-- The vector has the pointers in the order of the entries. -/
theorem initSptrs_eq (base : BitVec 64) (fs : List Field) :
    initSptrs base fs = (fs.filter (·.reg.isSome)).map (fun f => some (base + BitVec.ofNat 64 f.off)) := by
  unfold initSptrs entries
  rw [foldl_set base fs 0 _ (by simp)]
  simp

/-- C16: for every description, the pointer that the lifter finds under a name is that of the field with this name. -/
theorem C16_named_pointer (base : BitVec 64) (fs : List Field) (n : String) (k : Nat) (h : sptrIdx fs n = some k) :
    ∃ f ∈ fs, f.name = some n ∧ f.reg.isSome ∧ (initSptrs base fs)[k]? = some (some (base + BitVec.ofNat 64 f.off)) := by
  obtain ⟨hk, hp, -⟩ := List.findIdx?_eq_some_iff_getElem.1 h
  have hmem := List.mem_filter.1 (List.getElem_mem hk)
  refine ⟨_, hmem.1, by simpa using hp, hmem.2, ?_⟩
  rw [initSptrs_eq, List.getElem?_map, List.getElem?_eq_getElem hk]
  rfl

/-- C16: no pointer is missing. -/
theorem C16_pointers (base : BitVec 64) (fs : List Field) : none ∉ initSptrs base fs := by
  rw [initSptrs_eq]
  simp

/-- The names by which the lifter uses fields: /repo/src/x86-64/lifter-operand.cc:84-85, /repo/src/a64/main.cc:272 and 313. -/
theorem named_of {ds : List Desc} {size : Nat} {names : List String}
    (h : (layout 0 ds).map (fun p => names.all fun n => (sptrIdx p.1 n).isSome && p.1.all fun f => f.name ≠ some n || f.size = 8) = some true)
    (base : BitVec 64) : ∀ fs, layout 0 ds = some (fs, size) → ∀ n ∈ names, ∃ k, sptrIdx fs n = some k ∧ ∃ f ∈ fs, f.name = some n ∧
      f.size = 8 ∧ (initSptrs base fs)[k]? = some (some (base + BitVec.ofNat 64 f.off)) := by
  intro fs hl n hn
  rw [hl] at h
  simp only [Option.map_some, Option.some.injEq, List.all_eq_true, Bool.and_eq_true, Bool.or_eq_true, decide_eq_true_eq] at h
  obtain ⟨h1, h2⟩ := h n hn
  obtain ⟨k, hk⟩ := Option.isSome_iff_exists.1 h1
  obtain ⟨f, hf, hname, -, hp⟩ := C16_named_pointer base fs n k hk
  exact ⟨k, hk, f, hf, hname, (h2 f hf).resolve_left (fun hne => hne hname), hp⟩

/-- C16, x86-64: the segment bases are found. -/
theorem C16_x86_segment_pointers (base : BitVec 64) : ∀ fs, layout 0 x86Desc = some (fs, Spec.x86.size) → ∀ n ∈ ["fsbase", "gsbase"],
    ∃ k, sptrIdx fs n = some k ∧ ∃ f ∈ fs, f.name = some n ∧ f.size = 8 ∧
      (initSptrs base fs)[k]? = some (some (base + BitVec.ofNat 64 f.off)) := named_of (by decide +kernel) base

/-- C16, AArch64: the thread pointer is found. -/
theorem C16_a64_thread_pointer (base : BitVec 64) : ∀ fs, layout 0 a64Desc = some (fs, Spec.a64.size) → ∀ n ∈ ["tpidr_el0"],
    ∃ k, sptrIdx fs n = some k ∧ ∃ f ∈ fs, f.name = some n ∧ f.size = 8 ∧
      (initSptrs base fs)[k]? = some (some (base + BitVec.ofNat 64 f.off)) := named_of (by decide +kernel) base

/-- The segment bases are at 144 and 152. -/
example : (layout 0 x86Desc).map (fun p => (sptrIdx p.1 "gsbase").map fun k => (initSptrs 0x10000#64 p.1)[k]?) =
    some (some (some (some 0x10098#64))) := by decide +kernel

end Verif.CpuStruct
