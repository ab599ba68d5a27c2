import Verif.CpuStruct.Props

/-! C16, the part of the struct that users see: the entries of the public header. -/

namespace Verif.CpuStruct

/-- What the public header of an architecture has to name: the program counter, the general purpose registers except `hidden`, the vector
registers and the `bases` of segments.  Name, register and size. -/
def Spec.header (a : Spec) (hidden bases : List String) : List (String × Reg × Nat) :=
  (a.pcName, .invalid, 8) :: bases.map (fun n => (n, .invalid, 8)) ++
    (a.gps.zipIdx.filter (fun p => p.1 ∉ hidden)).map (fun p => (p.1, .gp p.2, 8)) ++
    a.vecs.zipIdx.map (fun p => (p.1, .vec p.2, a.vecBytes))

/-- The public header agrees with the table that the lifter uses. -/
structure Header (fs : List Field) (a : Spec) (hidden bases : List String) : Prop where
  /-- Every entry is one that the header has to have.  The lifter accesses the register of this name at the same offset, and with as many
  bytes. -/
  right : ∀ p ∈ publicEntries fs, ∃ x ∈ a.header hidden bases, p.1 = some x.1 ∧ p.2.1 = x.2.2 ∧
    (∃ e ∈ entries fs, e.off = p.2.2 ∧ e.reg = x.2.1 ∧ e.facet.bytes = p.2.1) ∧ ∃ f ∈ fs, f.name = some x.1 ∧ f.off = p.2.2 ∧ f.size = p.2.1
  /-- No entry is missing. -/
  complete : ∀ x ∈ a.header hidden bases, ∃ p ∈ publicEntries fs, p.1 = some x.1
  /-- The entries are inside of the struct. -/
  inside : ∀ p ∈ publicEntries fs, p.2.2 + p.2.1 ≤ a.size
  /-- A struct that is aligned to 16 bytes is aligned as LLVM is told. -/
  align : ∀ addr : Nat, addr % 16 = 0 → addr % paramAlign = 0

def headerB (fs : List Field) (a : Spec) (hidden bases : List String) : Bool :=
  ((publicEntries fs).all fun p => (a.header hidden bases).any fun x => decide (p.1 = some x.1) && decide (p.2.1 = x.2.2) &&
    ((entries fs).any fun e => decide (e.off = p.2.2) && decide (e.reg = x.2.1) && decide (e.facet.bytes = p.2.1)) &&
    fs.any fun f => decide (f.name = some x.1) && decide (f.off = p.2.2) && decide (f.size = p.2.1)) &&
  ((a.header hidden bases).all fun x => (publicEntries fs).any fun p => decide (p.1 = some x.1)) &&
  ((publicEntries fs).all fun p => decide (p.2.2 + p.2.1 ≤ a.size)) && decide (16 % paramAlign = 0)

theorem header_of {ds : List Desc} {a : Spec} {hidden bases : List String}
    (h : (layout 0 ds).map (fun p => headerB p.1 a hidden bases) = some true) :
    ∀ fs, layout 0 ds = some (fs, a.size) → Header fs a hidden bases := by
  intro fs hl
  rw [hl] at h
  simp only [Option.map_some, Option.some.injEq, headerB, Bool.and_eq_true, List.all_eq_true, List.any_eq_true, decide_eq_true_eq] at h
  obtain ⟨⟨⟨h1, h2⟩, h3⟩, h4⟩ := h
  refine ⟨fun p hp => ?_, h2, h3, fun addr ha => ?_⟩
  · obtain ⟨x, hx, ⟨⟨e1, e2⟩, e, he, ⟨e3, e4⟩, e5⟩, f, hf, ⟨e6, e7⟩, e8⟩ := h1 p hp
    exact ⟨x, hx, e1, e2, ⟨e, he, e3, e4, e5⟩, f, hf, e6, e7, e8⟩
  · exact Nat.mod_eq_zero_of_dvd (Nat.dvd_trans (Nat.dvd_of_mod_eq_zero h4) (Nat.dvd_of_mod_eq_zero ha))

/-- C16 for the header of x86-64: the flags are not public. -/
theorem C16_x86_header : ∀ fs, layout 0 x86Desc = some (fs, Spec.x86.size) → Header fs .x86 [] ["fsbase", "gsbase"] :=
  header_of (by decide +kernel)

/-- C16 for the header of RISC-V: `x0` is not public. -/
theorem C16_rv64_header : ∀ fs, layout 0 rvDesc = some (fs, Spec.rv64.size) → Header fs .rv64 ["x0"] [] := header_of (by decide +kernel)

/-- C16 for the header of AArch64: the flags are not public. -/
theorem C16_a64_header : ∀ fs, layout 0 a64Desc = some (fs, Spec.a64.size) → Header fs .a64 [] [] := header_of (by decide +kernel)

/-- The hypothesis is met, and there are entries. -/
example : ∃ fs, layout 0 x86Desc = some (fs, Spec.x86.size) ∧ (some "rsp", 8, 40) ∈ publicEntries fs := by
  have h : (layout 0 x86Desc).map (fun p => decide (p.2 = Spec.x86.size ∧ (some "rsp", 8, 40) ∈ publicEntries p.1)) = some true := by
    decide +kernel
  obtain ⟨⟨fs, n⟩, hl, h⟩ := Option.map_eq_some_iff.1 h
  obtain ⟨h1, h2⟩ := of_decide_eq_true h
  cases h1
  exact ⟨fs, hl, h2⟩

end Verif.CpuStruct
