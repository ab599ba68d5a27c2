import Verif.Lift.Ssa

/-!
Calls of external functions that are marked always-inline, and the instructions that CPU struct stores are placed at.

Source: /repo/src/lifter-base.cc lines 46-57 (`CallExternalFunction`), /repo/src/callconv.cc lines 188-193 (`Pack`), 219-260 (`Return`,
`Call`), 307-313 (`OptimizePacks`), /repo/src/function-info.h lines 78-82 (`CallConvPack`), /repo/src/function.cc lines 211-219.

`Pack` remembers the call or return instruction by its address; the stores are created in front of it when the whole function has been
lifted.  The model has only the instructions that are remembered.  `llvm::InlineFunction` (LLVM, "InlineFunction.cpp") fails if the function
has no body, and otherwise removes the call.
-/

namespace Verif.Lift

open Verif.Decode Verif.IR

/-- An external function: whether it has the attribute always-inline and whether it has a body in the module. -/
structure ExtFn where
  alwaysInline : Bool
  hasBody : Bool
  deriving DecidableEq, Repr

/-- The operations that end in `Pack`: `CallExternalFunction`, `Return`, and the call of the tail function. -/
inductive PackOp where
  | call (f : ExtFn)
  | ret
  | tail (f : ExtFn)
  deriving DecidableEq, Repr

/-- Call and return instructions are numbered in the order of their creation; `live` has those that are still in the function, `packs` is
`fi.call_conv_packs`. -/
structure PackSt where
  next : Nat := 0
  live : List Nat := []
  packs : List Nat := []
  deriving DecidableEq, Repr

/-- A new instruction that is remembered: /repo/src/callconv.cc:188-193 with 222-223 and 242-246. -/
def PackSt.pack (s : PackSt) : PackSt := { next := s.next + 1, live := s.live ++ [s.next], packs := s.packs ++ [s.next] }

/-- `InlineFunction(*call)`: /repo/src/lifter-base.cc:52-56. -/
def PackSt.inlineCall (s : PackSt) (id : Nat) (f : ExtFn) : PackSt :=
  if f.alwaysInline && f.hasBody then { s with live := s.live.filter (· ≠ id) } else s

def PackSt.op (s : PackSt) : PackOp → PackSt
  | .call f => s.pack.inlineCall s.next f
  | .ret => s.pack
  | .tail _ => s.pack

/-- The instructions in front of which stores are created, /repo/src/callconv.cc:307-313; `none`: the address of an instruction that has
been deleted is used, which is undefined behaviour. -/
def PackSt.positions (s : PackSt) : Option (List Nat) :=
  if s.packs.all (· ∈ s.live) then some s.packs else none

/-- The operations of lifting, in order. -/
def packRun (ops : List PackOp) : PackSt := ops.foldl PackSt.op {}

/-- The operations of a function: those of the instructions (calls of external functions, and returns with `ForceReturn`), and the return or
the tail call of the exit block (/repo/src/function.cc:211-217). -/
def packOps {P : Type} (ops : Inst P → List PackOp) (is : List (Inst P)) (tail : Option ExtFn) : List PackOp :=
  is.flatMap ops ++ [match tail with
    | none => .ret
    | some f => .tail f]

/-! ### Facts -/

def PackOp.inlined : PackOp → Bool
  | .call f => f.alwaysInline && f.hasBody
  | _ => false

/-- What is known after the operations `ops`. -/
structure PackInv (ops : List PackOp) (s : PackSt) : Prop where
  next : s.next = ops.length
  packs : s.packs = List.range ops.length
  live : ∀ k, k ∈ s.live ↔ ∃ o, ops[k]? = some o ∧ o.inlined = false

theorem packInv_step {ops : List PackOp} {s : PackSt} (h : PackInv ops s) (o : PackOp) : PackInv (ops ++ [o]) (s.op o) := by
  have hlen : (ops ++ [o]).length = ops.length + 1 := by simp
  have hold : ∀ k, k ∈ s.live → k < ops.length := by
    intro k hk
    obtain ⟨_, h1, -⟩ := (h.live k).1 hk
    exact (List.getElem?_eq_some_iff.1 h1).1
  have hget : ∀ k, k < ops.length → (ops ++ [o])[k]? = ops[k]? := fun k hk => List.getElem?_append_left hk
  have hlast : (ops ++ [o])[ops.length]? = some o := by simp
  have hpack : ∀ k, k ∈ s.pack.live ↔ k ∈ s.live ∨ k = ops.length := by
    intro k
    simp [PackSt.pack, h.next]
  have hcases : ∀ k o', (ops ++ [o])[k]? = some o' → k < ops.length ∧ ops[k]? = some o' ∨ k = ops.length ∧ o' = o := by
    intro k o' hk
    have hk' : k < ops.length + 1 := hlen ▸ (List.getElem?_eq_some_iff.1 hk).1
    by_cases hl : k < ops.length
    · rw [hget k hl] at hk
      exact .inl ⟨hl, hk⟩
    · obtain rfl : k = ops.length := by omega
      rw [hlast] at hk
      cases hk
      exact .inr ⟨rfl, rfl⟩
  have keep : o.inlined = false → ∀ k, k ∈ s.pack.live ↔ ∃ o', (ops ++ [o])[k]? = some o' ∧ o'.inlined = false := by
    intro ho k
    rw [hpack k]
    constructor
    · rintro (hk | rfl)
      · obtain ⟨o', h1, h2⟩ := (h.live k).1 hk
        exact ⟨o', by rw [hget k (hold k hk)]; exact h1, h2⟩
      · exact ⟨o, hlast, ho⟩
    · rintro ⟨o', h1, h2⟩
      rcases hcases k o' h1 with ⟨-, h1⟩ | ⟨rfl, -⟩
      · exact .inl ((h.live k).2 ⟨o', h1, h2⟩)
      · exact .inr rfl
  have hn : s.pack.next = (ops ++ [o]).length := by rw [hlen]; simp [PackSt.pack, h.next]
  have hp : s.pack.packs = List.range (ops ++ [o]).length := by
    rw [hlen, List.range_succ]
    simp [PackSt.pack, h.next, h.packs]
  cases o with
  | ret => exact ⟨hn, hp, keep rfl⟩
  | tail f => exact ⟨hn, hp, keep rfl⟩
  | call f =>
    simp only [PackSt.op, PackSt.inlineCall]
    by_cases hi : (f.alwaysInline && f.hasBody) = true
    · rw [if_pos hi]
      refine ⟨hn, hp, fun k => ?_⟩
      simp only [List.mem_filter, decide_eq_true_eq, ne_eq, h.next]
      rw [hpack k]
      constructor
      · rintro ⟨hk | hk, hne⟩
        · obtain ⟨o', h1, h2⟩ := (h.live k).1 hk
          exact ⟨o', by rw [hget k (hold k hk)]; exact h1, h2⟩
        · exact absurd hk hne
      · rintro ⟨o', h1, h2⟩
        rcases hcases k o' h1 with ⟨hl, h1⟩ | ⟨rfl, rfl⟩
        · exact ⟨.inl ((h.live k).2 ⟨o', h1, h2⟩), by omega⟩
        · simp only [PackOp.inlined, hi] at h2
          cases h2
    · rw [if_neg hi]
      exact ⟨hn, hp, keep (by simpa [PackOp.inlined] using hi)⟩

theorem packInv_run (ops : List PackOp) : PackInv ops (packRun ops) := by
  suffices h : ∀ (rest done : List PackOp) (s : PackSt), PackInv done s → PackInv (done ++ rest) (rest.foldl PackSt.op s) by
    have h0 : PackInv [] ({} : PackSt) := ⟨rfl, rfl, fun k => by simp⟩
    exact h ops [] {} h0
  intro rest
  induction rest with
  | nil => intro done s h; rw [List.append_nil]; exact h
  | cons o rest ih =>
    intro done s h
    have := ih (done ++ [o]) (s.op o) (packInv_step h o)
    rw [List.append_assoc] at this
    exact this

/-! ### C69 -/

/-- C69 for functions that are not inlined: for all code and all external functions, if no instruction calls a function that is marked
always-inline and has a body, then the stores are placed at every call and every return, in order. -/
theorem C69_calls_partial {P : Type} (ops : Inst P → List PackOp) (is : List (Inst P)) (tail : Option ExtFn)
    (h : ∀ i ∈ is, ∀ f, .call f ∈ ops i → ¬ (f.alwaysInline = true ∧ f.hasBody = true)) :
    (packRun (packOps ops is tail)).positions = some (List.range ((is.flatMap ops).length + 1)) := by
  have hinv := packInv_run (packOps ops is tail)
  have hops : ∀ o ∈ packOps ops is tail, o.inlined = false := by
    intro o ho
    rcases List.mem_append.1 ho with ho | ho
    · obtain ⟨i, hi, ho⟩ := List.mem_flatMap.1 ho
      cases o with
      | call f =>
        cases h1 : f.alwaysInline <;> cases h2 : f.hasBody <;> simp only [PackOp.inlined, h1, h2] <;> try rfl
        exact absurd ⟨h1, h2⟩ (h i hi f ho)
      | ret => rfl
      | tail f => rfl
    · rw [List.mem_singleton] at ho
      subst ho
      cases tail <;> rfl
  unfold PackSt.positions
  rw [if_pos, hinv.packs]
  · simp only [packOps, List.length_append, List.length_singleton]
  · rw [List.all_eq_true]
    simp only [hinv.packs, List.mem_range, decide_eq_true_eq, hinv.live]
    exact fun k hk => ⟨_, List.getElem?_eq_getElem hk, hops _ (List.getElem_mem hk)⟩

/-- C69, exactly: in all other cases the address of a deleted instruction is used. -/
theorem C69_exact {P : Type} (ops : Inst P → List PackOp) (is : List (Inst P)) (tail : Option ExtFn) :
    (packRun (packOps ops is tail)).positions = none ↔ ∃ i ∈ is, ∃ f, .call f ∈ ops i ∧ f.alwaysInline = true ∧ f.hasBody = true := by
  constructor
  · intro h
    refine Classical.byContradiction fun hn => ?_
    rw [C69_calls_partial ops is tail fun i hi f hf hb => hn ⟨i, hi, f, hf, hb⟩] at h
    cases h
  · rintro ⟨i, hi, f, hf, h1, h2⟩
    have hinv := packInv_run (packOps ops is tail)
    have hmem : PackOp.call f ∈ packOps ops is tail := List.mem_append_left _ (List.mem_flatMap.2 ⟨i, hi, hf⟩)
    obtain ⟨k, hk⟩ := List.getElem?_of_mem hmem
    unfold PackSt.positions
    rw [if_neg]
    intro hall
    rw [List.all_eq_true] at hall
    have := hall k (by rw [hinv.packs]; exact List.mem_range.2 (List.getElem?_eq_some_iff.1 hk).1)
    obtain ⟨o, h3, h4⟩ := (hinv.live k).1 (of_decide_eq_true this)
    rw [hk] at h3
    cases h3
    simp only [PackOp.inlined, h1, h2] at h4
    cases h4

/-- C69 fails: a function with one system call, whose implementation has a body and is marked always-inline.  The call is inlined while
the function is lifted, and the stores in front of it are then created at the address of the deleted instruction.  Without the mark the
function has its two places for stores. -/
theorem C69_inline_counterexample :
    let i : Inst Unit := ⟨0x1000#64, 4, ()⟩
    (packRun (packOps (fun _ => [.call ⟨true, true⟩]) [i] none)).positions = none ∧
    (packRun (packOps (fun _ => [.call ⟨false, true⟩]) [i] none)).positions = some [0, 1] ∧
    (packRun (packOps (fun _ => [.call ⟨true, false⟩]) [i] none)).positions = some [0, 1] := by
  decide

/-- The hypotheses of `C69_calls_partial` are met: a call, a return, and a tail call of a function that is marked always-inline. -/
example : (packRun (packOps (fun i => if i.start = 0#64 then [PackOp.call ⟨true, false⟩] else [.ret]) [⟨0#64, 4, ()⟩, ⟨4#64, 4, ()⟩]
    (some ⟨true, true⟩))).positions = some [0, 1, 2] := by decide

end Verif.Lift
