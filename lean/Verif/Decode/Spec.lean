import Verif.Decode.Model

/-!
Specification vocabulary for the decoder properties C01-C06 and C08.  Nothing here refers to the
work list, the map or the loop of the implementation.
-/

namespace Verif.Decode

variable {P : Type}

/-- Can control reach the next instruction in memory after an instruction of kind `k`?  Calls
continue there only if calls are lifted as calls. -/
def FallsThrough (callFn : Bool) (k : Kind) : Prop :=
  k = .other ∨ k = .condBranch ∨ (k = .call ∧ callFn = true)

instance (callFn : Bool) (k : Kind) : Decidable (FallsThrough callFn k) := by
  unfold FallsThrough; infer_instance

/-- `a` is a statically known successor address of `i`: its non-zero direct branch target or its
fall-through address. -/
def StaticSucc (cls : Classifier P) (callFn : Bool) (i : Inst P) (a : Addr) : Prop :=
  ((cls i).2 ≠ 0 ∧ a = (cls i).2) ∨ (FallsThrough callFn (cls i).1 ∧ a = i.stop)

/-- Addresses reachable from `a0` by static control flow in the code seen by decoder `dec`. -/
inductive Reach (cls : Classifier P) (dec : Decoder P) (callFn : Bool) (a0 : Addr) : Addr → Prop
  | start : Reach cls dec callFn a0 a0
  | succ {a b : Addr} {len : Nat} {p : P} : Reach cls dec callFn a0 a → dec a = some (len, p) →
      StaticSucc cls callFn ⟨a, len, p⟩ b → Reach cls dec callFn a0 b

/-- The instructions decoded so far, in order. -/
def Fn.insts (fn : Fn P) : List (Inst P) := fn.instrs.map DInstr.inst

/-- An instruction has been decoded at `a`. -/
def Fn.DecodedAt (fn : Fn P) (a : Addr) : Prop := ∃ i ∈ fn.insts, i.start = a

/-- An instruction decoded at `a` starts a basic block. -/
def Fn.BlockStart (fn : Fn P) (a : Addr) : Prop :=
  ∃ d ∈ fn.instrs, d.inst.start = a ∧ d.newBlock = true

/-- Number of static edges from `i` to `a` (0, 1 or 2). -/
def numSucc (cls : Classifier P) (callFn : Bool) (a : Addr) (i : Inst P) : Nat :=
  (if (cls i).2 ≠ 0 ∧ a = (cls i).2 then 1 else 0) +
  (if FallsThrough callFn (cls i).1 ∧ a = i.stop then 1 else 0)

/-- Number of static control-flow edges to `a` from decoded instructions. -/
def Fn.edgeCount (cls : Classifier P) (callFn : Bool) (fn : Fn P) (a : Addr) : Nat :=
  (fn.insts.map (numSucc cls callFn a)).sum

/-- Number of decoded instructions that end a block although control can go on to `a`, the address
right after them: conditional branches and calls. -/
def Fn.cutCount (cls : Classifier P) (callFn : Bool) (fn : Fn P) (a : Addr) : Nat :=
  (fn.insts.map (fun i =>
    if (cls i).1 ≠ .other ∧ FallsThrough callFn (cls i).1 ∧ a = i.stop then 1 else 0)).sum

/-- Recorded number of predecessors of `a`. -/
def Fn.predsOf (fn : Fn P) (a : Addr) : Nat :=
  match fn.imap a with
  | some e => e.preds
  | none => 0

/-- Where the lifted function starts: the first instruction that was decoded. -/
def Fn.entry? (fn : Fn P) : Option Addr := fn.insts.head?.map Inst.start

/-- The calls in the history `h` agree on whether calls are lifted as calls, calls were not decoded
with `decode_instr` if they are not, and into every block of the function at least as many
predecessors are recorded as there are static control-flow edges from decoded instructions. -/
structure Counted (cls : Classifier P) (callFn : Bool) (h : List (Call P)) (fn : Fn P) : Prop where
  same : ∀ c ∈ h, c.callFn = callFn
  calls : ∀ c ∈ h, c.stop = .instr → callFn = true ∨ ∀ i ∈ fn.insts, (cls i).1 ≠ .call
  edges : ∀ a, fn.BlockStart a → fn.edgeCount cls callFn a ≤ fn.predsOf a

/-- `b` is one of the bytes of instruction `i`. -/
def Inst.HasByte (i : Inst P) (b : Addr) : Prop := ∃ k : Nat, k < i.len ∧ b = i.start + BitVec.ofNat 64 k

/-- `b` lies in the half-open (wrapping) range `r`. -/
def InRange (r : Addr × Addr) (b : Addr) : Prop :=
  ∃ k : Nat, k < (r.2 - r.1).toNat ∧ b = r.1 + BitVec.ofNat 64 k

/-- A run of instructions contiguous in memory from `a` to `b`. -/
inductive Contig : Addr → List (Inst P) → Addr → Prop
  | nil (a : Addr) : Contig a [] a
  | cons {b : Addr} {is : List (Inst P)} (i : Inst P) : Contig i.stop is b → Contig i.start (i :: is) b

/-- Total number of code bytes, counted with multiplicity. -/
def totalLen (is : List (Inst P)) : Nat := (is.map Inst.len).sum

end Verif.Decode
