import Verif.Conc.Order

/-!
Executions that are not interleavings.  A candidate execution gives every thread its list of accesses, in which the values read are
arbitrary, and says for every read which write it reads; the rules of LLVM (LLVM Language Reference Manual, "Memory Model for Concurrent
Operations" and "Atomic Memory Ordering Constraints", which refers to the C++ memory model) say which candidates are possible.

Simplification: two accesses are either to the same bytes or to disjoint ones (`Exec.Uniform`).
-/

namespace Verif.Conc

open Verif.IR

variable {σ ι : Type}

/-- The event of an access that finds the value `v`. -/
def Acc.event (e : Acc) (t : ι) (v : Val (8 * e.n)) : Ev ι :=
  { thread := t, isFence := false, ord := e.ord, addr := e.addr, n := e.n, old := v, new := e.upd.map (· v), reads := e.reads }

def fenceEvent (t : ι) (o : Ord) : Ev ι :=
  { thread := t, isFence := true, ord := o, addr := 0#64, n := 0, old := none, new := none, reads := false }

/-- Emitted code, run with any answers of memory: the accesses and fences that it performs, and where it is then. -/
inductive Emits (prog : σ → Code σ) (t : ι) : Code σ → List (Ev ι) → Code σ → Prop where
  | nil {c : Code σ} : Emits prog t c [] c
  | next {s : σ} {l : List (Ev ι)} {c : Code σ} : Emits prog t (prog s) l c → Emits prog t (.done s) l c
  | acc {e : Acc} {k : Val (8 * e.n) → Code σ} (v : Val (8 * e.n)) {l : List (Ev ι)} {c : Code σ} :
    e.addr.toNat % e.align = 0 → Emits prog t (k v) l c →
      Emits prog t (.acc e k) (e.event t v :: l) c
  | fence {o : Ord} {k : Code σ} {l : List (Ev ι)} {c : Code σ} : Emits prog t k l c →
      Emits prog t (.fence o k) (fenceEvent t o :: l) c

/-- A candidate execution.  An event is named by its thread and its position there.  `src` says which write an access reads, `none` for
the initial contents of memory; `mo` is the modification order. -/
structure Exec (ι : Type) where
  ev : ι → List (Ev ι)
  src : ι × Nat → Option (ι × Nat)
  mo : ι × Nat → ι × Nat → Prop

namespace Exec

variable (X : Exec ι)

def at? (i : ι × Nat) : Option (Ev ι) := (X.ev i.1)[i.2]?

def has (i : ι × Nat) (P : Ev ι → Prop) : Prop := ∃ e, X.at? i = some e ∧ P e

/-- Two accesses to the same bytes. -/
def same (i j : ι × Nat) : Prop := ∃ e f, X.at? i = some e ∧ X.at? j = some f ∧ e.isFence = false ∧ f.isFence = false ∧
  e.addr = f.addr ∧ e.n = f.n

def isRead (i : ι × Nat) : Prop := X.has i fun e => e.isFence = false ∧ e.reads = true
def isWrite (i : ι × Nat) : Prop := X.has i fun e => e.isFence = false ∧ e.new.isSome = true

/-- Accesses are to the same or to disjoint bytes. -/
def Uniform : Prop := ∀ i j e f, X.at? i = some e → X.at? j = some f → e.isFence = false → f.isFence = false →
  X.same i j ∨ ∀ b, ¬ (e.hits b ∧ f.hits b)

/-- Program order. -/
def po (i j : ι × Nat) : Prop := i.1 = j.1 ∧ i.2 < j.2 ∧ X.has j fun _ => True

/-- Reads-from. -/
def rf (i j : ι × Nat) : Prop := X.isRead j ∧ X.src j = some i

/-- The release sequence of `x`. -/
inductive rs (x : ι × Nat) : ι × Nat → Prop where
  | head : rs x x
  | rmw {y z : ι × Nat} : rs x y → X.rf y z → X.isWrite z → X.has z Ev.atomic → rs x z

/-- Synchronizes-with. -/
def sw (i j : ι × Nat) : Prop :=
  ∃ x z y, X.rs x z ∧ X.rf z y ∧ X.has x Ev.atomic ∧ X.has y Ev.atomic ∧
    (i = x ∧ X.has x (·.ord.rel) ∨ X.has i (fun e => e.isFence = true ∧ e.ord.rel) ∧ X.po i x) ∧
    (j = y ∧ X.has y (·.ord.acq) ∨ X.has j (fun e => e.isFence = true ∧ e.ord.acq) ∧ X.po y j)

/-- Happens-before. -/
inductive hb : ι × Nat → ι × Nat → Prop where
  | po {i j : ι × Nat} : X.po i j → hb i j
  | sw {i j : ι × Nat} : X.sw i j → hb i j
  | trans {i j k : ι × Nat} : hb i j → hb j k → hb i k

/-- From-read: `j` overwrites what `i` has read. -/
def fr (i j : ι × Nat) : Prop := X.isRead i ∧ X.isWrite j ∧ X.same i j ∧ i ≠ j ∧ ∀ w, X.src i = some w → X.mo w j

/-- Coherence order of the accesses to the same bytes. -/
inductive eco : ι × Nat → ι × Nat → Prop where
  | rf {i j : ι × Nat} : X.rf i j → eco i j
  | mo {i j : ι × Nat} : X.isWrite i → X.isWrite j → X.same i j → X.mo i j → eco i j
  | fr {i j : ι × Nat} : X.fr i j → eco i j
  | trans {i j k : ι × Nat} : eco i j → eco j k → eco i k

/-- "For each byte of a read R, R may see any write to the same byte, except: if write1 happens before write2, and write2 happens before
R, then R does not see write1; if R happens before write3, then R does not see write3."  The write `none` of the initial contents happens
before everything. -/
def maySee (r : ι × Nat) : Option (ι × Nat) → Prop
  | none => ∀ w, X.isWrite w → X.same w r → ¬ X.hb w r
  | some v => X.isWrite v ∧ X.same v r ∧ v ≠ r ∧ ¬ X.hb r v ∧ ∀ w, X.isWrite w → X.same w r → X.hb v w → ¬ X.hb w r

/-- The value that a read gets from a write. -/
def value (mem : VMem) (a : Addr) (n : Nat) : Option (ι × Nat) → Option (Val (8 * n))
  | none => some (mem.read a n)
  | some w => (X.at? w).bind fun e => if h : e.n = n then e.new.map (h ▸ ·) else none

/-- The rules of LLVM for executions, with the initial contents of memory. -/
structure Consistent (mem : VMem) : Prop where
  /-- The simplification of this file. -/
  uniform : X.Uniform
  /-- An access is listed for its thread. -/
  thread : ∀ i e, X.at? i = some e → e.thread = i.1
  /-- Every read sees one of the writes that it may see. -/
  sees : ∀ r, X.isRead r → X.maySee r (X.src r)
  /-- "If R is atomic, and all the writes it may see are atomic, it chooses one of the values written; if R may see exactly one write, R
  returns the value written by that write; otherwise R returns undef", which may be anything. -/
  value : ∀ r e, X.at? r = some e → X.isRead r →
    (e.atomic ∧ (∀ w, X.maySee r (some w) → X.has w Ev.atomic) ∨ ∀ w, X.maySee r w → w = X.src r) →
    X.value mem e.addr e.n (X.src r) = some e.old
  /-- Atomic writes of the same bytes are modified in one order, which no thread can contradict. -/
  total : ∀ i j, X.isWrite i → X.isWrite j → X.same i j → X.has i Ev.atomic → X.has j Ev.atomic → i = j ∨ X.mo i j ∨ X.mo j i
  coherent : ∀ i j, X.has i Ev.atomic → X.has j Ev.atomic → X.hb i j → ¬ X.eco j i
  acyclic : ∀ i, ¬ X.hb i i ∧ (X.has i Ev.atomic → ¬ X.eco i i)
  /-- A read-modify-write reads the last write before its own. -/
  rmw : ∀ i, X.isRead i → X.isWrite i → X.has i Ev.atomic →
    (∀ w, X.src i = some w → X.mo w i) ∧ ∀ j, X.isWrite j → X.same j i → X.mo j i → j ≠ i → ∃ w, X.src i = some w ∧ (w = j ∨ X.mo j w)
  /-- All sequentially consistent operations are in one order that agrees with happens-before and with the coherence order. -/
  sc : ∃ rank : ι × Nat → Nat, ∀ i j, X.has i (·.ord = .seqCst) → X.has j (·.ord = .seqCst) → X.hb i j ∨ X.eco i j → rank i < rank j

/-- Values do not come out of thin air (not a rule of LLVM, but true of all implementations): the accesses have an order that agrees with
program order and reads-from. -/
def NotThinAir : Prop := ∃ rank : ι × Nat → Nat, ∀ i j, X.po i j ∨ X.rf i j → rank i < rank j

variable {X}

/-- C63: what a thread does before a release operation happens before what another thread does after the acquire operation that reads
what the release operation, or a read-modify-write that continues its release sequence, has written; in every execution. -/
theorem C63_weak_release_acquire {i x z y j : ι × Nat} (hi : i = x ∨ X.po i x) (hrs : X.rs x z) (hrf : X.rf z y) (hj : y = j ∨ X.po y j)
    (hx : X.has x fun e => e.atomic ∧ e.ord.rel) (hy : X.has y fun e => e.atomic ∧ e.ord.acq) : X.hb i j := by
  obtain ⟨e, he, hea, her⟩ := hx
  obtain ⟨f, hf, hfa, hfr⟩ := hy
  have hsw : X.hb x y := .sw ⟨x, z, y, hrs, hrf, ⟨e, he, hea⟩, ⟨f, hf, hfa⟩, .inl ⟨rfl, ⟨e, he, her⟩⟩, .inl ⟨rfl, ⟨f, hf, hfr⟩⟩⟩
  have h1 : X.hb i y := by
    rcases hi with rfl | hi
    · exact hsw
    · exact .trans (.po hi) hsw
  rcases hj with rfl | hj
  · exact h1
  · exact .trans h1 (.po hj)

/-- C63: a read that happens after the only write of its bytes gets what was written, be it atomic or not; in every execution. -/
theorem C63_weak_read {mem : VMem} (hX : X.Consistent mem) {i r : ι × Nat} (hi : X.isWrite i) (hs : X.same i r)
    (honly : ∀ k, X.isWrite k → X.same k r → k = i) (hr : X.isRead r) (hb : X.hb i r) {e : Ev ι} (he : X.at? r = some e) :
    X.src r = some i ∧ X.value mem e.addr e.n (some i) = some e.old := by
  have key : ∀ w, X.maySee r w → w = some i := by
    intro w hw
    cases w with
    | none => exact absurd hb (hw i hi hs)
    | some v => rw [honly v hw.1 hw.2.1]
  have h1 := key _ (hX.sees r hr)
  refine ⟨h1, ?_⟩
  rw [← h1]
  refine hX.value r e he hr (.inr fun w hw => ?_)
  rw [key w hw, h1]

end Exec

end Verif.Conc
