import Verif.Conc.Model

/-!
The rules of LLVM for memory accesses of several threads (LLVM Language Reference Manual, "Memory Model for Concurrent Operations" and
"Atomic Memory Ordering Constraints"), as a specification: which writes a read may see.
-/

namespace Verif.Conc

open Verif.IR

variable {ι : Type}

/-- A memory access or a fence in an execution.  `old` is the value found in memory, `new` the value that a store or an `atomicrmw`
writes; `reads` is false for stores, which do not use `old`.  For fences `n` is 0. -/
structure Ev (ι : Type) where
  thread : ι
  isFence : Bool
  ord : Ord
  addr : Addr
  n : Nat
  old : Val (8 * n)
  new : Option (Val (8 * n))
  reads : Bool

/-- Does the access include the byte at `b`? -/
def Ev.hits (e : Ev ι) (b : Addr) : Prop := (b - e.addr).toNat < e.n

/-- Does it write this byte? -/
def Ev.wrote (e : Ev ι) (b : Addr) : Prop := e.hits b ∧ e.new.isSome

def Ev.atomic (e : Ev ι) : Prop := e.isFence = false ∧ e.ord ≠ .notAtomic

/-- Release semantics. -/
def Ord.rel : Ord → Prop
  | .release | .seqCst => True
  | _ => False

/-- Acquire semantics. -/
def Ord.acq : Ord → Prop
  | .acquire | .seqCst => True
  | _ => False

/-- The byte at `b` that the access writes. -/
def Ev.byte (e : Ev ι) (b : Addr) : Val 8 :=
  match e.new with
  | some v => VMem.write (fun _ => none) e.addr e.n v b
  | none => none

/-- Events in the order of an interleaving. -/
abbrev Trace (ι : Type) := List (Ev ι)

/-- The event at a position has a property. -/
def Trace.has (tr : Trace ι) (i : Nat) (P : Ev ι → Prop) : Prop := ∃ e, tr[i]? = some e ∧ P e

/-- Program order. -/
def Trace.po (tr : Trace ι) (i j : Nat) : Prop := i < j ∧ ∃ e f, tr[i]? = some e ∧ tr[j]? = some f ∧ e.thread = f.thread

/-- The access at `j` finds in memory what the access at `i` has written, all of it. -/
def Trace.rf (tr : Trace ι) (i j : Nat) : Prop :=
  i < j ∧ ∃ e f, tr[i]? = some e ∧ tr[j]? = some f ∧ e.addr = f.addr ∧ e.n = f.n ∧ 0 < e.n ∧ e.new.isSome ∧
    ∀ k, i < k → k < j → ∀ b, f.hits b → ¬ tr.has k (·.wrote b)

/-- The release sequence of an access `x`: `x`, and the atomic read-modify-writes that continue it. -/
inductive Trace.rs (tr : Trace ι) (x : Nat) : Nat → Prop where
  | head : tr.rs x x
  | rmw {y z : Nat} : tr.rs x y → tr.rf y z → tr.has z (fun e => e.atomic ∧ e.reads = true ∧ e.new.isSome) → tr.rs x z

/-- Synchronizes-with: of atomic accesses, of which one reads what the other has written, or what the release sequence of the other has
written, or of fences before and after such accesses. -/
def Trace.sw (tr : Trace ι) (i j : Nat) : Prop :=
  ∃ x z y, tr.rs x z ∧ tr.rf z y ∧ tr.has x Ev.atomic ∧ tr.has y (fun e => e.atomic ∧ e.reads = true) ∧
    (i = x ∧ tr.has x (·.ord.rel) ∨ tr.has i (fun e => e.isFence = true ∧ e.ord.rel) ∧ tr.po i x) ∧
    (j = y ∧ tr.has y (·.ord.acq) ∨ tr.has j (fun e => e.isFence = true ∧ e.ord.acq) ∧ tr.po y j)

/-- Happens-before: the least partial order that includes program order and synchronizes-with. -/
inductive Trace.hb (tr : Trace ι) : Nat → Nat → Prop where
  | po {i j : Nat} : tr.po i j → tr.hb i j
  | sw {i j : Nat} : tr.sw i j → tr.hb i j
  | trans {i j k : Nat} : tr.hb i j → tr.hb j k → tr.hb i k

/-- A write of the byte at `b`: an event, or `none` for the write that gave the memory its initial contents and happens before
everything. -/
def Trace.writes (tr : Trace ι) (b : Addr) : Option Nat → Prop
  | none => True
  | some k => tr.has k (·.wrote b)

def Trace.hb' (tr : Trace ι) : Option Nat → Option Nat → Prop
  | none, some _ => True
  | some i, some j => tr.hb i j
  | _, none => False

/-- "For each byte of a read R, R may see any write to the same byte, except: if write1 happens before write2, and write2 happens before
R, then R does not see write1; if R happens before write3, then R does not see write3." -/
def Trace.maySee (tr : Trace ι) (b : Addr) (r : Nat) (w : Option Nat) : Prop :=
  tr.writes b w ∧ w ≠ some r ∧ (∀ w2, tr.writes b w2 → tr.hb' w w2 → ¬ tr.hb' w2 (some r)) ∧ ¬ tr.hb' (some r) w

/-- "If R may see exactly one write, R returns the value written by that write"; a read that is not atomic and may see more returns
`undef`. -/
def Trace.sees (tr : Trace ι) (b : Addr) (r : Nat) (w : Option Nat) : Prop := ∀ w', tr.maySee b r w' ↔ w' = w

/-- No data race at the byte: of two accesses, one of which writes it, one happens before the other. -/
def Trace.ordered (tr : Trace ι) (b : Addr) : Prop :=
  ∀ i j, i < j → tr.has i (·.hits b) → tr.has j (·.hits b) → (tr.has i (·.wrote b) ∨ tr.has j (·.wrote b)) → tr.hb i j

/-! ### Happens-before respects the interleaving -/

variable {tr : Trace ι}

theorem Trace.po_lt {i j : Nat} (h : tr.po i j) : i < j := h.1

theorem Trace.rs_le {x y : Nat} (h : tr.rs x y) : x ≤ y := by
  induction h with
  | head => exact Nat.le_refl _
  | rmw _ h _ ih => exact Nat.le_trans ih (Nat.le_of_lt h.1)

theorem Trace.sw_lt {i j : Nat} (h : tr.sw i j) : i < j := by
  obtain ⟨x, z, y, hrs, hrf, -, -, hi, hj⟩ := h
  have h0 := rs_le hrs
  have h1 : i ≤ x := by
    rcases hi with ⟨rfl, -⟩ | ⟨-, h⟩
    · exact Nat.le_refl _
    · exact Nat.le_of_lt h.1
  have h2 : y ≤ j := by
    rcases hj with ⟨rfl, -⟩ | ⟨-, h⟩
    · exact Nat.le_refl _
    · exact Nat.le_of_lt h.1
  have := hrf.1
  omega

theorem Trace.hb_lt {i j : Nat} (h : tr.hb i j) : i < j := by
  induction h with
  | po h => exact h.1
  | sw h => exact sw_lt h
  | trans _ _ h1 h2 => omega

/-- `w` is the last write of the byte before position `r`. -/
def Trace.isLast (tr : Trace ι) (b : Addr) (r : Nat) : Option Nat → Prop
  | none => ∀ k, k < r → ¬ tr.has k (·.wrote b)
  | some w => w < r ∧ tr.has w (·.wrote b) ∧ ∀ k, w < k → k < r → ¬ tr.has k (·.wrote b)

theorem Trace.exists_last (tr : Trace ι) (b : Addr) (r : Nat) : ∃ w, tr.isLast b r w := by
  induction r with
  | zero => exact ⟨none, fun k hk => absurd hk (Nat.not_lt_zero _)⟩
  | succ r ih =>
    by_cases h : tr.has r (·.wrote b)
    · exact ⟨some r, by omega, h, fun k h1 h2 => by omega⟩
    · obtain ⟨w, hw⟩ := ih
      refine ⟨w, ?_⟩
      cases w with
      | none =>
        intro k hk
        by_cases hkr : k = r
        · subst hkr; exact h
        · exact hw k (by omega)
      | some w =>
        refine ⟨by have := hw.1; omega, hw.2.1, fun k h1 h2 => ?_⟩
        by_cases hkr : k = r
        · subst hkr; exact h
        · exact hw.2.2 k h1 (by omega)

theorem Trace.wrote_hits {i : Nat} {b : Addr} (h : tr.has i (·.wrote b)) : tr.has i (·.hits b) := by
  obtain ⟨e, he, hw⟩ := h
  exact ⟨e, he, hw.1⟩

/-- The last write is always among those that may be seen. -/
theorem Trace.maySee_last {b : Addr} {r : Nat} {w : Option Nat} (hw : tr.isLast b r w) : tr.maySee b r w := by
  cases w with
  | none =>
    refine ⟨trivial, by simp, fun w2 h2 h3 h4 => ?_, fun h => h⟩
    cases w2 with
    | none => exact h3
    | some k => exact hw k (hb_lt h4) h2
  | some w =>
    obtain ⟨h1, h2, h3⟩ := hw
    refine ⟨h2, fun h => by cases h; omega, fun w2 h4 h5 h6 => ?_, fun h => ?_⟩
    · cases w2 with
      | none => exact h5
      | some k => exact h3 k (hb_lt h5) (hb_lt h6) h4
    · have := hb_lt (tr := tr) h
      omega

/-- C63: without a data race on a byte, every access to it sees exactly one write, the last one in the interleaving. -/
theorem C63_race_free {b : Addr} (h : tr.ordered b) {r : Nat} (hr : tr.has r (·.hits b)) {w : Option Nat} (hw : tr.isLast b r w) :
    tr.sees b r w := by
  intro w'
  refine ⟨fun hs => ?_, fun e => e ▸ Trace.maySee_last hw⟩
  obtain ⟨h1, h2, h3, h4⟩ := hs
  cases w' with
  | none =>
    cases w with
    | none => rfl
    | some w =>
      exact absurd (h w r hw.1 (Trace.wrote_hits hw.2.1) hr (.inl hw.2.1)) (h3 (some w) hw.2.1 trivial)
  | some k =>
    have hkr : k < r := by
      rcases Nat.lt_trichotomy k r with hk | hk | hk
      · exact hk
      · subst hk; exact absurd rfl h2
      · exact absurd (h r k hk hr (Trace.wrote_hits h1) (.inr h1)) h4
    cases w with
    | none => exact absurd h1 (hw k hkr)
    | some w =>
      rcases Nat.lt_trichotomy k w with hk | hk | hk
      · exact absurd (h w r hw.1 (Trace.wrote_hits hw.2.1) hr (.inl hw.2.1))
          (h3 (some w) hw.2.1 (h k w hk (Trace.wrote_hits h1) (Trace.wrote_hits hw.2.1) (.inl h1)))
      · rw [hk]
      · exact absurd h1 (hw.2.2 k hk hkr)

/-- C63: what a thread does before a release operation is visible to another thread after the acquire operation that reads what the
release operation, or a read-modify-write that continues its release sequence, has written. -/
theorem C63_release_acquire {i x z y j : Nat} (hi : i = x ∨ tr.po i x) (hrs : tr.rs x z) (hrf : tr.rf z y) (hj : y = j ∨ tr.po y j)
    (hx : tr.has x fun e => e.atomic ∧ e.ord.rel) (hy : tr.has y fun e => e.atomic ∧ e.reads = true ∧ e.ord.acq) : tr.hb i j := by
  obtain ⟨e, he, hea, her⟩ := hx
  obtain ⟨f, hf, hfa, hfd, hfr⟩ := hy
  have hsw : tr.hb x y := .sw ⟨x, z, y, hrs, hrf, ⟨e, he, hea⟩, ⟨f, hf, hfa, hfd⟩, .inl ⟨rfl, ⟨e, he, her⟩⟩, .inl ⟨rfl, ⟨f, hf, hfr⟩⟩⟩
  have h1 : tr.hb i y := by
    rcases hi with rfl | hi
    · exact hsw
    · exact .trans (.po hi) hsw
  rcases hj with rfl | hj
  · exact h1
  · exact .trans h1 (.po hj)

/-- C63, message passing: if a byte is written only once, before a release operation, a read after the acquire operation that reads
what the release operation has written sees this write and no other. -/
theorem C63_message {i x z y r : Nat} {b : Addr} (hi : tr.has i (·.wrote b)) (honly : ∀ k, tr.has k (·.wrote b) → k = i)
    (hix : i = x ∨ tr.po i x) (hrs : tr.rs x z) (hrf : tr.rf z y) (hyr : y = r ∨ tr.po y r)
    (hx : tr.has x fun e => e.atomic ∧ e.ord.rel) (hy : tr.has y fun e => e.atomic ∧ e.reads = true ∧ e.ord.acq) : tr.sees b r (some i) := by
  have hb := C63_release_acquire hix hrs hrf hyr hx hy
  intro w
  constructor
  · intro h
    cases w with
    | none => exact absurd hb (h.2.2.1 (some i) hi trivial)
    | some k => rw [honly k h.1]
  · rintro rfl
    refine ⟨hi, fun h => ?_, fun w2 h2 h3 _ => ?_, fun h => ?_⟩
    · cases h
      exact absurd (Trace.hb_lt hb) (Nat.lt_irrefl _)
    · cases w2 with
      | none => exact h3
      | some k =>
        rw [honly k h2] at h3
        exact absurd (Trace.hb_lt h3) (Nat.lt_irrefl _)
    · have h1 := Trace.hb_lt hb
      have h2 := Trace.hb_lt (tr := tr) h
      omega

/-- Without atomic accesses happens-before is program order: nothing synchronizes. -/
theorem Trace.hb_po (h : ∀ i, ¬ tr.has i Ev.atomic) {i j : Nat} (hij : tr.hb i j) : tr.po i j := by
  induction hij with
  | po h => exact h
  | sw hs =>
    obtain ⟨x, _, _, _, _, hx, _⟩ := hs
    exact absurd hx (h x)
  | trans _ _ h1 h2 =>
    obtain ⟨h3, e, f, he, hf, hef⟩ := h1
    obtain ⟨h4, f', g, hf', hg, hfg⟩ := h2
    rw [hf] at hf'
    cases hf'
    exact ⟨by omega, e, g, he, hg, hef.trans hfg⟩

/-! ### Races in given executions -/

/-- An event without the values. -/
structure Shape (ι : Type) where
  thread : ι
  isFence : Bool
  ord : Ord
  addr : Addr
  n : Nat
  isWrite : Bool
  deriving DecidableEq

def Ev.shape (e : Ev ι) : Shape ι := ⟨e.thread, e.isFence, e.ord, e.addr, e.n, e.new.isSome⟩

/-- A read that is not atomic returns `undef` for the byte: it may see more than one write. -/
def Trace.undefAt (tr : Trace ι) (b : Addr) (r : Nat) : Prop :=
  tr.has r (fun e => e.hits b ∧ ¬ e.atomic) ∧ ∃ w w', w ≠ w' ∧ tr.maySee b r w ∧ tr.maySee b r w'

/-- No access is atomic, `i` is the only write of the byte, and `r` is an access to it in another thread. -/
def racyShape [DecidableEq ι] (l : List (Shape ι)) (b : Addr) (i r : Nat) : Bool :=
  l.all (fun s => s.isFence || s.ord = .notAtomic) &&
  (List.range l.length).all (fun k => match l[k]? with
    | some s => k == i || !(s.isWrite && decide ((b - s.addr).toNat < s.n))
    | none => true) &&
  (match l[i]?, l[r]? with
    | some s, some t => s.isWrite && decide ((b - s.addr).toNat < s.n) && decide ((b - t.addr).toNat < t.n) && decide (s.thread ≠ t.thread)
    | _, _ => false)

theorem undef_of_shape [DecidableEq ι] {b : Addr} {i r : Nat} (h : racyShape (tr.map Ev.shape) b i r = true) : tr.undefAt b r := by
  simp only [racyShape, Bool.and_eq_true] at h
  obtain ⟨⟨h1, h2⟩, h3⟩ := h
  have hna : ∀ e ∈ tr, ¬ e.atomic := by
    intro e he ha
    have := (List.all_eq_true.1 h1) e.shape (List.mem_map_of_mem he)
    simp only [Ev.shape, ha.1, Bool.false_or, decide_eq_true_eq] at this
    exact ha.2 this
  have hno : ∀ k, ¬ tr.has k Ev.atomic := fun k ⟨e, he, ha⟩ => hna e (List.mem_of_getElem? he) ha
  have honly : ∀ k, tr.has k (·.wrote b) → k = i := by
    rintro k ⟨e, he, hw⟩
    have hlt : k < tr.length := (List.getElem?_eq_some_iff.1 he).1
    have := (List.all_eq_true.1 h2) k (by simpa using hlt)
    simp only [List.getElem?_map, he, Option.map_some, Ev.shape, Bool.or_eq_true, beq_iff_eq] at this
    rcases this with h | h
    · exact h
    · have h4 : decide ((b - e.addr).toNat < e.n) = true := decide_eq_true hw.1
      rw [hw.2, h4] at h
      cases h
  simp only [List.getElem?_map] at h3
  cases hi : tr[i]? with
  | none => simp [hi] at h3
  | some e =>
    cases hr : tr[r]? with
    | none => simp [hr] at h3
    | some g =>
      simp only [hi, hr, Option.map_some, Ev.shape, Bool.and_eq_true, decide_eq_true_eq] at h3
      obtain ⟨⟨⟨hw, hh⟩, hg⟩, ht⟩ := h3
      have hwr : tr.has i (·.wrote b) := ⟨e, hi, hh, hw⟩
      have hnhb : ∀ k, tr.has k (·.wrote b) → ¬ tr.hb k r := by
        intro k hk hb
        rw [honly k hk] at hb
        obtain ⟨-, e', g', he', hg', heq⟩ := Trace.hb_po hno hb
        rw [hi] at he'
        rw [hr] at hg'
        cases he'
        cases hg'
        exact ht heq
      refine ⟨⟨g, hr, hg, hna g (List.mem_of_getElem? hr)⟩, none, some i, by simp, ⟨trivial, by simp, fun w2 h4 h5 h6 => ?_, fun h => h⟩,
        ⟨hwr, fun h => ?_, fun w2 h4 h5 h6 => ?_, fun hb => ?_⟩⟩
      · cases w2 with
        | none => exact h5
        | some k => exact hnhb k h4 h6
      · cases h
        rw [hi] at hr
        cases hr
        exact ht rfl
      · cases w2 with
        | none => exact h5
        | some k => exact hnhb k h4 h6
      · obtain ⟨-, g', e', hg', he', heq⟩ := Trace.hb_po hno (show tr.hb r i from hb)
        rw [hi] at he'
        rw [hr] at hg'
        cases he'
        cases hg'
        exact ht heq.symm

end Verif.Conc
