import Verif.Conc.Weak
import Verif.Conc.OrderRun

/-!
Every interleaving (`System.run`) is an execution that the rules of LLVM (`Exec.Consistent`) allow: what is shown impossible for all
executions is impossible for interleavings, and what an interleaving shows possible is possible.
-/

namespace Verif.Conc

open Verif.IR

variable {σ ι : Type}

/-! ### Memory -/

theorem VMem.read_congr (m m' : VMem) (n : Nat) (q : Addr) (h : ∀ i, i < n → m (q + BitVec.ofNat 64 i) = m' (q + BitVec.ofNat 64 i)) :
    m.read q n = m'.read q n := by
  induction n generalizing q with
  | zero => rfl
  | succ n ih =>
    simp only [VMem.read]
    have h0 := h 0 (by omega)
    simp only [BitVec.add_zero] at h0
    rw [h0, ih (q + 1#64) fun i hi => ?_]
    have := h (i + 1) (by omega)
    rw [show q + 1#64 + BitVec.ofNat 64 i = q + BitVec.ofNat 64 (i + 1) from by
      rw [BitVec.add_assoc, BitVec.add_comm 1#64, ← BitVec.ofNat_add]]
    exact this

theorem offset_toNat (a : Addr) (i : Nat) (h : i < 2 ^ 64) : (a + BitVec.ofNat 64 i - a).toNat = i := by
  rw [BitVec.add_comm, BitVec.add_sub_cancel, BitVec.toNat_ofNat]
  exact Nat.mod_eq_of_lt h

theorem VMem.read_none (a : Addr) (n : Nat) (hn : 0 < n) : VMem.read (fun _ => none) a n = none := by
  cases n with
  | zero => omega
  | succ n =>
    simp only [VMem.read]
    cases VMem.read (fun _ => none) (a + 1#64) n <;> rfl

/-- Reading back what was written, also poison. -/
theorem VMem.read_write (m : VMem) (a : Addr) (n : Nat) (v : Val (8 * n)) (h0 : 0 < n) (hn : n ≤ 2 ^ 64) :
    (m.write a n v).read a n = v := by
  cases v with
  | none =>
    rw [VMem.read_congr _ (fun _ => none) n a, VMem.read_none a n h0]
    intro i hi
    simp only [VMem.write, offset_toNat a i (by omega), hi, if_true]
    rfl
  | some v =>
    rw [VMem.read_congr _ ((Mem.write (fun _ => 0#8) a n v).toV) n a, VMem.read_toV, Mem.read_write _ _ _ _ hn]
    intro i hi
    simp only [VMem.write, Mem.toV, Mem.write, offset_toNat a i (by omega), hi, if_true]
    rfl

/-! ### Names of events -/

variable [DecidableEq ι]

/-- Where the `k`th event of a thread is in the interleaving. -/
def Trace.pos : Trace ι → ι → Nat → Option Nat
  | [], _, _ => none
  | e :: l, t, k =>
    if e.thread = t then
      match k with
      | 0 => some 0
      | k + 1 => (Trace.pos l t k).map (· + 1)
    else (Trace.pos l t k).map (· + 1)

/-- The event's thread and number there. -/
def Trace.name (tr : Trace ι) (p : Nat) : Option (ι × Nat) :=
  tr[p]?.map fun e => (e.thread, (tr.take p).countP (·.thread = e.thread))

theorem Trace.filter_pos (tr : Trace ι) (t : ι) (k : Nat) :
    (tr.filter (·.thread = t))[k]? = (tr.pos t k).bind (tr[·]?) := by
  induction tr generalizing k with
  | nil => simp [Trace.pos]
  | cons e l ih =>
    by_cases h : e.thread = t
    · cases k with
      | zero => simp [Trace.pos, h]
      | succ k =>
        simp only [List.filter_cons, h, decide_true, if_true, List.getElem?_cons_succ, ih, Trace.pos, Option.bind_map]
        rfl
    · simp only [List.filter_cons, h, decide_false, Bool.false_eq_true, if_false, ih, Trace.pos, Option.bind_map]
      rfl

theorem Trace.pos_thread {tr : Trace ι} {t : ι} {k p : Nat} (h : tr.pos t k = some p) : ∃ e, tr[p]? = some e ∧ e.thread = t := by
  induction tr generalizing k p with
  | nil => cases h
  | cons e l ih =>
    have go : ∀ k', (Trace.pos l t k').map (· + 1) = some p → ∃ e', (e :: l)[p]? = some e' ∧ e'.thread = t := by
      intro k' h
      obtain ⟨q, hq, rfl⟩ := Option.map_eq_some_iff.1 h
      exact ih hq
    simp only [Trace.pos] at h
    split at h
    · next ht =>
      cases k with
      | zero => cases h; exact ⟨e, rfl, ht⟩
      | succ k => exact go k h
    · exact go k h

theorem Trace.pos_lt {tr : Trace ι} {t : ι} {k k' p p' : Nat} (h : tr.pos t k = some p) (h' : tr.pos t k' = some p') (hk : k < k') :
    p < p' := by
  induction tr generalizing k k' p p' with
  | nil => cases h
  | cons e l ih =>
    simp only [Trace.pos] at h h'
    split at h
    · next ht =>
      rw [if_pos ht] at h'
      cases k' with
      | zero => omega
      | succ k' =>
        obtain ⟨q', hq', rfl⟩ := Option.map_eq_some_iff.1 h'
        cases k with
        | zero => cases h; omega
        | succ k =>
          obtain ⟨q, hq, rfl⟩ := Option.map_eq_some_iff.1 h
          have := ih hq hq' (by omega)
          omega
    · next ht =>
      rw [if_neg ht] at h'
      obtain ⟨q, hq, rfl⟩ := Option.map_eq_some_iff.1 h
      obtain ⟨q', hq', rfl⟩ := Option.map_eq_some_iff.1 h'
      have := ih hq hq' hk
      omega

theorem Trace.pos_inj {tr : Trace ι} {i j : ι × Nat} {p : Nat} (h : tr.pos i.1 i.2 = some p) (h' : tr.pos j.1 j.2 = some p) : i = j := by
  obtain ⟨e, he, ht⟩ := Trace.pos_thread h
  obtain ⟨f, hf, ht'⟩ := Trace.pos_thread h'
  rw [he] at hf
  cases hf
  obtain ⟨t, k⟩ := i
  obtain ⟨t', k'⟩ := j
  simp only at h h' ht ht'
  have hh : t = t' := ht.symm.trans ht'
  subst hh
  rcases Nat.lt_trichotomy k k' with hk | hk | hk
  · exact absurd (Trace.pos_lt h h' hk) (Nat.lt_irrefl _)
  · rw [hk]
  · exact absurd (Trace.pos_lt h' h hk) (Nat.lt_irrefl _)

theorem Trace.pos_name {tr : Trace ι} {i : ι × Nat} {p : Nat} (h : tr.name p = some i) : tr.pos i.1 i.2 = some p := by
  induction tr generalizing i p with
  | nil => simp [Trace.name] at h
  | cons e l ih =>
    cases p with
    | zero =>
      simp only [Trace.name, List.getElem?_cons_zero, Option.map_some, Option.some.injEq, List.take_zero, List.countP_nil] at h
      subst h
      simp [Trace.pos]
    | succ p =>
      simp only [Trace.name, List.getElem?_cons_succ, Option.map_eq_some_iff] at h
      obtain ⟨f, hf, rfl⟩ := h
      have hn : Trace.name l p = some (f.thread, (l.take p).countP (·.thread = f.thread)) := by simp [Trace.name, hf]
      have := ih hn
      simp only at this
      simp only [Trace.pos, List.take_succ_cons, List.countP_cons]
      by_cases ht : e.thread = f.thread
      · simp [ht, this]
      · simp [ht, this]

theorem Trace.name_isSome {tr : Trace ι} {p : Nat} {e : Ev ι} (h : tr[p]? = some e) : ∃ i, tr.name p = some i := by
  simp [Trace.name, h]

/-! ### The execution -/

/-- Is it a write of these bytes? -/
def Ev.writesTo (e : Ev ι) (a : Addr) (n : Nat) : Bool := !e.isFence && e.addr == a && e.n == n && e.new.isSome

/-- The last write of these bytes before a position. -/
def Trace.lastWrite (tr : Trace ι) (a : Addr) (n : Nat) : Nat → Option Nat
  | 0 => none
  | p + 1 => if (tr[p]?.map (·.writesTo a n)).getD false then some p else Trace.lastWrite tr a n p

omit [DecidableEq ι] in
theorem Trace.lastWrite_none {tr : Trace ι} {a : Addr} {n p : Nat} (h : tr.lastWrite a n p = none) {q : Nat} (hq : q < p) {e : Ev ι}
    (he : tr[q]? = some e) : e.writesTo a n = false := by
  induction p with
  | zero => omega
  | succ p ih =>
    simp only [Trace.lastWrite] at h
    split at h
    · cases h
    · next hp =>
      by_cases hqp : q = p
      · subst hqp
        simpa [he] using hp
      · exact ih h (by omega)

omit [DecidableEq ι] in
theorem Trace.lastWrite_some {tr : Trace ι} {a : Addr} {n p w : Nat} (h : tr.lastWrite a n p = some w) :
    w < p ∧ (∃ e, tr[w]? = some e ∧ e.writesTo a n = true) ∧
      ∀ q, w < q → q < p → ∀ e, tr[q]? = some e → e.writesTo a n = false := by
  induction p with
  | zero => cases h
  | succ p ih =>
    simp only [Trace.lastWrite] at h
    split at h
    · next hp =>
      cases h
      refine ⟨by omega, ?_, fun q h1 h2 => by omega⟩
      cases he : tr[w]? with
      | none => simp [he] at hp
      | some e => exact ⟨e, rfl, by simpa [he] using hp⟩
    · next hp =>
      obtain ⟨h1, h2, h3⟩ := ih h
      refine ⟨by omega, h2, fun q hq1 hq2 e he => ?_⟩
      by_cases hqp : q = p
      · subst hqp
        simpa [he] using hp
      · exact h3 q hq1 (by omega) e he

/-- The execution of an interleaving: every read reads the last write before it, and writes are in the order of the interleaving. -/
def Trace.exec (tr : Trace ι) : Exec ι where
  ev t := tr.filter (·.thread = t)
  src i := (tr.pos i.1 i.2).bind fun p => tr[p]?.bind fun e => (tr.lastWrite e.addr e.n p).bind tr.name
  mo i j := ∃ p q, tr.pos i.1 i.2 = some p ∧ tr.pos j.1 j.2 = some q ∧ p < q

variable {tr : Trace ι}

theorem Trace.exec_at {i : ι × Nat} {e : Ev ι} (h : tr.exec.at? i = some e) : ∃ p, tr.pos i.1 i.2 = some p ∧ tr[p]? = some e := by
  have h' : (tr.filter (·.thread = i.1))[i.2]? = some e := h
  rw [Trace.filter_pos] at h'
  exact Option.bind_eq_some_iff.1 h'

theorem Trace.exec_at' {i : ι × Nat} {p : Nat} {e : Ev ι} (h : tr.pos i.1 i.2 = some p) (he : tr[p]? = some e) :
    tr.exec.at? i = some e := by
  show (tr.filter (·.thread = i.1))[i.2]? = some e
  rw [Trace.filter_pos, h]
  exact he

/-- In the order of the interleaving. -/
abbrev Trace.before (tr : Trace ι) (i j : ι × Nat) : Prop := tr.exec.mo i j

theorem Trace.before_irrefl {i : ι × Nat} (h : tr.before i i) : False := by
  obtain ⟨p, q, hp, hq, hlt⟩ := h
  rw [hp] at hq
  cases hq
  omega

theorem Trace.before_trans {i j k : ι × Nat} (h : tr.before i j) (h' : tr.before j k) : tr.before i k := by
  obtain ⟨p, q, hp, hq, hlt⟩ := h
  obtain ⟨q', r, hq', hr, hlt'⟩ := h'
  rw [hq] at hq'
  cases hq'
  exact ⟨p, r, hp, hr, by omega⟩

theorem Trace.before_of_po {i j : ι × Nat} (h : tr.exec.po i j) : tr.before i j := by
  obtain ⟨h1, h2, e, he, -⟩ := h
  obtain ⟨q, hq, -⟩ := Trace.exec_at he
  have hlen : j.2 < (tr.exec.ev j.1).length := (List.getElem?_eq_some_iff.1 (show (tr.exec.ev j.1)[j.2]? = some e from he)).1
  have hi : tr.exec.at? i = some ((tr.exec.ev i.1)[i.2]'(by rw [h1]; omega)) := List.getElem?_eq_getElem _
  obtain ⟨p, hp, -⟩ := Trace.exec_at hi
  refine ⟨p, q, hp, hq, ?_⟩
  rw [h1] at hp
  exact Trace.pos_lt hp hq h2

/-- What the source of an access is. -/
theorem Trace.exec_src {i w : ι × Nat} (h : tr.exec.src i = some w) :
    ∃ p q e f, tr.pos i.1 i.2 = some p ∧ tr[p]? = some e ∧ tr.pos w.1 w.2 = some q ∧ tr[q]? = some f ∧
      tr.lastWrite e.addr e.n p = some q ∧ q < p ∧ f.writesTo e.addr e.n = true ∧
      ∀ k, q < k → k < p → ∀ g, tr[k]? = some g → g.writesTo e.addr e.n = false := by
  simp only [Trace.exec, Option.bind_eq_some_iff] at h
  obtain ⟨p, hp, e, he, q, hq, hn⟩ := h
  obtain ⟨h1, ⟨f, hf, hw⟩, h3⟩ := Trace.lastWrite_some hq
  exact ⟨p, q, e, f, hp, he, Trace.pos_name hn, hf, hq, h1, hw, h3⟩

theorem Trace.exec_src_none {i : ι × Nat} (h : tr.exec.src i = none) {p : Nat} {e : Ev ι} (hp : tr.pos i.1 i.2 = some p)
    (he : tr[p]? = some e) : tr.lastWrite e.addr e.n p = none := by
  cases hl : tr.lastWrite e.addr e.n p with
  | none => rfl
  | some q =>
    obtain ⟨-, ⟨f, hf, -⟩, -⟩ := Trace.lastWrite_some hl
    obtain ⟨w, hw⟩ := Trace.name_isSome hf
    simp [Trace.exec, hp, he, hl, hw] at h

theorem Trace.before_of_src {i w : ι × Nat} (h : tr.exec.src i = some w) : tr.before w i := by
  obtain ⟨p, q, _, _, hp, _, hq, _, _, hlt, _⟩ := Trace.exec_src h
  exact ⟨q, p, hq, hp, hlt⟩

theorem Trace.before_of_rs {x y : ι × Nat} (h : tr.exec.rs x y) : x = y ∨ tr.before x y := by
  induction h with
  | head => exact .inl rfl
  | rmw _ h _ _ ih =>
    refine .inr ?_
    have := Trace.before_of_src h.2
    rcases ih with rfl | ih
    · exact this
    · exact Trace.before_trans ih this

theorem Trace.before_of_sw {i j : ι × Nat} (h : tr.exec.sw i j) : tr.before i j := by
  obtain ⟨x, z, y, hrs, hrf, -, -, hi, hj⟩ := h
  have h1 : tr.before x y := by
    have := Trace.before_of_src hrf.2
    rcases Trace.before_of_rs hrs with rfl | h
    · exact this
    · exact Trace.before_trans h this
  have h2 : tr.before i y := by
    rcases hi with ⟨rfl, -⟩ | ⟨-, h⟩
    · exact h1
    · exact Trace.before_trans (Trace.before_of_po h) h1
  rcases hj with ⟨rfl, -⟩ | ⟨-, h⟩
  · exact h2
  · exact Trace.before_trans h2 (Trace.before_of_po h)

theorem Trace.before_of_hb {i j : ι × Nat} (h : tr.exec.hb i j) : tr.before i j := by
  induction h with
  | po h => exact Trace.before_of_po h
  | sw h => exact Trace.before_of_sw h
  | trans _ _ h1 h2 => exact Trace.before_trans h1 h2

/-- A write of the bytes of an access, in terms of the interleaving. -/
theorem Trace.writesTo_of {i j : ι × Nat} (hi : tr.exec.isWrite i) (hs : tr.exec.same i j) {q : Nat} {e : Ev ι}
    (hq : tr.pos j.1 j.2 = some q) (he : tr[q]? = some e) :
    ∃ p f, tr.pos i.1 i.2 = some p ∧ tr[p]? = some f ∧ f.writesTo e.addr e.n = true := by
  obtain ⟨f, hf, h1, h2⟩ := hi
  obtain ⟨f', e', hf', he', -, -, ha, hn⟩ := hs
  rw [hf] at hf'
  cases hf'
  rw [Trace.exec_at' hq he] at he'
  cases he'
  obtain ⟨p, hp, hpf⟩ := Trace.exec_at hf
  exact ⟨p, f, hp, hpf, by simp [Ev.writesTo, h1, h2, ha, hn]⟩

theorem Trace.before_of_fr {i j : ι × Nat} (h : tr.exec.fr i j) : tr.before i j := by
  obtain ⟨⟨e, he, -⟩, hw, hs, hne, hmo⟩ := h
  obtain ⟨p, hp, hpe⟩ := Trace.exec_at he
  have hs' : tr.exec.same j i := by
    obtain ⟨e, f, h1, h2, h3, h4, h5, h6⟩ := hs
    exact ⟨f, e, h2, h1, h4, h3, h5.symm, h6.symm⟩
  obtain ⟨q, f, hq, hqf, hwt⟩ := Trace.writesTo_of hw hs' hp hpe
  refine ⟨p, q, hp, hq, ?_⟩
  rcases Nat.lt_trichotomy p q with h | h | h
  · exact h
  · subst h
    exact absurd (Trace.pos_inj hp hq) hne
  · cases hsrc : tr.exec.src i with
    | none =>
      have := Trace.lastWrite_none (Trace.exec_src_none hsrc hp hpe) h hqf
      rw [hwt] at this
      cases this
    | some w =>
      obtain ⟨p', r, e', g, hp', he', hr, -, -, hlt, -, hlast⟩ := Trace.exec_src hsrc
      rw [hp] at hp'
      cases hp'
      rw [hpe] at he'
      cases he'
      obtain ⟨r', q', hr', hq', hlt'⟩ := hmo w hsrc
      rw [hr] at hr'
      rw [hq] at hq'
      cases hr'
      cases hq'
      have := hlast q hlt' h f hqf
      rw [hwt] at this
      cases this

theorem Trace.before_of_eco {i j : ι × Nat} (h : tr.exec.eco i j) : tr.before i j := by
  induction h with
  | rf h => exact Trace.before_of_src h.2
  | mo _ _ _ h => exact h
  | fr h => exact Trace.before_of_fr h
  | trans _ _ h1 h2 => exact Trace.before_trans h1 h2

/-- The simplification of `Exec.Uniform`, and that accesses are of at least one byte. -/
structure Trace.Uniform (tr : Trace ι) : Prop where
  same : ∀ e ∈ tr, ∀ f ∈ tr, e.isFence = false → f.isFence = false → e.addr = f.addr ∧ e.n = f.n ∨ ∀ b, ¬ (e.hits b ∧ f.hits b)
  size : ∀ e ∈ tr, e.isFence = false → 0 < e.n ∧ e.n ≤ 2 ^ 64

omit [DecidableEq ι] in
/-- What was written last is what memory holds. -/
theorem Trace.read_last (hu : tr.Uniform) (hfence : ∀ e ∈ tr, e.isFence = true → e.n = 0) (mem : VMem) {p : Nat} {e : Ev ι}
    (he : tr[p]? = some e) (hef : e.isFence = false) :
    (memAfter mem (tr.take p)).read e.addr e.n =
      match tr.lastWrite e.addr e.n p with
      | none => mem.read e.addr e.n
      | some q => (match tr[q]? with
        | some f => match f.new with
          | some v => (VMem.write mem f.addr f.n v).read e.addr e.n
          | none => none
        | none => none) := by
  have hmem : e ∈ tr := List.mem_of_getElem? he
  have hplen : p ≤ tr.length := Nat.le_of_lt (List.getElem?_eq_some_iff.1 he).1
  have hbyte : ∀ (k : Nat) (g : Ev ι) b, tr[k]? = some g → e.hits b → g.wrote b → g.writesTo e.addr e.n = true := by
    intro k g b hg hb hw
    have hgm : g ∈ tr := List.mem_of_getElem? hg
    have hgf : g.isFence = false := by
      cases hgf : g.isFence with
      | false => rfl
      | true =>
        have := hfence g hgm hgf
        have h2 := hw.1
        simp only [Ev.hits, this] at h2
        omega
    rcases hu.same g hgm e hmem hgf hef with ⟨h1, h2⟩ | h
    · have h3 := hw.2
      simp [Ev.writesTo, hgf, h1, h2, h3]
    · exact absurd ⟨hw.1, hb⟩ (h b)
  have hoff : ∀ i, i < e.n → e.hits (e.addr + BitVec.ofNat 64 i) := by
    intro i hi
    have := (hu.size e hmem hef).2
    simp only [Ev.hits, offset_toNat e.addr i (by omega)]
    exact hi
  cases hl : tr.lastWrite e.addr e.n p with
  | none =>
    refine VMem.read_congr _ _ _ _ fun i hi => ?_
    refine memAfter_last mem tr _ p hplen (w := none) ?_
    rintro k hk ⟨g, hg, hw⟩
    have h1 := hbyte k g _ hg (hoff i hi) hw
    rw [Trace.lastWrite_none hl hk hg] at h1
    cases h1
  | some q =>
    obtain ⟨hqp, ⟨f, hf, hfw⟩, hlast⟩ := Trace.lastWrite_some hl
    simp only [Ev.writesTo, Bool.and_eq_true, Bool.not_eq_true', beq_iff_eq] at hfw
    obtain ⟨⟨⟨hff, hfa⟩, hfn⟩, hfs⟩ := hfw
    obtain ⟨v, hv⟩ := Option.isSome_iff_exists.1 hfs
    simp only [hf, hv]
    refine VMem.read_congr _ _ _ _ fun i hi => ?_
    have hh : f.hits (e.addr + BitVec.ofNat 64 i) := by
      have := hoff i hi
      simp only [Ev.hits] at this ⊢
      rw [hfa, hfn]
      exact this
    rw [memAfter_last mem tr _ p hplen (w := some q) ⟨hqp, ⟨f, hf, hh, hfs⟩, fun k h1 h2 ⟨g, hg, hw⟩ => ?_⟩]
    · simp only [byteOf, hf, Ev.byte, hv]
      simp only [Ev.hits] at hh
      simp only [VMem.write, if_pos hh]
    · have h3 := hbyte k g _ hg (hoff i hi) hw
      rw [hlast k h1 h2 g hg] at h3
      cases h3

/-- Fences have no bytes. -/
theorem trace_fence (prog : ι → σ → Code σ) (ts : List ι) (y y' : System ι σ) (tr : Trace ι)
    (h : System.trace prog ts y = some (tr, y')) : ∀ e ∈ tr, e.isFence = true → e.n = 0 := by
  induction ts generalizing y tr with
  | nil => cases h; simp
  | cons t ts ih =>
    simp only [System.trace, Option.bind_eq_some_iff, Option.map_eq_some_iff] at h
    obtain ⟨y1, -, ⟨tr1, y2⟩, ht, he⟩ := h
    cases he
    intro e he hf
    rcases List.mem_append.1 he with he | he
    · unfold System.event at he
      split at he
      · simp only [List.mem_singleton] at he
        subst he
        cases hf
      · simp only [List.mem_singleton] at he
        subst he
        rfl
      · cases he
    · exact ih y1 tr1 ht e he hf

/-- What the threads of an interleaving do is what their code does with some answers of memory. -/
theorem trace_emits (prog : ι → σ → Code σ) (ts : List ι) (y y' : System ι σ) (tr : Trace ι)
    (h : System.trace prog ts y = some (tr, y')) (u : ι) :
    Emits (prog u) u (y.threads u) (tr.filter (·.thread = u)) (y'.threads u) := by
  induction ts generalizing y tr with
  | nil => cases h; exact .nil
  | cons t ts ih =>
    simp only [System.trace, Option.bind_eq_some_iff, Option.map_eq_some_iff] at h
    obtain ⟨y1, hs, ⟨tr1, y2⟩, ht, he⟩ := h
    cases he
    have hi := ih y1 tr1 ht
    rw [List.filter_append]
    unfold System.step at hs
    by_cases hut : u = t
    · subst hut
      unfold System.event
      cases hc : y.threads u with
      | done s =>
        simp only [hc, Option.some.injEq] at hs
        subst hs
        simp only [if_true] at hi
        exact .next hi
      | ub => simp only [hc, reduceCtorEq] at hs
      | fence o k =>
        simp only [hc, Option.some.injEq] at hs
        subst hs
        simp only [if_true] at hi
        simp only [List.filter_cons, decide_true, if_true, List.filter_nil, List.singleton_append]
        exact .fence hi
      | acc e k =>
        simp only [hc, Option.map_eq_some_iff] at hs
        obtain ⟨⟨v, mem⟩, hp, rfl⟩ := hs
        simp only [if_true] at hi
        simp only [List.filter_cons, decide_true, if_true, List.filter_nil, List.singleton_append]
        unfold Acc.perform at hp
        split at hp
        · next hal =>
          cases hp
          exact .acc _ hal hi
        · cases hp
    · have h1 : y1.threads u = y.threads u := by
        cases hc : y.threads t with
        | done s => simp only [hc, Option.some.injEq] at hs; subst hs; simp [hut]
        | ub => simp only [hc, reduceCtorEq] at hs
        | fence o k => simp only [hc, Option.some.injEq] at hs; subst hs; simp [hut]
        | acc e k =>
          simp only [hc, Option.map_eq_some_iff] at hs
          obtain ⟨⟨v, mem⟩, hp, rfl⟩ := hs
          simp [hut]
      have h2 : (y.event t).filter (·.thread = u) = [] := by
        have hne : ¬ t = u := fun h => hut h.symm
        unfold System.event
        split <;> simp [hne]
      rw [h2, ← h1]
      exact hi

/-- C63: the execution of an interleaving satisfies all rules of LLVM. -/
theorem C63_interleaving (prog : ι → σ → Code σ) (schedule : List ι) (y y' : System ι σ) (tr : Trace ι)
    (h : System.trace prog schedule y = some (tr, y')) (hu : tr.Uniform) :
    ∃ X : Exec ι, X.Consistent y.mem ∧ X.NotThinAir ∧ (∀ t, X.ev t = tr.filter (·.thread = t)) ∧
      ∀ t, Emits (prog t) t (y.threads t) (X.ev t) (y'.threads t) := by
  refine ⟨tr.exec, ?_, ?_, fun _ => rfl, trace_emits prog schedule y y' tr h⟩
  · refine ⟨?_, ?_, ?_, ?_, ?_, ?_, ?_, ?_, ?_⟩
    · intro i j e f he hf hef hff
      obtain ⟨p, hp, hpe⟩ := Trace.exec_at he
      obtain ⟨q, hq, hqf⟩ := Trace.exec_at hf
      rcases hu.same e (List.mem_of_getElem? hpe) f (List.mem_of_getElem? hqf) hef hff with ⟨h1, h2⟩ | h
      · exact .inl ⟨e, f, he, hf, hef, hff, h1, h2⟩
      · exact .inr h
    · intro i e he
      have := List.mem_of_getElem? (show (tr.filter (·.thread = i.1))[i.2]? = some e from he)
      simpa using (List.mem_filter.1 this).2
    · intro r hr
      obtain ⟨e, he, hef, her⟩ := hr
      obtain ⟨p, hp, hpe⟩ := Trace.exec_at he
      cases hsrc : tr.exec.src r with
      | none =>
        intro w hw hs hb
        obtain ⟨q, f, hq, hqf, hwt⟩ := Trace.writesTo_of hw hs hp hpe
        obtain ⟨q', p', hq', hp', hlt⟩ := Trace.before_of_hb hb
        rw [hq] at hq'
        rw [hp] at hp'
        cases hq'
        cases hp'
        rw [Trace.lastWrite_none (Trace.exec_src_none hsrc hp hpe) hlt hqf] at hwt
        cases hwt
      | some v =>
        obtain ⟨p', q, e', f, hp', hpe', hq, hqf, -, hlt, hwt, hlast⟩ := Trace.exec_src hsrc
        rw [hp] at hp'
        cases hp'
        rw [hpe] at hpe'
        cases hpe'
        have hb := Trace.before_of_src hsrc
        have hfat := Trace.exec_at' hq hqf
        have hwt' := hwt
        simp only [Ev.writesTo, Bool.and_eq_true, Bool.not_eq_true', beq_iff_eq] at hwt'
        obtain ⟨⟨⟨hff, hfa⟩, hfn⟩, hfs⟩ := hwt'
        refine ⟨⟨f, hfat, hff, hfs⟩, ⟨f, e, hfat, he, hff, hef, hfa, hfn⟩, ?_, ?_, ?_⟩
        · rintro rfl
          exact Trace.before_irrefl hb
        · intro h
          exact Trace.before_irrefl (Trace.before_trans hb (Trace.before_of_hb h))
        · intro w hw hs h1 h2
          obtain ⟨k, g, hk, hkg, hgw⟩ := Trace.writesTo_of hw hs hp hpe
          obtain ⟨a, b, ha, hb, hab⟩ := Trace.before_of_hb h1
          obtain ⟨c, d, hc, hd, hcd⟩ := Trace.before_of_hb h2
          rw [hq] at ha
          rw [hk] at hb hc
          rw [hp] at hd
          cases ha
          cases hb
          cases hc
          cases hd
          rw [hlast k hab hcd g hkg] at hgw
          cases hgw
    · intro r e he hr _
      obtain ⟨e', he', hef, -⟩ := hr
      rw [he] at he'
      cases he'
      obtain ⟨p, hp, hpe⟩ := Trace.exec_at he
      have hold := trace_old prog schedule y y' tr h p e hpe hef
      have hlast := Trace.read_last hu (trace_fence prog schedule y y' tr h) y.mem hpe hef
      rw [← hold] at hlast
      cases hsrc : tr.exec.src r with
      | none =>
        rw [Trace.exec_src_none hsrc hp hpe] at hlast
        simp only [Exec.value]
        rw [hlast]
      | some v =>
        obtain ⟨p', q, e', f, hp', hpe', hq, hqf, hl, hlt, hwt, -⟩ := Trace.exec_src hsrc
        rw [hp] at hp'
        cases hp'
        rw [hpe] at hpe'
        cases hpe'
        simp only [Ev.writesTo, Bool.and_eq_true, Bool.not_eq_true', beq_iff_eq] at hwt
        obtain ⟨⟨⟨hff, hfa⟩, hfn⟩, hfs⟩ := hwt
        obtain ⟨x, hx⟩ := Option.isSome_iff_exists.1 hfs
        have hsz := hu.size f (List.mem_of_getElem? hqf) hff
        simp only [hl, hqf, hx] at hlast
        simp only [Exec.value, Trace.exec_at' hq hqf, Option.bind_some]
        obtain ⟨et, eF, eo, ea, en, eold, enew, er⟩ := e
        obtain ⟨ft, fF, fo, fa, fn, fold, fnew, fr⟩ := f
        simp only at hfn hfa hx hlast hsz ⊢
        subst hfn
        subst hfa
        rw [VMem.read_write _ _ _ _ hsz.1 hsz.2] at hlast
        simp only [dite_true, hx, Option.map_some, hlast]
    · intro i j hi hj _ _ _
      obtain ⟨e, he, -⟩ := hi
      obtain ⟨f, hf, -⟩ := hj
      obtain ⟨p, hp, hpe⟩ := Trace.exec_at he
      obtain ⟨q, hq, hqf⟩ := Trace.exec_at hf
      rcases Nat.lt_trichotomy p q with h | h | h
      · exact .inr (.inl ⟨p, q, hp, hq, h⟩)
      · subst h
        exact .inl (Trace.pos_inj hp hq)
      · exact .inr (.inr ⟨q, p, hq, hp, h⟩)
    · intro i j _ _ hb he
      exact Trace.before_irrefl (Trace.before_trans (Trace.before_of_hb hb) (Trace.before_of_eco he))
    · intro i
      exact ⟨fun h => Trace.before_irrefl (Trace.before_of_hb h), fun _ h => Trace.before_irrefl (Trace.before_of_eco h)⟩
    · intro i hr _ _
      refine ⟨fun w hw => Trace.before_of_src hw, fun j hj hs hmo _ => ?_⟩
      obtain ⟨e, he, -⟩ := hr
      obtain ⟨p, hp, hpe⟩ := Trace.exec_at he
      obtain ⟨q, f, hq, hqf, hwt⟩ := Trace.writesTo_of hj hs hp hpe
      obtain ⟨q', p', hq', hp', hlt⟩ := hmo
      rw [hq] at hq'
      rw [hp] at hp'
      cases hq'
      cases hp'
      cases hsrc : tr.exec.src i with
      | none =>
        rw [Trace.lastWrite_none (Trace.exec_src_none hsrc hp hpe) hlt hqf] at hwt
        cases hwt
      | some w =>
        obtain ⟨p', k, e', g, hp', hpe', hk, hkg, -, -, -, hlast⟩ := Trace.exec_src hsrc
        rw [hp] at hp'
        cases hp'
        rw [hpe] at hpe'
        cases hpe'
        refine ⟨w, rfl, ?_⟩
        rcases Nat.lt_trichotomy q k with h | h | h
        · exact .inr ⟨q, k, hq, hk, h⟩
        · subst h
          exact .inl (Trace.pos_inj hk hq)
        · rw [hlast q h hlt f hqf] at hwt
          cases hwt
    · refine ⟨fun i => (tr.pos i.1 i.2).getD 0, fun i j _ _ h => ?_⟩
      have : tr.before i j := by
        rcases h with h | h
        · exact Trace.before_of_hb h
        · exact Trace.before_of_eco h
      obtain ⟨p, q, hp, hq, hlt⟩ := this
      simp [hp, hq, hlt]
  · refine ⟨fun i => (tr.pos i.1 i.2).getD 0, fun i j h => ?_⟩
    have : tr.before i j := by
      rcases h with h | h
      · exact Trace.before_of_po h
      · exact Trace.before_of_src h.2
    obtain ⟨p, q, hp, hq, hlt⟩ := this
    simp [hp, hq, hlt]

/-! ### Executions that can be computed -/

/-- Two intervals of addresses do not overlap. -/
theorem apart_hits {a c b : Addr} {n k : Nat} (h1 : n ≤ (c - a).toNat) (h2 : k ≤ (a - c).toNat) :
    ¬ ((b - a).toNat < n ∧ (b - c).toNat < k) := by
  rintro ⟨h3, h4⟩
  have h5 : c - a = (b - a) - (b - c) := by grind
  have h6 : a - c = (b - c) - (b - a) := by grind
  rcases Nat.le_total (b - c).toNat (b - a).toNat with h | h
  · rw [h5, BitVec.toNat_sub_of_le (by simpa [BitVec.le_def] using h)] at h1
    omega
  · rw [h6, BitVec.toNat_sub_of_le (by simpa [BitVec.le_def] using h)] at h2
    omega

/-- `Trace.Uniform` from the addresses and sizes. -/
def uniformShape (l : List (Shape ι)) : Bool :=
  l.all (fun s => s.isFence || decide (0 < s.n ∧ s.n ≤ 2 ^ 64)) &&
  l.all fun s => l.all fun u => s.isFence || u.isFence || decide (s.addr = u.addr ∧ s.n = u.n) ||
    decide (s.n ≤ (u.addr - s.addr).toNat ∧ u.n ≤ (s.addr - u.addr).toNat)

omit [DecidableEq ι] in
theorem uniform_of_shape {tr : Trace ι} (h : uniformShape (tr.map Ev.shape) = true) : tr.Uniform := by
  simp only [uniformShape, Bool.and_eq_true, List.all_eq_true] at h
  obtain ⟨h1, h2⟩ := h
  refine ⟨fun e he f hf hef hff => ?_, fun e he hef => ?_⟩
  · have := h2 e.shape (List.mem_map_of_mem he) f.shape (List.mem_map_of_mem hf)
    simp only [Ev.shape, hef, hff, Bool.false_or, Bool.or_eq_true, decide_eq_true_eq] at this
    rcases this with h | ⟨h, h'⟩
    · exact .inl h
    · exact .inr fun b hb => apart_hits h h' hb
  · have := h1 e.shape (List.mem_map_of_mem he)
    simpa only [Ev.shape, hef, Bool.false_or, decide_eq_true_eq] using this

end Verif.Conc
