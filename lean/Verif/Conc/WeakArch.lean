import Verif.Conc.WeakDrf
import Verif.Conc.RV64Counter
import Verif.Conc.A64
import Verif.Conc.X86Counter

/-!
The theorem on executions without data races (`C63_race_free_interleaving`) for lifted code.
-/

set_option linter.constructorNameAsVariable false

namespace Verif.Conc

open Verif.IR

variable {σ ι : Type}

/-- All accesses have a property, and stores do not use the value that is in memory before. -/
def Code.Fine (P : Acc → Prop) : Code σ → Prop
  | .done _ => True
  | .ub => True
  | .acc e k => P e ∧ (e.reads = false → ∀ v v', k v = k v' ∧ e.upd.map (· v) = e.upd.map (· v')) ∧ ∀ v, (k v).Fine P
  | .fence _ k => k.Fine P

theorem Code.Fine.stores {P : Acc → Prop} {c : Code σ} (h : c.Fine P) : c.Stores := by
  induction c with
  | done => trivial
  | ub => trivial
  | acc e k ih => exact ⟨h.2.1, fun v => ih v (h.2.2 v)⟩
  | fence o k ih => exact ih h

/-- The accesses in a thread's list have the property. -/
theorem emits_fine {P : Acc → Prop} {prog : σ → Code σ} (hprog : ∀ s, (prog s).Fine P) {t : ι} {c c' : Code σ} {l : List (Ev ι)}
    (h : Emits prog t c l c') (hc : c.Fine P) : ∀ e ∈ l, e.isFence = false → ∃ a, P a ∧ e.ord = a.ord ∧ e.n = a.n := by
  induction h with
  | nil => intro e he; cases he
  | next _ ih => exact ih (hprog _)
  | acc v _ _ ih =>
    intro e he hf
    rcases List.mem_cons.1 he with rfl | he
    · exact ⟨_, hc.1, rfl, rfl⟩
    · exact ih (hc.2.2 _) e he hf
  | fence _ ih =>
    intro e he hf
    rcases List.mem_cons.1 he with rfl | he
    · cases hf
    · exact ih hc e he hf

/-- All accesses have a property and the states between instructions too, and there are no fences. -/
def Code.Keeps (I : σ → Prop) (P : Acc → Prop) : Code σ → Prop
  | .done s => I s
  | .ub => True
  | .acc e k => P e ∧ ∀ v, (k v).Keeps I P
  | .fence _ _ => False

theorem emits_keeps {I : σ → Prop} {P : Acc → Prop} {prog : σ → Code σ} (hprog : ∀ s, I s → (prog s).Keeps I P) {t : ι} {c c' : Code σ}
    {l : List (Ev ι)} (h : Emits prog t c l c') (hc : c.Keeps I P) : ∀ e ∈ l, ∃ a v, P a ∧ e = a.event t v := by
  induction h with
  | nil => intro e he; cases he
  | next _ ih => exact ih (hprog _ hc)
  | acc v _ _ ih =>
    intro e he
    rcases List.mem_cons.1 he with rfl | he
    · exact ⟨_, _, hc.1, rfl⟩
    · exact ih (hc.2 _) e he
  | fence _ _ => exact hc.elim

/-- Sizes of accesses. -/
abbrev Sized (a : Acc) : Prop := 0 < a.n ∧ a.n ≤ 2 ^ 64

/-- Accesses that are not atomic or sequentially consistent. -/
abbrev PlainOrSc (a : Acc) : Prop := (a.ord = .notAtomic ∨ a.ord = .seqCst) ∧ Sized a

/-- If all accesses are sequentially consistent, there is no race and no `undef`. -/
theorem all_seqCst {X : Exec ι} (h : ∀ i e, X.at? i = some e → e.isFence = false → e.ord = .seqCst) :
    X.RaceFree ∧ X.SeqCst ∧ X.Defined := by
  have hat : ∀ i e, X.at? i = some e → e.isFence = false → X.has i Ev.atomic := by
    intro i e he hf
    refine ⟨e, he, hf, ?_⟩
    rw [h i e he hf]
    decide
  refine ⟨?_, ?_, ?_⟩
  · rintro i j ⟨e, f, he, hf, hef, hff, -⟩ - - hna
    rcases hna with hna | hna
    · exact absurd (hat i e he hef) hna
    · exact absurd (hat j f hf hff) hna
  · rintro i ⟨e, he, hf, -⟩
    exact ⟨e, he, h i e he hf⟩
  · intro r e he hr
    left
    have hf : e.isFence = false := by
      obtain ⟨e', he', hr⟩ := hr
      rw [he] at he'
      cases he'
      exact hr.1
    refine ⟨?_, ?_⟩
    · obtain ⟨e', he', ha⟩ := hat r e he hf
      rw [he] at he'
      cases he'
      exact ha
    · intro w hw
      obtain ⟨e', f, h1, h2, h3, h4, -⟩ := hw.2.1
      exact hat w e' h1 h3

/-- An execution of two threads, with one sequentially consistent write of the same bytes each, from an interleaving; the example for the
theorems below. -/
theorem two_writes (prog : Fin 2 → σ → Code σ) (schedule : List (Fin 2)) (y y' : System (Fin 2) σ) (tr : Trace (Fin 2)) (a : Addr)
    (hp : System.trace prog schedule y = some (tr, y')) (hu : uniformShape (tr.map Ev.shape) = true)
    (hsc : tr.all (fun e => !e.isFence && e.ord == .seqCst && e.addr == a && e.n == 8 && e.new.isSome) = true)
    (hth : tr.map (·.thread) = [1, 0]) :
    ∃ X : Exec (Fin 2), X.Consistent y.mem ∧ X.RaceFree ∧ X.SeqCst ∧ X.Defined ∧
      (∀ t, Emits (prog t) t (y.threads t) (X.ev t) (y'.threads t)) ∧ ∃ w e, X.last w ∧ X.at? w = some e ∧ e.addr = a ∧ e.n = 8 := by
  obtain ⟨X, hX, -, hev, hem⟩ := C63_interleaving _ _ _ _ _ hp (uniform_of_shape hu)
  have key : ∀ i e, X.at? i = some e → e.isFence = false ∧ e.ord = .seqCst ∧ e.addr = a ∧ e.n = 8 ∧ e.new.isSome = true := by
    intro i e he
    have hm : e ∈ X.ev i.1 := List.mem_of_getElem? (show (X.ev i.1)[i.2]? = some e from he)
    rw [hev] at hm
    have := List.all_eq_true.1 hsc e (List.mem_filter.1 hm).1
    simp only [Bool.and_eq_true, Bool.not_eq_true', beq_iff_eq] at this
    exact ⟨this.1.1.1.1, this.1.1.1.2, this.1.1.2, this.1.2, this.2⟩
  have hlen : ∀ t, (X.ev t).length = 1 := by
    intro t
    have : (X.ev t).length = ((tr.map (·.thread)).filter (· = t)).length := by
      rw [hev, List.filter_map, List.length_map]
      rfl
    rw [this, hth]
    clear this
    revert t
    decide
  obtain ⟨h1, h0, h2⟩ := all_seqCst (X := X) fun i e he _ => (key i e he).2.1
  refine ⟨X, hX, h1, h0, h2, hem, ?_⟩
  · have hat : ∀ t, ∃ e, X.at? (t, 0) = some e := fun t =>
      ⟨(X.ev t)[0]'(by rw [hlen]; decide), List.getElem?_eq_getElem (by rw [hlen]; exact Nat.one_pos)⟩
    have hz : ∀ i e, X.at? i = some e → i.2 = 0 := by
      intro i e he
      have := (List.getElem?_eq_some_iff.1 (show (X.ev i.1)[i.2]? = some e from he)).1
      rw [hlen] at this
      omega
    have hwr : ∀ t, X.isWrite (t, 0) := fun t => by
      obtain ⟨e, he⟩ := hat t
      exact ⟨e, he, (key _ e he).1, (key _ e he).2.2.2.2⟩
    have hato : ∀ t, X.has (t, 0) Ev.atomic := fun t => by
      obtain ⟨e, he⟩ := hat t
      refine ⟨e, he, (key _ e he).1, ?_⟩
      rw [(key _ e he).2.1]
      decide
    have hsame : ∀ t u, X.same (t, 0) (u, 0) := fun t u => by
      obtain ⟨e, he⟩ := hat t
      obtain ⟨f, hf⟩ := hat u
      have h1 := key _ e he
      have h2 := key _ f hf
      exact ⟨e, f, he, hf, h1.1, h2.1, h1.2.2.1.trans h2.2.2.1.symm, h1.2.2.2.1.trans h2.2.2.2.1.symm⟩
    have hlast : ∀ t u, (∀ v : Fin 2, v = t ∨ v = u) → X.mo (u, 0) (t, 0) → ∃ w e, X.last w ∧ X.at? w = some e ∧ e.addr = a ∧ e.n = 8 := by
      intro t u htu hmo
      obtain ⟨e, he⟩ := hat t
      refine ⟨(t, 0), e, ⟨hwr t, fun i hi _ hne => ?_⟩, he, (key _ e he).2.2.1, (key _ e he).2.2.2.1⟩
      obtain ⟨f, hf, -⟩ := hi
      obtain ⟨v, k⟩ := i
      have := hz _ f hf
      simp only at this
      subst this
      rcases htu v with rfl | rfl
      · exact absurd rfl hne
      · exact .inr ⟨hato v, hato t, hmo⟩
    rcases hX.total (0, 0) (1, 0) (hwr 0) (hwr 1) (hsame 0 1) (hato 0) (hato 1) with h | h | h
    · cases h
    · exact hlast 1 0 (by decide) h
    · exact hlast 0 1 (by decide) h

/-! ### RV64 -/

namespace RV64

open Verif.RV64

theorem fine_load {a : Val 64} {n : Nat} {o : Ord} {k : Val (8 * n) → Code St} (hn : 0 < n ∧ n ≤ 2 ^ 64) (h : ∀ v, (k v).Fine Sized) :
    (loadCode a n o k).Fine Sized := by
  cases a with
  | none => trivial
  | some a => exact ⟨hn, (fun h => by cases h), h⟩

theorem fine_store {a : Val 64} {n : Nat} {o : Ord} {v : Val (8 * n)} {c : Code St} (hn : 0 < n ∧ n ≤ 2 ^ 64) (h : c.Fine Sized) :
    (storeCode a n o v c).Fine Sized := by
  cases a with
  | none => trivial
  | some a => exact ⟨hn, fun _ _ _ => ⟨rfl, rfl⟩, fun _ => h⟩

theorem fine_amo {s : St} {i : Frv} {n : Nat} {op : RmwOp} {fin : St → Code St} (hn : 0 < n ∧ n ≤ 2 ^ 64) (h : ∀ s, (fin s).Fine Sized) :
    (amoCode s i n op fin).Fine Sized := by
  unfold amoCode
  split
  · trivial
  · unfold rmwCode
    split
    · trivial
    · exact ⟨hn, (fun h => by cases h), fun v => h _⟩

theorem fine_code (slide : BitVec 64) (i : Frv) (start : BitVec 64) (len : Nat) (m : St) : (code slide i start len m).Fine Sized := by
  unfold code
  split
  · rename_i c hc
    unfold memCode at hc
    split at hc <;> cases hc <;>
      first
      | exact fine_load (by omega) fun _ => trivial
      | exact fine_store (by omega) trivial
      | exact fine_amo (by omega) fun _ => trivial
  · split <;> trivial

theorem fine_prog (fetch : BitVec 64 → Option (Frv × Nat)) (slide : BitVec 64) (m : St) : (prog fetch slide m).Fine Sized := by
  unfold prog
  split
  · trivial
  · split
    · trivial
    · exact fine_code ..

/-- C63: an execution of lifted RV64 code that LLVM allows, without data races and `undef`, in which all atomic accesses are sequentially
consistent (AMO instructions with `aq` and `rl`), is an interleaving. -/
theorem C63_rv64_race_free [DecidableEq ι] (slide : BitVec 64) (fetch : BitVec 64 → Option (Frv × Nat)) (all : List ι) (hnd : all.Nodup)
    (hall : ∀ t, t ∈ all) (mem : VMem) (X : Exec ι) (hX : X.Consistent mem) (hrf : X.RaceFree) (hsc : X.SeqCst) (hdef : X.Defined)
    (regs : ι → St) (c' : ι → Code St) (hem : ∀ t, Emits (prog fetch slide) t (.done (regs t)) (X.ev t) (c' t)) :
    ∃ schedule y', System.run (fun _ => prog fetch slide) schedule { threads := fun t => .done (regs t), mem } = some y' ∧
      y'.threads = c' ∧ ∀ w e, X.last w → X.at? w = some e → e.new = some (y'.mem.read e.addr e.n) := by
  have hsize : ∀ i e, X.at? i = some e → e.isFence = false → 0 < e.n ∧ e.n ≤ 2 ^ 64 := by
    intro i e he hf
    obtain ⟨a, ha, -, hn⟩ := emits_fine (fine_prog fetch slide) (hem i.1) trivial e
      (List.mem_of_getElem? (show (X.ev i.1)[i.2]? = some e from he)) hf
    rw [hn]
    exact ha
  obtain ⟨s, tr, y', h1, h2, -, h3⟩ := C63_race_free_interleaving (fun _ => prog fetch slide) (fun _ m => (fine_prog fetch slide m).stores)
    all hnd hall mem X hX hrf hsc hdef hsize (fun t => .done (regs t)) c' (fun _ => trivial) hem
  refine ⟨s, y', ?_, h2, h3⟩
  rw [← trace_run, h1]
  rfl

/-- C63 and C62 together: such an execution ends as the harts end after some order of their instructions, if these are instructions of
which `C62_rv64_partial` speaks, and the last writes are those of the harts. -/
theorem C63_rv64_processors_partial [DecidableEq ι] (slide : BitVec 64) (fetch : BitVec 64 → Option (Frv × Nat)) (regs : ι → St)
    (g : Harts ι) (hrel : ∀ t, Rel slide { regs t with mem := g.mem.toV } (g.at t))
    (hgood : ∀ order g', runG (Harts.step fetch) order g = some g' → ∀ t, g'.Good fetch t) (all : List ι) (hnd : all.Nodup)
    (hall : ∀ t, t ∈ all) (X : Exec ι) (hX : X.Consistent g.mem.toV) (hrf : X.RaceFree) (hsc : X.SeqCst) (hdef : X.Defined)
    (c' : ι → Code St) (hem : ∀ t, Emits (prog fetch slide) t (.done (regs t)) (X.ev t) (c' t)) :
    ∃ order g', runG (Harts.step fetch) order g = some g' ∧
      (∀ w e, X.last w → X.at? w = some e → e.new = some (some (g'.mem.read e.addr e.n))) ∧
      ∀ t, ∃ m, Rel slide { m with mem := g'.mem.toV } (g'.at t) ∧
        (c' t = .done m ∨ c' t = prog fetch slide m ∧ ∀ m', prog fetch slide m ≠ .done m') := by
  obtain ⟨s, y', h1, h2, h6⟩ := C63_rv64_race_free slide fetch all hnd hall g.mem.toV X hX hrf hsc hdef regs c' hem
  obtain ⟨y, order, g', h3, h4, h7, h5⟩ := C62_rv64_partial fetch slide regs g hrel hgood s
  rw [h1] at h3
  cases h3
  refine ⟨order, g', h4, fun w e hw he => ?_, h2 ▸ h5⟩
  rw [h6 w e hw he, h7, VMem.read_toV]

/-- Accesses of the counter at `a`. -/
def AtCounter (a : BitVec 64) (e : Acc) : Prop :=
  e.ord ≠ .notAtomic ∧ e.reads = true ∧ e.upd.isSome = true ∧ e.addr = a ∧ e.n = 8

theorem counter_keeps (o : BitVec 32) (slide a : BitVec 64) (m : St) (hm : m.gp 2 = some a) :
    (prog (counterCode o) slide m).Keeps (fun m => m.gp 2 = some a) (AtCounter a) := by
  unfold prog
  split
  · trivial
  · rename_i pc _
    by_cases h1 : pc = 0x1000#64
    · subst h1
      rw [show counterCode o 0x1000#64 = some (⟨.amoaddd, 0, 2, 1, o, 0, 0⟩, 4) from rfl]
      dsimp only [code, memCode]
      unfold amoCode
      split
      · trivial
      · rename_i ord ho
        have hat : ord ≠ .notAtomic := by
          unfold amoOrd at ho
          split at ho <;> cases ho <;> decide
        have hl : ∀ p, loadGp { m with pc := p } 2 64 = some a := by
          intro p
          unfold loadGp
          rw [if_neg (by decide)]
          show trunc 64 (m.gp 2) = some a
          rw [hm]
          simp [trunc, un]
        rw [hl]
        exact ⟨⟨hat, rfl, rfl, rfl, rfl⟩, fun _ => hm⟩
    · by_cases h2 : pc = 0x1004#64
      · subst h2
        rw [show counterCode o 0x1004#64 = some (⟨.jal, 0, regInv, 0, 0#32, 0, 0⟩, 4) from rfl]
        exact hm
      · simp only [counterCode, h1, h2, if_false]
        trivial

/-- C63, no update is lost: `N` threads execute the lifted code of `amoadd.d x0, x1, (x2)`, with any bits `aq` and `rl`, once each on the
same counter.  In every execution that LLVM allows, also those that are not interleavings, the last write of the counter is its first
value and the sum of the values that are added. -/
theorem C63_rv64_counter (o : BitVec 32) (ho : o.toNat < 4) (N : Nat) (slide a : BitVec 64) (d : Fin N → BitVec 64) (mem : Mem)
    (ha : a.toNat % 8 = 0) (regs : Fin N → St)
    (hrel : ∀ t, Rel slide { regs t with mem := mem.toV } ((counterHarts N a d mem).at t)) (X : Exec (Fin N))
    (hX : X.Consistent mem.toV) (ends : Fin N → St)
    (hem : ∀ t, Emits (prog (counterCode o) slide) t (.done (regs t)) (X.ev t) (.done (ends t)))
    (hends : ∀ t, (ends t).pc.val slide = some 0x1004#64) (w : Fin N × Nat) (hw : X.last w) (e : Ev (Fin N)) (he : X.at? w = some e) :
    e.addr = a ∧ ∃ hn : e.n = 8, e.new = some (some ((mem.read a 8 + ∑ t, d t).cast (by rw [hn]))) := by
  have hall : ∀ i e, X.at? i = some e → e.atomic ∧ e.reads = true ∧ e.new.isSome = true ∧ e.addr = a ∧ e.n = 8 := by
    intro i e he
    have hg : (regs i.1).gp 2 = some a := by
      rw [show (regs i.1).gp = _ from (hrel i.1).1.1]
      rfl
    obtain ⟨b, v, ⟨h1, h2, h3, h4, h5⟩, rfl⟩ := emits_keeps (counter_keeps o slide a) (hem i.1) hg e
      (List.mem_of_getElem? (show (X.ev i.1)[i.2]? = some e from he))
    exact ⟨⟨rfl, h1⟩, h2, by simpa [Acc.event] using h3, h4, h5⟩
  have hrmw : X.RmwOnly := fun i e he => ⟨(hall i e he).1, (hall i e he).2.1, (hall i e he).2.2.1, fun j f hf =>
    ⟨(hall i e he).2.2.2.1.trans (hall j f hf).2.2.2.1.symm, (hall i e he).2.2.2.2.trans (hall j f hf).2.2.2.2.symm⟩⟩
  obtain ⟨s, tr, y', h3, h4, -, h5⟩ := C63_rmw_interleaving (fun _ => prog (counterCode o) slide)
    (fun _ m => (fine_prog (counterCode o) slide m).stores) (List.finRange N) (List.nodup_finRange N) (List.mem_finRange ·) mem.toV X hX hrmw
    (fun i e he _ => by rw [(hall i e he).2.2.2.2]; decide) (fun t => .done (regs t)) (fun t => .done (ends t)) (fun _ => trivial) hem
  obtain ⟨y, h6, h7⟩ := C62_rv64_counter o ho N slide a d mem ha regs hrel s
  rw [← trace_run, h3] at h6
  cases h6
  have h8 := h7 fun t => ⟨ends t, by rw [h4], hends t⟩
  obtain ⟨-, -, -, hea, hn⟩ := hall w e he
  refine ⟨hea, hn, ?_⟩
  rw [h5 w e hw he]
  obtain ⟨et, eF, eo, ea, en, eold, enew, er⟩ := e
  simp only at hea hn ⊢
  subst hn hea
  rw [h8]
  rfl

/-- The end state of a thread between two instructions. -/
def doneAt : Code St → Option (BitVec 64)
  | .done m => m.pc.val 0
  | _ => none

/-- The hypotheses of `C63_rv64_processors_partial` and `C63_rv64_counter` are met by two threads that add to a counter with `AMOADD`. -/
example : ∃ (X : Exec (Fin 2)) (ends : Fin 2 → St), X.Consistent twoHarts.mem.toV ∧ X.RaceFree ∧ X.SeqCst ∧ X.Defined ∧
    (∀ t, Emits (prog (counterCode 3#32) 0) t (.done (twoRegs t)) (X.ev t) (.done (ends t))) ∧
    (∀ t, (ends t).pc.val 0 = some 0x1004#64) ∧ (∃ w e, X.last w ∧ X.at? w = some e ∧ e.addr = 64#64 ∧ e.n = 8) ∧
    (∀ order g', runG (Harts.step (counterCode 3#32)) order twoHarts = some g' → ∀ t, g'.Good (counterCode 3#32) t) := by
  have h : (System.trace (fun _ => prog (counterCode 3#32) 0) [0, 1, 1, 0] { threads := fun t => .done (twoRegs t), mem := twoMem.toV }).map
      (fun p => (uniformShape (p.1.map Ev.shape),
        p.1.all (fun e => !e.isFence && e.ord == .seqCst && e.addr == 64#64 && e.n == 8 && e.new.isSome), p.1.map (·.thread),
        decide (∀ t, doneAt (p.2.threads t) = some 0x1004#64))) =
      some (true, true, [1, 0], true) := by decide +kernel
  obtain ⟨⟨tr, y'⟩, hp, h⟩ := Option.map_eq_some_iff.1 h
  simp only [Prod.mk.injEq, decide_eq_true_eq] at h
  obtain ⟨hu, hsc, hth, hdone⟩ := h
  obtain ⟨X, hX, h1, h0, h2, hem, hlast⟩ := two_writes _ _ _ _ _ _ hp hu hsc hth
  have hends : ∀ t, ∃ m, y'.threads t = .done m ∧ m.pc.val 0 = some 0x1004#64 := by
    intro t
    have := hdone t
    unfold doneAt at this
    split at this
    · rename_i m hm
      exact ⟨m, hm, this⟩
    · cases this
  choose ends hends hpc using hends
  exact ⟨X, ends, hX, h1, h0, h2, fun t => hends t ▸ hem t, hpc, hlast, fun order g' hg t =>
    counter_good (by decide) (N := 2) (a := 64#64) (d := fun t => if t = 0 then 3#64 else 5#64) (c := 7#64) (by decide)
      (counter_run order _ _ ⟨fun _ => rfl, fun _ => rfl, fun _ => .inl rfl, by decide +kernel⟩ hg) t⟩

end RV64

/-! ### x86-64 -/

namespace X86

open Verif.X86

variable {slide : BitVec 64}

abbrev Fine (c : Code St) : Prop := c.Fine PlainOrSc

theorem bytes_size (z : Sz) : 0 < z.bytes ∧ z.bytes ≤ 2 ^ 64 := by cases z <;> decide

theorem fine_pure {α : Type} {x : Option α} {k : α → Code St} (h : ∀ v, Fine (k v)) : Fine (pure' x k) := by
  cases x with
  | none => trivial
  | some v => exact h v

theorem fine_load {a : Val 64} {n al : Nat} {k : Val (8 * n) → Code St} (hn : 0 < n ∧ n ≤ 2 ^ 64) (h : ∀ v, Fine (k v)) :
    Fine (cLoad a n al k) := by
  cases a with
  | none => trivial
  | some a => exact ⟨⟨.inl rfl, hn⟩, (fun h => by cases h), h⟩

theorem fine_store {a : Val 64} {n al : Nat} {v : Val (8 * n)} {c : Code St} (hn : 0 < n ∧ n ≤ 2 ^ 64) (h : Fine c) :
    Fine (cStore a n al v c) := by
  cases a with
  | none => trivial
  | some a => exact ⟨⟨.inl rfl, hn⟩, fun _ _ _ => ⟨rfl, rfl⟩, fun _ => h⟩

theorem fine_rmw {a : Val 64} {n : Nat} {f : Val (8 * n) → Val (8 * n)} {k : Val (8 * n) → Code St} (hn : 0 < n ∧ n ≤ 2 ^ 64)
    (h : ∀ v, Fine (k v)) : Fine (cRmw a n f k) := by
  cases a with
  | none => trivial
  | some a => exact ⟨⟨.inr rfl, hn⟩, (fun h => by cases h), h⟩

theorem fine_opLoad {m : St} {z : Sz} {o : Op} {ds : Bool} {k : Val z.bits → Code St} (h : ∀ v, Fine (k v)) :
    Fine (cOpLoad slide m z o ds k) := by
  unfold cOpLoad
  split
  · exact fine_pure fun _ => fine_load (bytes_size z) h
  · exact fine_pure h

theorem fine_opStore {m : St} {z : Sz} {o : Op} {v : Val z.bits} {k : St → Code St} (h : ∀ m, Fine (k m)) :
    Fine (cOpStore slide m z o v k) := by
  unfold cOpStore
  split
  · exact fine_pure fun _ => fine_store (bytes_size z) (h m)
  · exact fine_pure h

theorem fine_opStoreIf {m : St} {c : Bool} {z : Sz} {o : Op} {v : Val z.bits} {k : St → Code St} (h : ∀ m, Fine (k m)) :
    Fine (cOpStoreIf slide m c z o v k) := by
  unfold cOpStoreIf
  split
  · exact fine_opStore h
  · exact h m

theorem fine_atomicRmw {m : St} {z : Sz} {o : Op} {f : Val z.bits → Val z.bits} {k : Val z.bits → Code St} (h : ∀ v, Fine (k v)) :
    Fine (cAtomicRmw slide m z o f k) := by
  unfold cAtomicRmw
  split
  · exact fine_pure fun _ => fine_rmw (bytes_size z) h
  · trivial

theorem fine_rmwLoad {m : St} {z : Sz} {lock : Bool} {d : Op} {f : Val z.bits → Val z.bits} {k : Val z.bits → Code St}
    (h : ∀ v, Fine (k v)) : Fine (cRmwLoad slide m z lock d f k) := by
  unfold cRmwLoad
  split
  · exact fine_atomicRmw h
  · exact fine_opLoad h

theorem fine_push {m : St} {z : Sz} {v : Val z.bits} {fin : St → Code St} (h : ∀ m, Fine (fin m)) : Fine (cPush m z v fin) :=
  fine_store (bytes_size z) (h _)

theorem fine_pop {m : St} {r : Fin 16} {fin : Val 64 → St → Code St} (h : ∀ v m, Fine (fin v m)) : Fine (cPop m r fin) :=
  fine_load (by omega) fun v => h v _

theorem fine_btAccess {m : St} {k : BitOp} {z : Sz} {lock : Bool} {d s : Op} {index mask : Val z.bits} {fin : Val z.bits → St → Code St}
    (h : ∀ v m, Fine (fin v m)) : Fine (cBtAccess slide m k z lock d s index mask fin) := by
  unfold cBtAccess
  split
  · refine fine_pure fun a => ?_
    split
    · exact fine_rmw (bytes_size z) fun v => h v m
    · refine fine_load (bytes_size z) fun v => ?_
      split
      · exact fine_store (bytes_size z) (h v m)
      · exact h v m
  · split
    · trivial
    · exact fine_opLoad fun v => fine_opStoreIf fun m => h v m

theorem fine_strBody {k : Str} {z : Sz} {ax : Val z.bits} {si di : Val 64} {fin : Val z.bits → Val z.bits → Code St}
    (h : ∀ a b, Fine (fin a b)) : Fine (cStrBody k z ax si di fin) := by
  unfold cStrBody
  split
  · exact fine_load (bytes_size z) fun v => h v v
  · exact fine_store (bytes_size z) (h _ _)
  · exact fine_load (bytes_size z) fun v => fine_store (bytes_size z) (h v v)
  · exact fine_load (bytes_size z) fun v => h _ v
  · exact fine_load (bytes_size z) fun a => fine_load (bytes_size z) fun b => h a b

/-- One step of the proofs below. -/
macro "fine_step " h:term : tactic => `(tactic| first
  | exact $h _
  | exact True.intro
  | refine fine_opLoad fun _ => ?_
  | refine fine_opStore fun _ => ?_
  | refine fine_opStoreIf fun _ => ?_
  | refine fine_atomicRmw fun _ => ?_
  | refine fine_rmwLoad fun _ => ?_
  | refine fine_push fun _ => ?_
  | refine fine_pop fun _ _ => ?_
  | refine fine_btAccess fun _ _ => ?_
  | refine fine_strBody fun _ _ => ?_
  | refine fine_pure fun _ => ?_
  | refine fine_load (by omega) fun _ => ?_
  | split)

theorem fine_mov {m : St} {z sz : Sz} {d s : Op} {fin : St → Code St} (h : ∀ m, Fine (fin m)) : Fine (cMov slide m z sz d s fin) := by
  unfold cMov
  repeat' fine_step h

theorem fine_arith {cfg : Cfg} {m : St} {k : Arith} {z : Sz} {lock : Bool} {d s : Op} {fin : St → Code St} (h : ∀ m, Fine (fin m)) :
    Fine (cArith slide cfg m k z lock d s fin) := by
  unfold cArith
  repeat' fine_step h

theorem fine_cmpxchg {m : St} {z : Sz} {lock : Bool} {d s : Op} {fin : St → Code St} (h : ∀ m, Fine (fin m)) :
    Fine (cCmpxchg slide m z lock d s fin) := by
  unfold cCmpxchg
  repeat' fine_step h

theorem fine_xchg {m : St} {z : Sz} {d s : Op} {fin : St → Code St} (h : ∀ m, Fine (fin m)) :
    Fine (cXchg slide m z d s fin) := by
  unfold cXchg
  repeat' fine_step h

theorem fine_logic {m : St} {k : Logic} {z : Sz} {lock : Bool} {d s : Op} {fin : St → Code St} (h : ∀ m, Fine (fin m)) :
    Fine (cLogic slide m k z lock d s fin) := by
  unfold cLogic
  repeat' fine_step h

theorem fine_not {m : St} {z : Sz} {lock : Bool} {d : Op} {fin : St → Code St} (h : ∀ m, Fine (fin m)) :
    Fine (cNot slide m z lock d fin) := by
  unfold cNot
  repeat' fine_step h

theorem fine_incDec {cfg : Cfg} {m : St} {dec : Bool} {z : Sz} {lock : Bool} {d : Op} {fin : St → Code St} (h : ∀ m, Fine (fin m)) :
    Fine (cIncDec slide cfg m dec z lock d fin) := by
  unfold cIncDec
  repeat' fine_step h

theorem fine_cmov {m : St} {c : Cond} {z : Sz} {d s : Op} {fin : St → Code St} (h : ∀ m, Fine (fin m)) :
    Fine (cCmov slide m c z d s fin) := by
  unfold cCmov
  repeat' fine_step h

theorem fine_bittest {m : St} {k : BitOp} {z : Sz} {lock : Bool} {d s : Op} {fin : St → Code St} (h : ∀ m, Fine (fin m)) :
    Fine (cBittest slide m k z lock d s fin) := by
  unfold cBittest
  repeat' fine_step h

theorem fine_movzxStore {m : St} {z : Sz} {w : Nat} {v : Val w} {d : Op} {fin : St → Code St} (h : ∀ m, Fine (fin m)) :
    Fine (cMovzxStore slide m z v d fin) := by
  unfold cMovzxStore
  repeat' fine_step h

theorem fine_movzx {m : St} {z sz : Sz} {d s : Op} {fin : St → Code St} (h : ∀ m, Fine (fin m)) : Fine (cMovzx slide m z sz d s fin) := by
  unfold cMovzx
  repeat' first | exact fine_movzxStore h | fine_step h

theorem fine_movbe {m : St} {z : Sz} {d s : Op} {fin : St → Code St} (h : ∀ m, Fine (fin m)) : Fine (cMovbe slide m z d s fin) := by
  unfold cMovbe
  repeat' fine_step h

theorem fine_neg {m : St} {z : Sz} {lock : Bool} {d : Op} {fin : St → Code St} (h : ∀ m, Fine (fin m)) :
    Fine (cNeg slide m z lock d fin) := by
  unfold cNeg
  repeat' fine_step h

theorem fine_shift {m : St} {k : Shift} {z : Sz} {d c : Op} {fin : St → Code St} (h : ∀ m, Fine (fin m)) :
    Fine (cShift slide m k z d c fin) := by
  unfold cShift
  repeat' fine_step h

theorem fine_shiftd {m : St} {left : Bool} {z : Sz} {d s c : Op} {fin : St → Code St} (h : ∀ m, Fine (fin m)) :
    Fine (cShiftd slide m left z d s c fin) := by
  unfold cShiftd
  repeat' fine_step h

theorem fine_rotate {m : St} {left : Bool} {z : Sz} {d c : Op} {fin : St → Code St} (h : ∀ m, Fine (fin m)) :
    Fine (cRotate slide m left z d c fin) := by
  unfold cRotate
  repeat' fine_step h

theorem fine_mul1 {cfg : Cfg} {m : St} {signed : Bool} {z : Sz} {s : Op} {fin : St → Code St} (h : ∀ m, Fine (fin m)) :
    Fine (cMul1 slide cfg m signed z s fin) := by
  unfold cMul1
  repeat' fine_step h

theorem fine_imul2 {cfg : Cfg} {m : St} {z : Sz} {d s t : Op} {fin : St → Code St} (h : ∀ m, Fine (fin m)) :
    Fine (cImul2 slide cfg m z d s t fin) := by
  unfold cImul2
  repeat' fine_step h

theorem fine_div {m : St} {signed : Bool} {z : Sz} {s : Op} {high : High} {fin : St → Code St} (h : ∀ m, Fine (fin m)) :
    Fine (cDiv slide m signed z s high fin) := by
  unfold cDiv
  repeat' fine_step h

theorem fine_xlat {m : St} {a32 : Bool} {fin : St → Code St} (h : ∀ m, Fine (fin m)) :
    Fine (cXlat m a32 fin) := by
  unfold cXlat
  repeat' fine_step h

theorem fine_bitscan {m : St} {trailing : Bool} {z : Sz} {r : Fin 16} {s : Op} {fin : St → Code St} (h : ∀ m, Fine (fin m)) :
    Fine (cBitscan slide m trailing z r s fin) := by
  unfold cBitscan
  repeat' fine_step h

theorem fine_popcnt {m : St} {z : Sz} {d s : Op} {fin : St → Code St} (h : ∀ m, Fine (fin m)) :
    Fine (cPopcnt slide m z d s fin) := by
  unfold cPopcnt
  repeat' fine_step h

theorem fine_call {cfg : Cfg} {m : St} {s : Op} {fin : St → Code St} (h : ∀ m, Fine (fin m)) :
    Fine (cCall slide cfg m s fin) := by
  unfold cCall
  repeat' fine_step h

theorem fine_ctl {m : St} {k : Ctl} {o : Op} {fin : St → Code St} (h : ∀ m, Fine (fin m)) :
    Fine (cCtl slide m k o fin) := by
  unfold cCtl
  repeat' fine_step h

theorem fine_str {m : St} {k : Str} {z : Sz} {fin : St → Code St} (h : ∀ m, Fine (fin m)) :
    Fine (cStr m k z fin) := by
  unfold cStr
  repeat' fine_step h

theorem fine_body (cfg : Cfg) (i : Instr) (m : St) (c : Code St) (h : xBody slide cfg i m .done = some c) : Fine c := by
  have hd : ∀ m : St, Fine (.done m) := fun _ => trivial
  cases i with
  | mov z sz d s => exact Option.some.inj h ▸ fine_mov hd
  | arith k z lock d s => exact Option.some.inj h ▸ fine_arith hd
  | cmpxchg z lock d s => exact Option.some.inj h ▸ fine_cmpxchg hd
  | xchg z d s => exact Option.some.inj h ▸ fine_xchg hd
  | logic k z lock d s => exact Option.some.inj h ▸ fine_logic hd
  | not z lock d => exact Option.some.inj h ▸ fine_not hd
  | incdec dec z lock d => exact Option.some.inj h ▸ fine_incDec hd
  | cmov c z d s => exact Option.some.inj h ▸ fine_cmov hd
  | setcc c d => exact Option.some.inj h ▸ fine_opStore hd
  | bittest k z lock d s => exact Option.some.inj h ▸ fine_bittest hd
  | movzx z sz d s => exact Option.some.inj h ▸ fine_movzx hd
  | movbe z d s => exact Option.some.inj h ▸ fine_movbe hd
  | bswap z d => exact Option.some.inj h ▸ fine_movbe hd
  | neg z lock d => exact Option.some.inj h ▸ fine_neg hd
  | shift k z d c => exact Option.some.inj h ▸ fine_shift hd
  | shiftd left z d s c => exact Option.some.inj h ▸ fine_shiftd hd
  | rotate left z d c => exact Option.some.inj h ▸ fine_rotate hd
  | mul1 signed z s => exact Option.some.inj h ▸ fine_mul1 hd
  | imul2 z d s t => exact Option.some.inj h ▸ fine_imul2 hd
  | div signed z s high => exact Option.some.inj h ▸ fine_div hd
  | xlat a32 y => exact Option.some.inj h ▸ fine_xlat hd
  | popcnt z d s => exact Option.some.inj h ▸ fine_popcnt hd
  | call s => exact Option.some.inj h ▸ fine_call hd
  | pushf z => exact Option.some.inj h ▸ fine_push hd
  | ctl k o => exact Option.some.inj h ▸ fine_ctl hd
  | push z s => exact Option.some.inj h ▸ fine_opLoad fun v => fine_push hd
  | pop z o =>
    cases o with
    | reg r => exact Option.some.inj h ▸ fine_pop fun v m => fine_pure hd
    | _ => exact absurd (show none = some c from h) (by simp)
  | callRel off => exact Option.some.inj h ▸ fine_push fun _ => hd _
  | ret pop => exact Option.some.inj h ▸ fine_pop fun _ _ => hd _
  | bitscan trailing y z o s =>
    cases o with
    | reg r => exact Option.some.inj h ▸ fine_bitscan hd
    | _ => exact absurd (show none = some c from h) (by simp)
  | jmp s => exact Option.some.inj h ▸ fine_opLoad fun v => hd _
  | popf z => exact Option.some.inj h ▸ fine_pop fun _ _ => hd _
  | leave => exact Option.some.inj h ▸ fine_pop fun _ _ => hd _
  | str k z r y y' =>
    cases r with
    | none => exact Option.some.inj h ▸ fine_str hd
    | _ => exact absurd (show none = some c from h) (by simp)
  | sse k =>
    cases k with
    | fence => exact Option.some.inj h ▸ hd m
    | _ => exact absurd (show none = some c from h) (by simp)
  | _ => exact absurd (show none = some c from h) (by simp)

theorem fine_code (cfg : Cfg) (i : Instr) (start : BitVec 64) (len : Nat) (m : St) (c : Code St) (h : xCode slide cfg i start len m = some c) :
    Fine c := by
  unfold xCode at h
  split at h
  · cases h
    exact fine_pure fun _ => trivial
  · exact fine_body cfg i _ c h

theorem fine_prog (cfg : Cfg) (fetch : BitVec 64 → Option (Instr × Nat)) (m : St) : Fine (xProg slide cfg fetch m) := by
  unfold xProg
  split
  · trivial
  · split
    · trivial
    · rename_i i len _
      cases h : xCode slide cfg i _ len m with
      | none => trivial
      | some c => exact fine_code cfg i _ len m c h

/-- C63: an execution of lifted x86-64 code that LLVM allows, without data races and `undef`, is an interleaving: what C62 says about all
interleavings holds for it. -/
theorem C63_x86_race_free [DecidableEq ι] (cfg : Cfg) (slide : BitVec 64) (fetch : BitVec 64 → Option (Instr × Nat)) (all : List ι)
    (hnd : all.Nodup) (hall : ∀ t, t ∈ all) (mem : VMem) (X : Exec ι) (hX : X.Consistent mem) (hrf : X.RaceFree) (hdef : X.Defined)
    (regs : ι → St) (c' : ι → Code St) (hem : ∀ t, Emits (xProg slide cfg fetch) t (.done (regs t)) (X.ev t) (c' t)) :
    ∃ schedule y', System.run (fun _ => xProg slide cfg fetch) schedule { threads := fun t => .done (regs t), mem } = some y' ∧
      y'.threads = c' ∧ ∀ w e, X.last w → X.at? w = some e → e.new = some (y'.mem.read e.addr e.n) := by
  have key : ∀ i e, X.at? i = some e → e.isFence = false → (e.ord = .notAtomic ∨ e.ord = .seqCst) ∧ 0 < e.n ∧ e.n ≤ 2 ^ 64 := by
    intro i e he hf
    obtain ⟨a, ha, ho, hn⟩ := emits_fine (fine_prog cfg fetch) (hem i.1) trivial e
      (List.mem_of_getElem? (show (X.ev i.1)[i.2]? = some e from he)) hf
    rw [hn, ho]
    exact ha
  have hsc : X.SeqCst := by
    rintro i ⟨e, he, hf, hna⟩
    rcases (key i e he hf).1 with h | h
    · exact absurd h hna
    · exact ⟨e, he, h⟩
  obtain ⟨s, tr, y', h1, h2, -, h3⟩ := C63_race_free_interleaving (fun _ => xProg slide cfg fetch) (fun _ m => (fine_prog cfg fetch m).stores)
    all hnd hall mem X hX hrf hsc hdef (fun i e he hf => (key i e he hf).2) (fun t => .done (regs t)) c' (fun _ => trivial) hem
  refine ⟨s, y', ?_, h2, h3⟩
  rw [← trace_run, h1]
  rfl

/-- C63 and C62 together: an execution of lifted x86-64 code that LLVM allows, without data races and `undef`, ends as the processors end
after some order of their instructions, if these are instructions of which `C62_x86_partial` speaks.  Every thread is between two
instructions, or has only begun the next, with the registers of its processor, and the last writes are those of the processors. -/
theorem C63_x86_processors_partial [DecidableEq ι] {cfg : Cfg} {slide : BitVec 64} {fetch : BitVec 64 → Option (Instr × Nat)}
    (hcall : cfg.callFunction = none) (regs : ι → St) (g : Cpus ι) (hrel : ∀ t, Spec.Rel slide { regs t with mem := g.mem.toV } (g.at t))
    (hgood : ∀ order g', runG (Cpus.step cfg fetch) order g = some g' → ∀ t, g'.Good slide cfg fetch t)
    (all : List ι) (hnd : all.Nodup) (hall : ∀ t, t ∈ all) (X : Exec ι) (hX : X.Consistent g.mem.toV) (hrf : X.RaceFree) (hdef : X.Defined)
    (c' : ι → Code St) (hem : ∀ t, Emits (xProg slide cfg fetch) t (.done (regs t)) (X.ev t) (c' t)) :
    ∃ order g', runG (Cpus.step cfg fetch) order g = some g' ∧
      (∀ w e, X.last w → X.at? w = some e → e.new = some (some (g'.mem.read e.addr e.n))) ∧
      ∀ t, ∃ m, Spec.Rel slide { m with mem := g'.mem.toV } (g'.at t) ∧
        (c' t = .done m ∨ c' t = xProg slide cfg fetch m ∧ ∀ m', xProg slide cfg fetch m ≠ .done m') := by
  obtain ⟨s, y', h1, h2, h6⟩ := C63_x86_race_free cfg slide fetch all hnd hall g.mem.toV X hX hrf hdef regs c' hem
  obtain ⟨y, order, g', h3, h4, h7, h5⟩ := C62_x86_partial hcall regs g hrel hgood s
  rw [h1] at h3
  cases h3
  refine ⟨order, g', h4, fun w e hw he => ?_, h2 ▸ h5⟩
  rw [h6 w e hw he, h7, VMem.read_toV]

theorem counter_seqCst (cfg : Cfg) (slide : BitVec 64) (m : St) : (xProg slide cfg (counterCode true) m).Fine (·.ord = .seqCst) := by
  unfold xProg
  split
  · trivial
  · rename_i pc _
    by_cases h1 : pc = 0x1000#64
    · subst h1
      show (cArith slide cfg _ .add .q true (.mem { base := .reg 2 }) (.reg 0) .done).Fine _
      unfold cArith cOpLoad
      dsimp only
      unfold pure'
      split
      · trivial
      · unfold cRmwLoad cAtomicRmw cRmw
        dsimp only
        rw [if_pos rfl]
        unfold pure'
        split
        · trivial
        · dsimp only
          split
          · trivial
          · exact ⟨rfl, (fun h => by cases h), fun _ => trivial⟩
    · by_cases h2 : pc = 0x1004#64
      · subst h2
        show (pure' (lift cfg slide (.jmpRel (-2#64)) _ 2 m) fun o => .done o.st).Fine _
        unfold pure'
        split <;> trivial
      · simp only [counterCode, h1, h2, if_false]
        trivial

/-- C63, no update is lost: `N` threads execute the lifted code of `lock add [rdx], rax` once each on the same counter.  In every
execution that LLVM allows, also those that are not interleavings, the last write of the counter is its first value and the sum of the
values that are added. -/
theorem C63_x86_counter (N : Nat) (cfg : Cfg) (hcall : cfg.callFunction = none) (slide a : BitVec 64) (d : Fin N → BitVec 64) (mem : Mem)
    (ha : a.toNat % 8 = 0) (regs : Fin N → St)
    (hrel : ∀ t, Spec.Rel slide { regs t with mem := mem.toV } ((counterCpus N a d mem).at t)) (X : Exec (Fin N))
    (hX : X.Consistent mem.toV) (ends : Fin N → St)
    (hem : ∀ t, Emits (xProg slide cfg (counterCode true)) t (.done (regs t)) (X.ev t) (.done (ends t)))
    (hends : ∀ t, (ends t).pc.val slide = some 0x1004#64) (w : Fin N × Nat) (hw : X.last w) (e : Ev (Fin N)) (he : X.at? w = some e)
    (hea : e.addr = a) (hn : e.n = 8) : e.new = some (some ((mem.read a 8 + ∑ t, d t).cast (by rw [hn]))) := by
  obtain ⟨h1, -, h2⟩ := all_seqCst (X := X) fun i e he hf => by
    obtain ⟨a, ha, ho, -⟩ := emits_fine (counter_seqCst cfg slide) (hem i.1) trivial e
      (List.mem_of_getElem? (show (X.ev i.1)[i.2]? = some e from he)) hf
    rw [ho, ha]
  obtain ⟨s, y', h3, h4, h5⟩ := C63_x86_race_free cfg slide (counterCode true) (List.finRange N) (List.nodup_finRange N)
    (List.mem_finRange ·) mem.toV X hX h1 h2 regs _ hem
  obtain ⟨y, h6, h7⟩ := C62_x86_counter N cfg hcall slide a d mem ha regs hrel s
  rw [h3] at h6
  cases h6
  have h8 := h7 fun t => ⟨ends t, by rw [h4], hends t⟩
  rw [h5 w e hw he]
  obtain ⟨et, eF, eo, ea, en, eold, enew, er⟩ := e
  simp only at hea hn ⊢
  subst hn hea
  rw [h8]
  rfl

/-- The end state of a thread between two instructions. -/
def doneAt : Code St → Option (BitVec 64)
  | .done m => m.pc.val 0
  | _ => none

/-- The hypotheses of `C63_x86_processors_partial` and `C63_x86_counter` are met by two threads that add to a counter with `LOCK ADD`. -/
example : ∃ (X : Exec (Fin 2)) (ends : Fin 2 → St), X.Consistent twoCpus.mem.toV ∧ X.RaceFree ∧ X.Defined ∧
    (∀ t, Emits (xProg 0 {} (counterCode true)) t (.done (twoRegs t)) (X.ev t) (.done (ends t))) ∧
    (∀ t, (ends t).pc.val 0 = some 0x1004#64) ∧ (∃ w e, X.last w ∧ X.at? w = some e ∧ e.addr = 64#64 ∧ e.n = 8) ∧
    (∀ order g', runG (Cpus.step {} (counterCode true)) order twoCpus = some g' → ∀ t, g'.Good 0 {} (counterCode true) t) := by
  have h : (System.trace (fun _ => xProg 0 {} (counterCode true)) [0, 1, 1, 0] { threads := fun t => .done (twoRegs t), mem := twoMem.toV }).map
      (fun p => (uniformShape (p.1.map Ev.shape),
        p.1.all (fun e => !e.isFence && e.ord == .seqCst && e.addr == 64#64 && e.n == 8 && e.new.isSome), p.1.map (·.thread),
        decide (∀ t, doneAt (p.2.threads t) = some 0x1004#64))) =
      some (true, true, [1, 0], true) := by decide +kernel
  obtain ⟨⟨tr, y'⟩, hp, h⟩ := Option.map_eq_some_iff.1 h
  simp only [Prod.mk.injEq, decide_eq_true_eq] at h
  obtain ⟨hu, hsc, hth, hdone⟩ := h
  obtain ⟨X, hX, h1, -, h2, hem, hlast⟩ := two_writes _ _ _ _ _ _ hp hu hsc hth
  have hends : ∀ t, ∃ m, y'.threads t = .done m ∧ m.pc.val 0 = some 0x1004#64 := by
    intro t
    have := hdone t
    unfold doneAt at this
    split at this
    · rename_i m hm
      exact ⟨m, hm, this⟩
    · cases this
  choose ends hends hpc using hends
  exact ⟨X, ends, hX, h1, h2, fun t => hends t ▸ hem t, hpc, hlast, fun order g' hg t =>
    counter_good (N := 2) (a := 64#64) (d := fun t => if t = 0 then 3#64 else 5#64) (c := 7#64) (by decide)
      (counter_run order _ _ ⟨fun _ => rfl, fun _ => rfl, fun _ => .inl rfl, by decide +kernel⟩ hg) t⟩

end X86

end Verif.Conc
