import Verif.Lift.Drop

/-!
Instruction overrides (`ll_config_set_instr_impl`) and instruction markers (`ll_config_set_instr_marker`),
C57 and C58, for any architecture.
-/

namespace Verif.Lift

open Verif.Decode Verif.IR

set_option linter.unusedSimpArgs false

variable {P R V M MS : Type}

/-! ### Model -/

/-- Overridden instructions, /repo/src/x86-64/lifter.cc:60-65, /repo/src/rv64/lifter.cc:377-382,
/repo/src/a64/main.cc:63-68: the only code is a call of the given function on the CPU struct
(`CallExternalFunction`, /repo/src/lifter-base.cc:46-57), the lifting succeeds, and the register file
is the one loaded from the CPU struct afterwards.  `pcAt` is the address the program counter has been set
to before: the end of the instruction for x86-64 (/repo/src/x86-64/lifter.cc:50), its start for RV64 and
AArch64 (/repo/src/rv64/lifter.cc:365, /repo/src/a64/main.cc:52).  The code looks the function up by the
mnemonic; here it may be any function of the instruction.  Calls of functions marked always-inline are
replaced by the function's code, which does the same, but see `Verif.Lift.Inline`. -/
def Lifter.override (L : Lifter P R V M) (pcAt : Inst P → Addr)
    (ov : Inst P → Option (CPU R V M → Option (CPU R V M))) : Lifter P R V M where
  ok := fun i => (ov i).isSome || L.ok i
  form := fun i => if (ov i).isSome then .value else L.form i
  fold := fun i => if (ov i).isSome then none else L.fold i
  startPc := fun i => if (ov i).isSome then pcAt i else L.startPc i
  items := fun i => match ov i with | some f => [.call f] | none => L.items i

/-- Keep a log beside the memory. -/
def keepLog {A B : Type} (f : A → Option A) (fst : B → A) (snd : B → A → B) (b : B) : Option B :=
  (f (fst b)).map (snd b)

/-- The code of an instruction does not touch the log. -/
def Item.withLog {W : Type} : Item R V M → Item R V (M × W)
  | .upd f d => .upd (keepLog f (fun s => ⟨s.regs, s.mem.1, s.pc⟩)
      (fun s t => ⟨t.regs, (t.mem, s.mem.2), t.pc⟩)) d
  | .call g => .call (keepLog g (fun c => ⟨c.slot, c.pc, c.mem.1⟩)
      (fun c t => ⟨t.slot, t.pc, (t.mem, c.mem.2)⟩))

/-- Instruction markers, /repo/src/x86-64/lifter.cc:52-59, /repo/src/rv64/lifter.cc:368-375,
/repo/src/a64/main.cc:54-61: before the code of an instruction, also of one that cannot be lifted, the
marker function is called with the program counter.  `at'` is the address the program counter has been
set to, as for overrides.  The marker function is taken to append its first argument to a log; the second
one, metadata with the bytes of the decoded instruction, is left out. -/
def Lifter.mark (L : Lifter P R V M) (slide : BitVec 64) (at' : Inst P → Addr) :
    Lifter P R V (M × List (BitVec 64)) where
  ok := L.ok
  form := L.form
  fold := L.fold
  startPc := L.startPc
  items := fun i => .upd (fun s => some { s with mem := (s.mem.1, s.mem.2 ++ [at' i + slide]) }) ∅ ::
    (L.items i).map Item.withLog

/-! ### Specification -/

/-- The guest machine in which some instructions have been given another meaning. -/
def Guest.override (G : Guest P MS) (ov : Inst P → Option (MS → Option MS)) : Guest P MS where
  pc := G.pc
  step := fun i m => match ov i with | some f => f m | none => G.step i m

/-- The function `g` given for the instruction `i` does what `f` says: called on a CPU struct with the
state of the guest machine, but with `pc` in the field of the program counter, it returns with the new
state, including the program counter. -/
def DoesInst (G : Guest P MS) (rel : MS → (R → V) → M → Prop) (pc : BitVec 64) (i : Inst P)
    (slide : BitVec 64) (g : CPU R V M → Option (CPU R V M)) (f : MS → Option MS) : Prop :=
  ∀ m m' c, rel m c.slot c.mem → G.pc m = i.start + slide → c.pc = some pc → f m = some m' →
    ∃ c', g c = some c' ∧ rel m' c'.slot c'.mem ∧ c'.pc = some (G.pc m')

/-- The functions `ov` given for some instructions of `is` do what `gov` says.  A function for an
instruction that the decoder takes for a plain one continues behind the instruction
(`C57_redirect_counterexample`). -/
def OverridesOK (cls : Classifier P) (G : Guest P MS) (rel : MS → (R → V) → M → Prop) (slide : BitVec 64)
    (pcAt : Inst P → Addr) (is : List (Inst P)) (ov : Inst P → Option (CPU R V M → Option (CPU R V M)))
    (gov : Inst P → Option (MS → Option MS)) : Prop :=
  ∀ i ∈ is, match ov i with
    | none => gov i = none
    | some g => ∃ f, gov i = some f ∧ DoesInst G rel (pcAt i + slide) i slide g f ∧
      ((cls i).1 = .other → ∀ m m', G.pc m = i.start + slide → f m = some m' →
        G.pc m' = i.stop + slide)

/-- The guest machine with a record of the executed instructions. -/
def Guest.traced (G : Guest P MS) (slide : BitVec 64) (at' : Inst P → Addr) :
    Guest P (MS × List (BitVec 64)) where
  pc := fun m => G.pc m.1
  step := fun i m => (G.step i m.1).map (fun m' => (m', m.2 ++ [at' i + slide]))

/-- What the marker function should be told while the guest machine executes up to `n` instructions: for
every instruction that is executed, in order, its start or its end (`at'`) as an address of the moved
code. -/
def Guest.trace (G : Guest P MS) (code : Decoder P) (slide : BitVec 64) (at' : Inst P → Addr) :
    Nat → MS → List (BitVec 64)
  | 0, _ => []
  | n + 1, m =>
    match code (G.pc m - slide), G.next code slide m with
    | some lp, some m' =>
      (at' ⟨G.pc m - slide, lp.1, lp.2⟩ + slide) :: Guest.trace G code slide at' n m'
    | _, _ => []

/-- The log is the record. -/
def relTraced (rel : MS → (R → V) → M → Prop) (m : MS × List (BitVec 64)) (regs : R → V)
    (mem : M × List (BitVec 64)) : Prop :=
  rel m.1 regs mem.1 ∧ mem.2 = m.2

/-! ### What has to hold for the instructions of a function -/

/-- The code of the single instructions is right. -/
structure InstrOK (cls : Classifier P) (callFn : Bool) (L : Lifter P R V M) (G : Guest P MS)
    (slide : BitVec 64) (rel : MS → (R → V) → M → Prop) (undef : V → Prop) (is : List (Inst P)) :
    Prop where
  correct : ∀ i ∈ is, Correct L G slide rel i
  plain : ∀ i ∈ is, PlainFalls cls L.toSLifter G slide i
  targets : ∀ i ∈ is, TargetsKnown cls callFn L.toSLifter i
  items : ∀ i, ∀ it ∈ L.items i, ItemOK (Refine.eq V M) it
  rel : ∀ m r r' μ, rel m r μ → (∀ x, r x = r' x ∨ undef (r x)) → rel m r' μ

/-- C60 for a lifter that is right for the single instructions. -/
theorem InstrOK.pair [DecidableEq R] {cls : Classifier P} {callFn : Bool} {code : Decoder P}
    {L : Lifter P R V M} {G : Guest P MS} {slide : BitVec 64} {rel : MS → (R → V) → M → Prop}
    {undef : V → Prop} {drop : R → V → Bool} {h : List (Call P)} {fn : Fn P} {g : Graph P} {plan : Plan R}
    (S : InstrOK cls callFn L G slide rel undef fn.insts)
    (H : Hist cls h fn) (hcalls : ∀ c ∈ h, c.dec = code) (hcount : Counted cls callFn h fn)
    {known : Bool} (hl : lift known L.toSLifter fn = .ok g)
    {regs : List R} (hregs : ∀ r, r ∈ regs) {fuel : Nat}
    (hplan : optimizePacks L g (packIds fn) regs fuel = some plan)
    (hfold : ∀ c, FoldOK L slide g c)
    (hdrop : ∀ r v, drop r v = true → undef v) (hL : (∀ r v, drop r v = false) ∨ Blind undef L)
    {d : DInstr P} (hd : fn.instrs.head? = some d)
    (m : MS) (hm : G.pc m = d.inst.start + slide) (c c' : CPU R V M) (hc : rel m c.slot c.mem)
    (hcpc : c.pc = some (G.pc m)) (hc' : rel m c'.slot c'.mem) (hcpc' : c'.pc = some (G.pc m))
    (out0 out0' : Id → R → V) (k : Nat) :
    (∃ k' < k, ∃ n m1 q q' a e e', G.run code slide n m = some m1 ∧
      Walk L.toSLifter slide g G m k' n (.at (.at a)) m1 ∧
      runSsa L plan drop slide g k' (ssaStart out0 c) = some (.at q (.at a) e) ∧
      runSsa L plan drop slide g k' (ssaStart out0' c') = some (.at q' (.at a) e') ∧
      InStep g G slide rel m1 (.at q (.at a) e) ∧ InStep g G slide rel m1 (.at q' (.at a) e') ∧
      ∃ bb, g (.at a) = some bb ∧ G.StuckIn code slide bb.body m1) ∨
    ∃ n m1 x x', G.run code slide n m = some m1 ∧
      runSsa L plan drop slide g k (ssaStart out0 c) = some x ∧
      runSsa L plan drop slide g k (ssaStart out0' c') = some x' ∧
      InStep g G slide rel m1 x ∧ InStep g G slide rel m1 x' ∧ x.loc = x'.loc ∧
      Walk L.toSLifter slide g G m k n x.loc m1 ∧ Progress k n x := by
  refine C60_determined_drop_partial (undef := undef) (cls := cls) (callFn := callFn)
    ⟨H, hcalls, hcount, ⟨known, hl⟩, ⟨regs, fuel, hregs, hplan⟩, S.correct, hfold, S.plain,
      S.targets, S.items, by simp, ?_⟩ hdrop hL S.rel hd m hm c c' hc hcpc hc' hcpc' out0 out0' k
  intro m r r' μ μ' h h1 h2
  obtain rfl : r = r' := funext h1
  obtain rfl : μ = μ' := h2
  exact h

/-- C09 for a lifter that is right for the single instructions. -/
theorem InstrOK.sim [DecidableEq R] {cls : Classifier P} {callFn : Bool} {code : Decoder P}
    {L : Lifter P R V M} {G : Guest P MS} {slide : BitVec 64} {rel : MS → (R → V) → M → Prop}
    {undef : V → Prop} {drop : R → V → Bool} {h : List (Call P)} {fn : Fn P} {g : Graph P} {plan : Plan R}
    (S : InstrOK cls callFn L G slide rel undef fn.insts)
    (H : Hist cls h fn) (hcalls : ∀ c ∈ h, c.dec = code) (hcount : Counted cls callFn h fn)
    {known : Bool} (hl : lift known L.toSLifter fn = .ok g)
    {regs : List R} (hregs : ∀ r, r ∈ regs) {fuel : Nat}
    (hplan : optimizePacks L g (packIds fn) regs fuel = some plan)
    (hfold : ∀ c, FoldOK L slide g c)
    (hdrop : ∀ r v, drop r v = true → undef v) (hL : (∀ r v, drop r v = false) ∨ Blind undef L)
    {d : DInstr P} (hd : fn.instrs.head? = some d)
    (m : MS) (hm : G.pc m = d.inst.start + slide) (c : CPU R V M) (hc : rel m c.slot c.mem)
    (hcpc : c.pc = some (G.pc m)) (out0 : Id → R → V) (k : Nat) :
    (∃ k' < k, ∃ n m1 q a e, G.run code slide n m = some m1 ∧
      runSsa L plan drop slide g k' (ssaStart out0 c) = some (.at q (.at a) e) ∧
      InStep g G slide rel m1 (.at q (.at a) e) ∧
      ∃ bb, g (.at a) = some bb ∧ G.StuckIn code slide bb.body m1) ∨
    ∃ n m1 x, G.run code slide n m = some m1 ∧
      runSsa L plan drop slide g k (ssaStart out0 c) = some x ∧ InStep g G slide rel m1 x ∧
      Progress k n x := by
  refine C09_simulation_drop_partial (undef := undef) (cls := cls) (callFn := callFn)
    ⟨H, hcalls, hcount, ⟨known, hl⟩, ⟨regs, fuel, hregs, hplan⟩, S.correct, hfold, S.plain,
      S.targets, S.items, by simp, ?_⟩ hdrop hL S.rel hd m hm c hc hcpc out0 k
  intro m r r' μ μ' h h1 h2
  obtain rfl : r = r' := funext h1
  obtain rfl : μ = μ' := h2
  exact h

/-! ### Overrides -/

theorem execInst_none {L : Lifter P R V M} {pcAt : Inst P → Addr}
    {ov : Inst P → Option (CPU R V M → Option (CPU R V M))} {i : Inst P} (h : ov i = none)
    (slide : BitVec 64) (s : St R V M) :
    execInst (L.override pcAt ov) slide i s = execInst L slide i s := by
  simp [execInst, Lifter.override, h]

theorem call_item_eq (f : CPU R V M → Option (CPU R V M)) : ItemOK (R := R) (Refine.eq V M) (.call f) := by
  rintro ⟨r1, p1, μ1⟩ ⟨r2, p2, μ2⟩ s' ⟨h1, h2, h3⟩ h
  obtain rfl : r1 = r2 := funext h1
  obtain rfl : μ1 = μ2 := h2
  obtain rfl : p1 = p2 := h3
  exact ⟨s', h, fun _ => rfl, rfl, rfl⟩

/-- The overridden instructions are right if the given functions are. -/
theorem InstrOK.override {cls : Classifier P} {callFn : Bool} {L : Lifter P R V M} {G : Guest P MS}
    {slide : BitVec 64} {rel : MS → (R → V) → M → Prop} {undef : V → Prop} {is : List (Inst P)}
    {pcAt : Inst P → Addr} {ov : Inst P → Option (CPU R V M → Option (CPU R V M))}
    {gov : Inst P → Option (MS → Option MS)}
    (hc : ∀ i ∈ is, ov i = none → Correct L G slide rel i)
    (hp : ∀ i ∈ is, ov i = none → PlainFalls cls L.toSLifter G slide i)
    (ht : ∀ i ∈ is, ov i = none → TargetsKnown cls callFn L.toSLifter i)
    (hi : ∀ i, ∀ it ∈ L.items i, ItemOK (Refine.eq V M) it)
    (hr : ∀ m r r' μ, rel m r μ → (∀ x, r x = r' x ∨ undef (r x)) → rel m r' μ)
    (hO : OverridesOK cls G rel slide pcAt is ov gov) :
    InstrOK cls callFn (L.override pcAt ov) (G.override gov) slide rel undef is := by
  have hnone : ∀ i ∈ is, ov i = none → gov i = none := by
    intro i hi h
    have := hO i hi
    rw [h] at this; exact this
  have hov : ∀ i ∈ is, ∀ g, ov i = some g → ∃ f, gov i = some f ∧
      DoesInst G rel (pcAt i + slide) i slide g f ∧
      ((cls i).1 = .other → ∀ m m', G.pc m = i.start + slide → f m = some m' →
        G.pc m' = i.stop + slide) := by
    intro i hi g h
    have := hO i hi
    rw [h] at this; exact this
  refine ⟨?_, ?_, ?_, ?_, hr⟩
  · intro i hmem
    cases ho : ov i with
    | none =>
      have hg := hnone i hmem ho
      have hC := hc i hmem ho
      refine ⟨?_, ?_⟩
      · intro hok m m' s hrel hpc hst
        have hok' : L.ok i = true := by simpa [Lifter.override, ho] using hok
        have hst' : G.step i m = some m' := by simpa [Guest.override, hg] using hst
        obtain ⟨s', h1, h2, h3, h4⟩ := hC.lifted hok' m m' s hrel hpc hst'
        refine ⟨s', by rw [execInst_none ho]; exact h1, h2, h3, ?_⟩
        simpa [Lifter.override, ho] using h4
      · intro hok
        have hok' : L.ok i = false := by simpa [Lifter.override, ho] using hok
        obtain ⟨h1, h2⟩ := hC.failed hok'
        refine ⟨by simpa [Lifter.override, ho] using h1, fun m s hrel hpc => ?_⟩
        obtain ⟨s', h3, h4⟩ := h2 m s hrel hpc
        exact ⟨s', by rw [execInst_none ho]; exact h3, h4⟩
    | some g =>
      obtain ⟨f, hf, hD, -⟩ := hov i hmem g ho
      refine ⟨?_, fun hok => by simp [Lifter.override, ho] at hok⟩
      intro hok m m' s hrel hpc hst
      have hst' : f m = some m' := by simpa [Guest.override, hf] using hst
      obtain ⟨c', h1, h2, h3⟩ := hD m m' (St.pack slide { s with pc := .const (pcAt i) }) hrel hpc
        (Pc.val_const slide (pcAt i)) hst'
      refine ⟨c'.unpack, ?_, h2, ?_, fun _ => ?_⟩
      · simp only [execInst, Lifter.override, ho, Option.isSome_some, if_true, execItems, execItem,
          h1, Option.map_some, Option.bind_some]
      · show Pc.val slide (.value c'.pc) = _
        rw [h3]; exact Pc.val_value _ _
      · simp only [Lifter.override, ho, Option.isSome_some, if_true]; rfl
  · intro i hmem hcl hok
    cases ho : ov i with
    | none =>
      have hg := hnone i hmem ho
      have hok' : L.ok i = true := by simpa [Lifter.override, ho] using hok
      rcases hp i hmem ho hcl hok' with h | h
      · exact .inl (by simpa [Lifter.override, ho] using h)
      · right
        intro m m' hpc hst
        exact h m m' hpc (by simpa [Guest.override, hg] using hst)
    | some g =>
      obtain ⟨f, hf, -, hfall⟩ := hov i hmem g ho
      right
      intro m m' hpc hst
      exact hfall hcl m m' hpc (by simpa [Guest.override, hf] using hst)
  · intro i hmem
    cases ho : ov i with
    | none => simpa [TargetsKnown, Lifter.override, ho] using ht i hmem ho
    | some g => right; simp [Lifter.override, ho, Form.targets]
  · intro i it hit
    cases ho : ov i with
    | none => exact hi i it (by simpa [Lifter.override, ho] using hit)
    | some g =>
      obtain rfl : it = .call g := by simpa [Lifter.override, ho] using hit
      exact call_item_eq g

theorem Blind.override {undef : V → Prop} {L : Lifter P R V M} (h : Blind undef L)
    {pcAt : Inst P → Addr} {ov : Inst P → Option (CPU R V M → Option (CPU R V M))}
    (hov : ∀ i g, ov i = some g → ∀ c c' d, Patch undef c c' → g c = some d → g c' = some d) :
    Blind undef (L.override pcAt ov) := by
  intro i g hg
  cases ho : ov i with
  | none => exact h i g (by simpa [Lifter.override, ho] using hg)
  | some f =>
    have : g = f := by simpa [Lifter.override, ho] using hg
    exact this ▸ hov i f ho

/-! ### Markers -/

theorem logged_items {slide : BitVec 64} (is : List (Item R V M)) :
    ∀ (s : St R V M) (w : List (BitVec 64)) (s' : St R V M), execItems slide is s = some s' →
      execItems slide (is.map Item.withLog) ⟨s.regs, (s.mem, w), s.pc⟩
        = some ⟨s'.regs, (s'.mem, w), s'.pc⟩ := by
  induction is with
  | nil => intro s w s' h; cases h; rfl
  | cons it is ih =>
    intro s w s' h
    simp only [execItems] at h
    obtain ⟨s1, h1, h2⟩ := Option.bind_eq_some_iff.1 h
    simp only [List.map_cons, execItems]
    refine Option.bind_eq_some_iff.2 ⟨⟨s1.regs, (s1.mem, w), s1.pc⟩, ?_, ih s1 w s' h2⟩
    cases it with
    | upd f d =>
      have h1 : f s = some s1 := h1
      show (f s).map _ = _
      rw [h1]; rfl
    | call g =>
      obtain ⟨c, hc, rfl⟩ := Option.map_eq_some_iff.1 h1
      have hc : g (s.pack slide) = some c := hc
      show ((g (s.pack slide)).map _).map _ = _
      rw [hc]; rfl

theorem mark_exec {L : Lifter P R V M} {slide : BitVec 64} {at' : Inst P → Addr} {i : Inst P}
    {s : St R V M} {s' : St R V M} (w : List (BitVec 64)) (h : execInst L slide i s = some s') :
    execInst (L.mark slide at') slide i ⟨s.regs, (s.mem, w), s.pc⟩
      = some ⟨s'.regs, (s'.mem, w ++ [at' i + slide]), s'.pc⟩ := by
  simp only [execInst, Lifter.mark, execItems, execItem, Option.bind_some]
  exact logged_items _ { s with pc := .const (L.startPc i) } (w ++ [at' i + slide]) s' h

/-- The marked instructions are right, and the log is the list of the executed instructions. -/
theorem InstrOK.mark {cls : Classifier P} {callFn : Bool} {L : Lifter P R V M} {G : Guest P MS}
    {slide : BitVec 64} {rel : MS → (R → V) → M → Prop} {undef : V → Prop} {is : List (Inst P)}
    (S : InstrOK cls callFn L G slide rel undef is) (hok : ∀ i ∈ is, L.ok i = true)
    (at' : Inst P → Addr) :
    InstrOK cls callFn (L.mark slide at') (G.traced slide at') slide (relTraced rel) undef is := by
  refine ⟨?_, ?_, S.targets, ?_, ?_⟩
  · intro i hmem
    refine ⟨?_, fun h => ?_⟩
    · rintro h ⟨m, w⟩ m' ⟨rg, ⟨μ, w'⟩, pc⟩ ⟨hrel, hw⟩ hpc hst
      obtain rfl : w' = w := hw
      obtain ⟨m1, h1, rfl⟩ := Option.map_eq_some_iff.1 hst
      obtain ⟨s', h2, h3, h4, h5⟩ := (S.correct i hmem).lifted h m m1 ⟨rg, μ, pc⟩ hrel hpc h1
      exact ⟨_, mark_exec _ h2, ⟨h3, rfl⟩, h4, h5⟩
    · have h : L.ok i = false := h
      rw [hok i hmem] at h; cases h
  · intro i hmem hcl h
    rcases S.plain i hmem hcl h with h1 | h1
    · exact .inl h1
    · right
      rintro ⟨m, w⟩ m' hpc hst
      obtain ⟨m1, h2, rfl⟩ := Option.map_eq_some_iff.1 hst
      exact h1 m m1 hpc h2
  · intro i it hit
    rcases List.mem_cons.1 hit with rfl | hit
    · refine ⟨?_, ?_⟩
      · intro s s' h r hr
        cases h; rfl
      · rintro ⟨r1, μ1, p1⟩ ⟨r2, μ2, p2⟩ s' ⟨h1, h2, h3⟩ h
        obtain rfl : r1 = r2 := funext h1
        obtain rfl : μ1 = μ2 := h2
        obtain rfl : p1 = p2 := h3
        exact ⟨s', h, fun _ => rfl, rfl, rfl⟩
    · obtain ⟨it', hit', rfl⟩ := List.mem_map.1 hit
      have := S.items i it' hit'
      cases it' with
      | call g => exact call_item_eq _
      | upd f dd =>
        refine ⟨?_, ?_⟩
        · rintro ⟨rg, ⟨μ, w⟩, pc⟩ s' h r hr
          obtain ⟨s1, h1, rfl⟩ := Option.map_eq_some_iff.1 h
          exact this.1 ⟨rg, μ, pc⟩ s1 h1 r hr
        · rintro ⟨r1, μ1, p1⟩ ⟨r2, μ2, p2⟩ s' ⟨h1, h2, h3⟩ h
          obtain rfl : r1 = r2 := funext h1
          obtain rfl : μ1 = μ2 := h2
          obtain rfl : p1 = p2 := h3
          exact ⟨s', h, fun _ => rfl, rfl, rfl⟩
  · rintro ⟨m, w⟩ r r' ⟨μ, w'⟩ ⟨h1, h2⟩ h
    exact ⟨S.rel m r r' μ h1 h, h2⟩

theorem traced_run (G : Guest P MS) (code : Decoder P) (slide : BitVec 64) (at' : Inst P → Addr) (n : Nat) :
    ∀ (m : MS) (w : List (BitVec 64)), (G.traced slide at').run code slide n (m, w)
      = (G.run code slide n m).map (fun m' => (m', w ++ G.trace code slide at' n m)) := by
  induction n with
  | zero => intro m w; simp [Guest.run, Guest.trace]
  | succ n ih =>
    intro m w
    simp only [Guest.run, Guest.trace, Guest.next, Guest.traced]
    cases hc : code (G.pc m - slide) with
    | none => rfl
    | some lp =>
      simp only [Option.bind_some]
      cases hs : G.step ⟨G.pc m - slide, lp.1, lp.2⟩ m with
      | none => rfl
      | some m' =>
        simp only [Option.map_some, Option.bind_some]
        have := ih m' (w ++ [at' ⟨G.pc m - slide, lp.1, lp.2⟩ + slide])
        simp only [Guest.traced] at this
        rw [this]
        simp only [List.append_assoc, List.singleton_append]

/-- C58 for any architecture: the code of the single instructions is right and every instruction can be
lifted; a marker function that appends its argument to a log is configured.  Whenever the lifted function
returns, the guest machine got stuck at an instruction of the function, or the CPU struct holds the state
of the guest machine after some number of instructions, and the marker function has been called once for
each of these instructions, in the order in which they were executed, and for nothing else. -/
theorem InstrOK.marker [DecidableEq R] {cls : Classifier P} {callFn : Bool} {code : Decoder P}
    {L : Lifter P R V M} {G : Guest P MS} {slide : BitVec 64} {rel : MS → (R → V) → M → Prop}
    {undef : V → Prop} {drop : R → V → Bool} {h : List (Call P)} {fn : Fn P} {g : Graph P} {plan : Plan R}
    (S : InstrOK cls callFn L G slide rel undef fn.insts) (hok : ∀ i ∈ fn.insts, L.ok i = true)
    (at' : Inst P → Addr)
    (H : Hist cls h fn) (hcalls : ∀ c ∈ h, c.dec = code) (hcount : Counted cls callFn h fn)
    {known : Bool} (hl : lift known (L.mark slide at').toSLifter fn = .ok g)
    {regs : List R} (hregs : ∀ r, r ∈ regs) {fuel : Nat}
    (hplan : optimizePacks (L.mark slide at') g (packIds fn) regs fuel = some plan)
    (hfold : ∀ c, FoldOK (L.mark slide at') slide g c)
    (hdrop : ∀ r v, drop r v = true → undef v)
    (hL : (∀ r v, drop r v = false) ∨ Blind undef (L.mark slide at'))
    {d : DInstr P} (hd : fn.instrs.head? = some d)
    (m : MS) (hm : G.pc m = d.inst.start + slide) (c : CPU R V (M × List (BitVec 64)))
    (hc : rel m c.slot c.mem.1)
    (hcpc : c.pc = some (G.pc m)) (out0 : Id → R → V) (k : Nat) (v : Bool)
    (c' : CPU R V (M × List (BitVec 64)))
    (hret : runSsa (L.mark slide at') plan drop slide g k (ssaStart out0 c) = some (.done v c')) :
    (∃ n m1 i, i ∈ fn.insts ∧ G.run code slide n m = some m1 ∧ G.pc m1 = i.start + slide ∧
      G.step i m1 = none) ∨
    ∃ n m1, G.run code slide n m = some m1 ∧ c'.pc = some (G.pc m1) ∧ rel m1 c'.slot c'.mem.1 ∧
      c'.mem.2 = c.mem.2 ++ G.trace code slide at' n m := by
  rcases (S.mark hok at').sim H hcalls hcount hl hregs hplan hfold hdrop hL hd (m, c.mem.2) hm c
    ⟨hc, rfl⟩ hcpc out0 k with
    ⟨k', -, n, m1, q, a, e, h1, -, -, bb, hbb, j, m2, i, hi, -, h2, h3, h4⟩ | ⟨n, m1, x, h1, h2, h3, -⟩
  · left
    have h5 : (G.traced slide at').run code slide (n + j) (m, c.mem.2) = some m2 := by
      rw [run_add, h1]; exact h2
    rw [traced_run] at h5
    obtain ⟨m3, h6, rfl⟩ := Option.map_eq_some_iff.1 h5
    refine ⟨n + j, m3, i, body_insts H hl hbb i (List.mem_of_getElem? hi), h6, h3, ?_⟩
    simpa [Guest.traced] using h4
  · right
    rw [hret] at h2
    cases h2
    rw [traced_run] at h1
    obtain ⟨m3, h6, rfl⟩ := Option.map_eq_some_iff.1 h1
    exact ⟨n, m3, h6, h3.2, h3.1.1, h3.1.2⟩

theorem Blind.mark {undef : V → Prop} {L : Lifter P R V M} (h : Blind undef L) (slide : BitVec 64)
    (at' : Inst P → Addr) : Blind undef (L.mark slide at') := by
  intro i g hg
  rcases List.mem_cons.1 hg with hg | hg
  · cases hg
  obtain ⟨it, hit, he⟩ := List.mem_map.1 hg
  cases it with
  | upd f d => cases he
  | call f =>
    cases he
    rintro ⟨r1, p1, μ1, w1⟩ ⟨r2, p2, μ2, w2⟩ d ⟨h1, h2, h3⟩ hf
    cases h1; cases h2
    obtain ⟨t, ht, rfl⟩ := Option.map_eq_some_iff.1 hf
    exact Option.map_eq_some_iff.2 ⟨t, h i f hit ⟨r1, p1, μ1⟩ ⟨r2, p1, μ1⟩ t ⟨rfl, rfl, h3⟩ ht, rfl⟩

/-! ### The marker has no other effect -/

/-- Add a log to a state. -/
def St.log (w : List (BitVec 64)) (s : St R V M) : St R V (M × List (BitVec 64)) :=
  ⟨s.regs, (s.mem, w), s.pc⟩

/-- Add a log to a configuration. -/
def Cfg.log (w : List (BitVec 64)) : Cfg R V M → Cfg R V (M × List (BitVec 64))
  | .at b s => .at b (s.log w)
  | .done v c => .done v ⟨c.slot, c.pc, (c.mem, w)⟩

theorem items_log {slide : BitVec 64} (is : List (Item R V M)) (w : List (BitVec 64)) :
    ∀ s : St R V M, execItems slide (is.map Item.withLog) (s.log w)
      = (execItems slide is s).map (St.log w) := by
  induction is with
  | nil => intro s; rfl
  | cons it is ih =>
    intro s
    simp only [List.map_cons, execItems]
    have : execItem slide (s.log w) it.withLog = (execItem slide s it).map (St.log w) := by
      cases it with
      | upd f d =>
        show (f s).map _ = (f s).map _
        cases f s <;> rfl
      | call g =>
        show ((g (s.pack slide)).map _).map _ = ((g (s.pack slide)).map _).map _
        cases g (s.pack slide) <;> rfl
    rw [this]
    cases execItem slide s it with
    | none => rfl
    | some s1 => exact ih s1

theorem body_log {L : Lifter P R V M} {slide : BitVec 64} {at' : Inst P → Addr} (is : List (Inst P)) :
    ∀ (w : List (BitVec 64)) (s : St R V M), execBody (L.mark slide at') slide is (s.log w)
      = (execBody L slide is s).map (St.log (w ++ is.map (fun i => at' i + slide))) := by
  induction is with
  | nil => intro w s; simp [execBody]
  | cons i is ih =>
    intro w s
    have h1 : execInst (L.mark slide at') slide i (s.log w)
        = (execInst L slide i s).map (St.log (w ++ [at' i + slide])) :=
      items_log (L.items i) (w ++ [at' i + slide]) { s with pc := .const (L.startPc i) }
    simp only [execBody, h1]
    cases execInst L slide i s with
    | none => rfl
    | some s1 => simp [ih]

/-- The marker function is called for the instructions of the executed block. -/
def marks (g : Graph P) (slide : BitVec 64) (at' : Inst P → Addr) : Cfg R V M → List (BitVec 64)
  | .at .exit _ | .done _ _ => []
  | .at b _ => ((g b).map (fun bb => bb.body.map (fun i => at' i + slide))).getD []

theorem step_log {L : Lifter P R V M} {slide : BitVec 64} {at' : Inst P → Addr} (g : Graph P)
    (w : List (BitVec 64)) (c : Cfg R V M) : stepBlock (L.mark slide at') slide g (c.log w)
      = (stepBlock L slide g c).map (Cfg.log (w ++ marks g slide at' c)) := by
  cases c with
  | done v c => simp [stepBlock, Cfg.log, marks]
  | «at» b s =>
    have key : ∀ b, b ≠ .exit → stepBlock (L.mark slide at') slide g (.at b (s.log w))
      = (stepBlock L slide g (.at b s)).map (Cfg.log (w ++
          ((g b).map (fun bb => bb.body.map (fun i => at' i + slide))).getD [])) := by
      intro b hb
      cases b with
      | exit => exact absurd rfl hb
      | _ =>
        simp only [stepBlock]
        split
        · rfl
        next bb hbb =>
          rw [body_log, hbb]
          cases execBody L slide bb.body s with
          | none => rfl
          | some s1 =>
            simp only [Option.map_some, Option.getD_some]
            cases bb.term with
            | none => dsimp only; split <;> rfl
            | some t =>
              dsimp only
              show (t.next slide s1.pc).map _ = ((t.next slide s1.pc).map _).map _
              cases t.next slide s1.pc <;> rfl
    cases b with
    | exit => simp [stepBlock, Cfg.log, marks, St.log, St.pack]
    | entry => exact key _ (by simp)
    | «at» a => exact key _ (by simp)

/-- The calls of the marker function while `k` blocks are executed: all instructions of the blocks that
the code without a marker visits. -/
def runMarks (L : Lifter P R V M) (slide : BitVec 64) (g : Graph P) (at' : Inst P → Addr) :
    Nat → Cfg R V M → List (BitVec 64)
  | 0, _ => []
  | k + 1, c => marks g slide at' c ++
      match stepBlock L slide g c with
      | some c' => runMarks L slide g at' k c'
      | none => []

/-- C58: a marker function changes nothing else, for any code and any state, also where the code has
undefined behaviour, and it is called exactly for the instructions of the blocks that are executed.
(Stated for the flat execution; `C14_ssa_partial` transfers it to the optimized SSA form.) -/
theorem C58_unchanged (L : Lifter P R V M) (slide : BitVec 64) (at' : Inst P → Addr) (g : Graph P) (k : Nat)
    (c : Cfg R V M) (w : List (BitVec 64)) :
    runBlocks (L.mark slide at') slide g k (c.log w)
      = (runBlocks L slide g k c).map (Cfg.log (w ++ runMarks L slide g at' k c)) := by
  induction k generalizing c w with
  | zero => simp [runBlocks, runMarks]
  | succ k ih =>
    simp only [runBlocks, step_log, runMarks]
    cases stepBlock L slide g c with
    | none => rfl
    | some c1 => simp [ih, List.append_assoc]

end Verif.Lift
