import Verif.CpuStruct.Lemmas

/-!
C16, C17: layout of the CPU struct, and entry/exit round trip in terms of its bytes.
-/

namespace Verif.CpuStruct

open Verif.IR

/-! ### C16 -/

/-- Two byte ranges do not overlap. -/
def Apart (f g : Field) : Prop := ∀ x, ¬ (f.off ≤ x ∧ x < f.off + f.size ∧ g.off ≤ x ∧ x < g.off + g.size)

/-- C16: whatever description the parser accepts, the fields it lays out do not overlap, are not empty,
are naturally aligned and lie inside the struct; and they leave no gap: the size is the sum of the
sizes. -/
theorem C16_layout {ds : List Desc} {fs : List Field} {total : Nat}
    (h : layout 0 ds = some (fs, total)) :
    fs.Pairwise Apart ∧ (∀ f ∈ fs, 0 < f.size ∧ f.off % f.size = 0 ∧ f.off + f.size ≤ total) ∧
    fs.map (·.toDesc) = ds ∧ total = (ds.map (·.size)).sum := by
  obtain ⟨-, h2, h3, h4, h5⟩ := layout_bounds ds 0 fs total h
  refine ⟨h3.imp ?_, fun f hf => ?_, h4, by omega⟩
  · intro f g hfg x; omega
  · have := h2 f hf; omega

/-- C16: the parser rejects exactly the descriptions with a misaligned or empty entry. -/
theorem C16_rejects (ds : List Desc) (o : Nat) : layout o ds = none ↔
    ∃ pre d post, ds = pre ++ d :: post ∧
      (d.size = 0 ∨ (o + (pre.map (·.size)).sum) % d.size ≠ 0) := by
  induction ds generalizing o with
  | nil => simp [layout]
  | cons d ds ih =>
    simp only [layout]
    constructor
    · intro h
      split at h
      next h0 => exact ⟨[], d, ds, rfl, .inl h0⟩
      next h0 =>
        split at h
        next h1 => exact ⟨[], d, ds, rfl, .inr (by simpa using h1)⟩
        next h1 =>
          obtain ⟨pre, e, post, rfl, he⟩ := (ih (o + d.size)).1 (Option.map_eq_none_iff.1 h)
          refine ⟨d :: pre, e, post, rfl, ?_⟩
          simpa [Nat.add_assoc] using he
    · rintro ⟨pre, e, post, heq, he⟩
      split
      · rfl
      next h0 =>
        split
        · rfl
        next h1 =>
          rw [Option.map_eq_none_iff]
          cases pre with
          | nil =>
            simp only [List.nil_append, List.cons.injEq] at heq
            obtain ⟨rfl, rfl⟩ := heq
            simp only [List.map_nil, List.sum_nil, Nat.add_zero] at he
            rcases he with he | he
            · exact absurd he h0
            · exact absurd he h1
          | cons p pre =>
            simp only [List.cons_append, List.cons.injEq] at heq
            obtain ⟨rfl, rfl⟩ := heq
            refine (ih (o + d.size)).2 ⟨pre, e, post, rfl, ?_⟩
            simpa [Nat.add_assoc] using he

/-- The guest registers of an architecture and how they are called in the struct. -/
structure Spec where
  pcName : String
  gps : List String
  vecs : List String
  /-- Names of the flag fields and their register number. -/
  flags : List (String × Nat)
  vecBytes : Nat
  size : Nat

def Spec.x86 : Spec where
  pcName := "rip"
  gps := ["rax", "rcx", "rdx", "rbx", "rsp", "rbp", "rsi", "rdi", "r8", "r9", "r10", "r11", "r12",
    "r13", "r14", "r15"]
  vecs := (List.range 16).map (fun i => "xmm" ++ toString i)
  flags := [("zf", 0), ("sf", 1), ("pf", 2), ("cf", 3), ("of", 4), ("af", 5), ("df", 6)]
  vecBytes := 16
  size := 416

def Spec.rv64 : Spec where
  pcName := "rip"
  gps := (List.range 32).map (fun i => "x" ++ toString i)
  vecs := (List.range 32).map (fun i => "f" ++ toString i)
  flags := []
  vecBytes := 8
  size := 520

def Spec.a64 : Spec where
  pcName := "pc"
  gps := (List.range 31).map (fun i => "x" ++ toString i) ++ ["sp"]
  vecs := (List.range 32).map (fun i => "v" ++ toString i)
  flags := [("z", 0), ("n", 1), ("c", 3), ("v", 4)]
  vecBytes := 16
  size := 800

/-- The struct of an architecture is sound: see the fields. -/
structure Sound (ds : List Desc) (a : Spec) : Prop where
  /-- The parser accepts the description; the struct has the expected size, which covers the size that
  LLVM is told to be dereferenceable. -/
  size : ∃ fs, layout 0 ds = some (fs, a.size)
  deref : paramDeref ≤ a.size
  /-- The program counter is at offset 0 and has 64 bits. -/
  pc : ∀ fs, layout 0 ds = some (fs, a.size) →
    fs.head? = some ⟨⟨some a.pcName, 8, some (.invalid, .I64), true⟩, 0⟩
  /-- Every general purpose register has its own 8 bytes, with the right name. -/
  gp : ∀ fs, layout 0 ds = some (fs, a.size) → ∀ i n, a.gps[i]? = some n →
    ∃ f ∈ fs, f.name = some n ∧ f.reg = some (.gp i, .I64) ∧ f.size = 8
  vec : ∀ fs, layout 0 ds = some (fs, a.size) → ∀ i n, a.vecs[i]? = some n →
    ∃ f ∈ fs, f.name = some n ∧ (∃ fc, f.reg = some (.vec i, fc)) ∧ f.size = a.vecBytes
  flag : ∀ fs, layout 0 ds = some (fs, a.size) → ∀ n i, (n, i) ∈ a.flags →
    ∃ f ∈ fs, f.name = some n ∧ (∃ fc, f.reg = some (.flag i, fc)) ∧ f.size = 1
  /-- There are no other registers, and no register is in two fields. -/
  only : ∀ d ∈ ds, ∀ r fc, d.reg = some (r, fc) → match r with
    | .invalid => True
    | .gp i => i < a.gps.length
    | .vec i => i < a.vecs.length
    | .flag i => ∃ n, (n, i) ∈ a.flags
  distinct : ds.Pairwise (fun d e => ∀ r fc fc', d.reg = some (r, fc) → e.reg = some (r, fc') →
    r = .invalid)
  names : ds.Pairwise (fun d e => ∀ n, d.name = some n → e.name ≠ some n)
  /-- The type used for the register occupies exactly the bytes of the field, and the field is aligned
  for any CPU struct pointer with the promised alignment. -/
  types : ∀ d ∈ ds, ∀ r fc, d.reg = some (r, fc) → fc.bytes = d.size
  align : ∀ d ∈ ds, paramAlign % d.size = 0
  /-- Dirty sets: every register has its own bit. -/
  bits : ∀ d ∈ ds, ∀ r fc, d.reg = some (r, fc) → r ≠ .invalid → ∃ b, bitIdx r = some b ∧ b < setSize
  bitsInj : ds.Pairwise (fun d e => ∀ r fc r' fc', d.reg = some (r, fc) → e.reg = some (r', fc') →
    r ≠ .invalid → bitIdx r ≠ bitIdx r')

/-- Decision procedure for `Sound`, evaluated by the kernel on the three complete tables. -/
def soundB (ds : List Desc) (a : Spec) : Bool :=
  match layout 0 ds with
  | none => false
  | some (fs, t) =>
    decide (t = a.size) && decide (paramDeref ≤ a.size) &&
    decide (fs.head? = some ⟨⟨some a.pcName, 8, some (.invalid, .I64), true⟩, 0⟩) &&
    (a.gps.zipIdx.all fun (n, i) => fs.any fun f =>
      decide (f.name = some n) && decide (f.reg = some (.gp i, .I64)) && decide (f.size = 8)) &&
    (a.vecs.zipIdx.all fun (n, i) => fs.any fun f =>
      decide (f.name = some n) && decide (f.reg.map (·.1) = some (.vec i)) &&
        decide (f.size = a.vecBytes)) &&
    (a.flags.all fun (n, i) => fs.any fun f =>
      decide (f.name = some n) && decide (f.reg.map (·.1) = some (.flag i)) && decide (f.size = 1)) &&
    (ds.all fun d => match d.reg with
      | none => true
      | some (.invalid, fc) => decide (fc.bytes = d.size)
      | some (.gp i, fc) => decide (i < a.gps.length) && decide (fc.bytes = d.size) && decide (8 + i < 128)
      | some (.vec i, fc) => decide (i < a.vecs.length) && decide (fc.bytes = d.size) && decide (40 + i < 128)
      | some (.flag i, fc) => (a.flags.any fun (_, j) => decide (j = i)) && decide (fc.bytes = d.size) &&
          decide (1 + i < 128)) &&
    (ds.all fun d => decide (paramAlign % d.size = 0)) &&
    decide ((ds.filterMap (fun d => d.reg.bind (fun p => bitIdx p.1))).Nodup) &&
    decide ((ds.filterMap (·.name)).Nodup)

theorem sound_of (ds : List Desc) (a : Spec) (h : soundB ds a = true) : Sound ds a := by
  unfold soundB at h
  split at h
  · cases h
  next fs t hl =>
    simp only [Bool.and_eq_true, decide_eq_true_eq] at h
    obtain ⟨⟨⟨⟨⟨⟨⟨⟨⟨rfl, hderef⟩, hpc⟩, hgp⟩, hvec⟩, hflag⟩, hall⟩, halign⟩, hbits⟩, hnames⟩ := h
    simp only [List.all_eq_true, List.any_eq_true, Bool.and_eq_true, decide_eq_true_eq,
      Option.map_eq_some_iff] at hgp hvec hflag hall halign
    have huniq : ∀ fs', layout 0 ds = some (fs', a.size) → fs' = fs := by
      intro fs' h'; rw [hl] at h'; cases h'; rfl
    have hpair : ds.Pairwise (fun d e => ∀ r fc r' fc', d.reg = some (r, fc) → e.reg = some (r', fc') →
        r ≠ .invalid → bitIdx r ≠ bitIdx r') := by
      have := List.pairwise_filterMap.1 hbits
      refine this.imp ?_
      intro d e hde r fc r' fc' hr hr' hne heq
      cases hb : bitIdx r with
      | none => cases r <;> simp_all [bitIdx]
      | some b =>
        refine hde b (by rw [hr]; exact hb) b (by rw [hr']; simp [← heq, hb]) rfl
    refine ⟨⟨fs, hl⟩, hderef, ?_, ?_, ?_, ?_, ?_, ?_, ?_, ?_, halign, ?_, hpair⟩
    · intro fs' h'; rw [huniq fs' h']; exact hpc
    · intro fs' h' i n hi
      rw [huniq fs' h']
      obtain ⟨f, h1, ⟨h2, h3⟩, h4⟩ := hgp (n, i) (List.mem_zipIdx_iff_getElem?.2 (by simpa using hi))
      exact ⟨f, h1, h2, h3, h4⟩
    · intro fs' h' i n hi
      rw [huniq fs' h']
      obtain ⟨f, h1, ⟨h2, ⟨⟨r, fc⟩, h3, h3'⟩⟩, h4⟩ :=
        hvec (n, i) (List.mem_zipIdx_iff_getElem?.2 (by simpa using hi))
      refine ⟨f, h1, h2, ⟨fc, ?_⟩, h4⟩
      rw [h3]; simp only at h3'; rw [h3']
    · intro fs' h' n i hi
      rw [huniq fs' h']
      obtain ⟨f, h1, ⟨h2, ⟨⟨r, fc⟩, h3, h3'⟩⟩, h4⟩ := hflag (n, i) hi
      refine ⟨f, h1, h2, ⟨fc, ?_⟩, h4⟩
      rw [h3]; simp only at h3'; rw [h3']
    · intro d hd r fc hr
      have := hall d hd
      rw [hr] at this
      cases r with
      | invalid => trivial
      | gp i => simp only [Bool.and_eq_true, decide_eq_true_eq] at this; exact this.1.1
      | vec i => simp only [Bool.and_eq_true, decide_eq_true_eq] at this; exact this.1.1
      | flag i =>
        simp only [Bool.and_eq_true, decide_eq_true_eq, List.any_eq_true] at this
        obtain ⟨⟨⟨⟨n, j⟩, h1, rfl⟩, -⟩, -⟩ := this
        exact ⟨n, h1⟩
    · refine hpair.imp ?_
      intro d e hde r fc fc' hr hr'
      cases r with
      | invalid => rfl
      | gp i => exact absurd rfl (hde _ _ _ _ hr hr' (by simp))
      | vec i => exact absurd rfl (hde _ _ _ _ hr hr' (by simp))
      | flag i => exact absurd rfl (hde _ _ _ _ hr hr' (by simp))
    · refine (List.pairwise_filterMap.1 hnames).imp ?_
      intro d e hde n hn hn'
      exact hde n hn n hn' rfl
    · intro d hd r fc hr
      have := hall d hd
      rw [hr] at this
      cases r <;> simp only [Bool.and_eq_true, decide_eq_true_eq] at this
      · exact this
      all_goals exact this.1.2
    · intro d hd r fc hr hne
      have := hall d hd
      rw [hr] at this
      cases r with
      | invalid => exact absurd rfl hne
      | _ => simp only [Bool.and_eq_true, decide_eq_true_eq] at this; exact ⟨_, rfl, this.2⟩

/-- C16 for x86-64. -/
theorem C16_x86 : Sound x86Desc .x86 := sound_of _ _ (by decide +kernel)

/-- C16 for RISC-V. -/
theorem C16_rv64 : Sound rvDesc .rv64 := sound_of _ _ (by decide +kernel)

/-- C16 for AArch64. -/
theorem C16_a64 : Sound a64Desc .a64 := sound_of _ _ (by decide +kernel)

/-- A description with a misaligned entry is rejected. -/
example : layout 0 [⟨some "a", 8, none, false⟩, ⟨some "b", 1, none, false⟩,
    ⟨some "c", 8, none, false⟩] = none := by decide

/-! ### C17 -/

theorem entriesFrom_mem {fs : List Field} : ∀ {n : Nat} {e : Entry}, e ∈ entriesFrom n fs →
    n ≤ e.idx ∧ ∃ f ∈ fs, f.off = e.off ∧ f.reg = some (e.reg, e.facet) := by
  induction fs with
  | nil => intro n e h; cases h
  | cons f fs ih =>
    intro n e h
    simp only [entriesFrom] at h
    split at h
    next r fc hr =>
      rcases List.mem_cons.1 h with rfl | h
      · exact ⟨Nat.le_refl _, f, List.mem_cons_self, rfl, hr⟩
      · obtain ⟨h1, g, h2, h3⟩ := ih h
        exact ⟨by omega, g, List.mem_cons_of_mem _ h2, h3⟩
    · obtain ⟨h1, g, h2, h3⟩ := ih h
      exact ⟨h1, g, List.mem_cons_of_mem _ h2, h3⟩

theorem entriesFrom_length (fs : List Field) : ∀ (n : Nat) (e : Entry), e ∈ entriesFrom n fs →
    e.idx < n + (entriesFrom n fs).length := by
  induction fs with
  | nil => intro n e h; cases h
  | cons f fs ih =>
    intro n e h
    simp only [entriesFrom] at h ⊢
    split at h
    · rcases List.mem_cons.1 h with rfl | h
      · simp
      · have := ih _ e h; simp only [List.length_cons]; omega
    · exact ih _ e h

/-- The pointer vector is large enough for every index (/repo/src/callconv.cc:182-185). -/
theorem C16_pointer_index (fs : List Field) (e : Entry) (h : e ∈ entries fs) :
    e.idx < (entries fs).length := by
  have := entriesFrom_length fs 0 e h
  simpa [entries] using this

theorem pairwise_sym {α : Type} {R : α → α → Prop} (hs : ∀ x y, R x y → R y x) {l : List α}
    (h : l.Pairwise R) : ∀ x ∈ l, ∀ y ∈ l, x ≠ y → R x y := by
  induction h with
  | nil => intro x hx; cases hx
  | @cons a l ha _ ih =>
    intro x hx y hy hne
    rcases List.mem_cons.1 hx with rfl | hx1 <;> rcases List.mem_cons.1 hy with rfl | hy1
    · exact absurd rfl hne
    · exact ha y hy1
    · exact hs _ _ (ha x hx1)
    · exact ih x hx1 y hy1 hne

/-- The table of a sound struct is good for packing. -/
theorem good_of {ds : List Desc} {a : Spec} (S : Sound ds a) {fs : List Field}
    (h : layout 0 ds = some (fs, a.size)) : Good (entries fs) := by
  obtain ⟨-, h2, h3, h4, -⟩ := layout_bounds ds 0 fs a.size h
  have htypes : ∀ f ∈ fs, ∀ r fc, f.reg = some (r, fc) → fc.bytes = f.size := by
    intro f hf r fc hr
    exact S.types f.toDesc (by rw [← h4]; exact List.mem_map_of_mem hf) r fc hr
  have hpw : ∀ (fs : List Field) (n : Nat), (∀ f ∈ fs, ∀ r fc, f.reg = some (r, fc) → fc.bytes = f.size) →
      fs.Pairwise (fun f g => f.off + f.size ≤ g.off) →
      (entriesFrom n fs).Pairwise (fun e e' => e.off + e.facet.bytes ≤ e'.off ∧ e ≠ e') := by
    intro fs
    induction fs with
    | nil => intro n _ _; exact List.Pairwise.nil
    | cons f fs ih =>
      intro n ht hp
      obtain ⟨hp1, hp2⟩ := List.pairwise_cons.1 hp
      have ht' := fun g hg => ht g (List.mem_cons_of_mem _ hg)
      simp only [entriesFrom]
      split
      next r fc hr =>
        refine List.pairwise_cons.2 ⟨?_, ih _ ht' hp2⟩
        intro e he
        obtain ⟨hi, g, hg, ho, -⟩ := entriesFrom_mem he
        refine ⟨?_, ?_⟩
        · have := hp1 g hg
          have := ht f List.mem_cons_self r fc hr
          simp only; omega
        · rintro rfl; simp only at hi; omega
      · exact ih _ ht' hp2
  have P := hpw fs 0 htypes h3
  refine ⟨?_, ?_, ?_⟩
  · have : (entries fs).Pairwise (fun e e' =>
        e.off + e.facet.bytes ≤ e'.off ∨ e'.off + e'.facet.bytes ≤ e.off) := P.imp (fun h => .inl h.1)
    intro e he e' he' hne
    exact pairwise_sym (fun _ _ h => h.symm) this e he e' he' hne
  · intro e he hne
    obtain ⟨-, f, hf, ho, hr⟩ := entriesFrom_mem he
    have hhead := S.pc fs h
    cases fs with
    | nil => cases hf
    | cons f0 fs =>
      simp only [List.head?_cons, Option.some.injEq] at hhead
      subst hhead
      rcases List.mem_cons.1 hf with rfl | hf'
      · simp only [Option.some.injEq, Prod.mk.injEq] at hr
        exact absurd hr.1.symm hne
      · have := (List.pairwise_cons.1 h3).1 f hf'
        simp only at this; omega
  · exact P.imp (fun h => h.2)

variable {ds : List Desc} {a : Spec} {fs : List Field}

/-- C17: what the struct contains after the registers selected by `sel` (and the program counter) have
been stored, as seen by loads of all registers: the selected registers have the new values, the others
and the fields that are not registers (segment bases, thread pointer) what they had before.  Together
with `Verif.Lift.Rt.pack`, which is this law, this justifies treating the struct as one slot per
register. -/
theorem C17_pack (S : Sound ds a) (h : layout 0 ds = some (fs, a.size)) (sel : Entry → Bool)
    (pc : Val 64) (vals : Vals) (m : Bytes) :
    unpackPc (pack (entries fs) sel pc vals m) = pc ∧
    ∀ e ∈ entries fs, 8 ≤ e.off →
      unpack (pack (entries fs) sel pc vals m) e =
        if e.reg ≠ .invalid ∧ sel e then vals e else unpack m e := by
  have G := good_of S h
  refine ⟨?_, ?_⟩
  · rw [unpackPc, pack, load_congr .I64 _ (store .I64 m 0 pc)]
    · exact load_store .I64 m 0 pc
    · intro x h1 h2
      apply packRegs_out
      intro e he hne _
      have := G.pc e he hne
      simp only [Facet.bytes] at h2; omega
  · intro e he ho
    rw [unpack, pack, packRegs_load sel vals (entries fs) _ G.apart G.nodup e he]
    split
    · rfl
    · apply load_congr
      intro x h1 h2
      apply store_out
      simp only [Facet.bytes]; omega

/-- C17: no byte outside the program counter and the fields of the selected registers changes; in
particular padding, segment bases and everything behind the struct. -/
theorem C17_frame (sel : Entry → Bool) (pc : Val 64) (vals : Vals) (m : Bytes) (x : Nat) (hx : 8 ≤ x)
    (h : ∀ e ∈ entries fs, e.reg ≠ .invalid → sel e = true → ¬ (e.off ≤ x ∧ x < e.off + e.facet.bytes)) :
    pack (entries fs) sel pc vals m x = m x := by
  rw [pack, packRegs_out]
  · exact store_out _ _ _ _ _ (.inr hx)
  · intro e he h1 h2
    have := h e he h1 h2
    omega

/-- C17: the struct is never written outside its bounds. -/
theorem C17_inside (S : Sound ds a) (h : layout 0 ds = some (fs, a.size)) (sel : Entry → Bool)
    (pc : Val 64) (vals : Vals) (m : Bytes) (x : Nat) (hx : a.size ≤ x) :
    pack (entries fs) sel pc vals m x = m x := by
  have h400 : 8 ≤ x := Nat.le_trans (Nat.le_trans (by decide) S.deref) hx
  apply C17_frame _ _ _ _ _ h400
  intro e he _ _
  obtain ⟨-, f, hf, ho, hr⟩ := entriesFrom_mem he
  obtain ⟨-, h2, -, h4, -⟩ := layout_bounds ds 0 fs a.size h
  have := h2 f hf
  have := S.types f.toDesc (by rw [← h4]; exact List.mem_map_of_mem hf) _ _ hr
  omega

/-- C17: loading all registers and storing them again is the identity on the struct, if the registers'
bytes are initialised and the flags are 0 or 1. -/
theorem C17_identity (m : Bytes) (hpc : FieldOK .I64 m 0)
    (hf : ∀ e ∈ entries fs, e.reg ≠ .invalid → FieldOK e.facet m e.off) (sel : Entry → Bool) :
    pack (entries fs) sel (unpackPc m) (unpack m) m = m := by
  rw [pack, unpackPc, store_load .I64 m 0 hpc]
  have : ∀ (es : List Entry), (∀ e ∈ es, e.reg ≠ .invalid → FieldOK e.facet m e.off) →
      packRegs sel (unpack m) es m = m := by
    intro es
    induction es with
    | nil => intro _; rfl
    | cons e es ih =>
      intro h
      simp only [packRegs]
      split
      next hs =>
        rw [unpack, store_load _ _ _ (h e List.mem_cons_self hs.1)]
        exact ih (fun e' he' => h e' (List.mem_cons_of_mem _ he'))
      · exact ih (fun e' he' => h e' (List.mem_cons_of_mem _ he'))
  exact this _ hf

/-- The restriction on flags is needed: a flag byte 2 is not preserved, its value is not defined. -/
theorem C17_flag_byte_counterexample : ∃ (m : Bytes) (e : Entry), e.facet = .I1 ∧
    (∀ x, (m x).isSome) ∧ store e.facet m e.off (load e.facet m e.off) ≠ m := by
  refine ⟨fun _ => some 2#8, ⟨0, 8, .flag 0, .I1⟩, rfl, fun _ => rfl, ?_⟩
  intro h
  have := congrFun h 8
  revert this
  decide

/-- The hypotheses are met: a struct of 416 bytes of zeroes. -/
example : ∃ fs, layout 0 x86Desc = some (fs, 416) ∧ (entries fs).length = 42 ∧
    (∀ e ∈ entries fs, e.reg ≠ .invalid → FieldOK e.facet (fun _ => some 0#8) e.off) := by
  obtain ⟨fs, h⟩ := C16_x86.size
  refine ⟨fs, h, ?_, ?_⟩
  · have h2 : (layout 0 x86Desc).map (fun p => (entries p.1).length) = some 42 := by decide +kernel
    rw [h] at h2
    simpa using h2
  · intro e _ _
    unfold FieldOK
    split
    · exact .inl rfl
    · intro _ _ _; rfl

end Verif.CpuStruct
