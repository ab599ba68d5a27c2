import Verif.CpuStruct.Tables

/-! Lemmas about the parser and about bytes of the CPU struct. -/

namespace Verif.CpuStruct

open Verif.IR

theorem layout_bounds : ∀ (ds : List Desc) (o : Nat) (fs : List Field) (t : Nat),
    layout o ds = some (fs, t) →
    o ≤ t ∧ (∀ f ∈ fs, 0 < f.size ∧ o ≤ f.off ∧ f.off + f.size ≤ t ∧ f.off % f.size = 0) ∧
    fs.Pairwise (fun f g => f.off + f.size ≤ g.off) ∧ fs.map (·.toDesc) = ds ∧
    t = o + (ds.map (·.size)).sum := by
  intro ds
  induction ds with
  | nil =>
    intro o fs t h
    simp only [layout, Option.some.injEq, Prod.mk.injEq] at h
    obtain ⟨rfl, rfl⟩ := h
    simp
  | cons d ds ih =>
    intro o fs t h
    simp only [layout] at h
    split at h
    · cases h
    next h0 =>
      split at h
      · cases h
      next h1 =>
        obtain ⟨⟨gs, t'⟩, hl, he⟩ := Option.map_eq_some_iff.1 h
        simp only [Prod.mk.injEq] at he
        obtain ⟨rfl, rfl⟩ := he
        obtain ⟨k1, k2, k3, k4, k5⟩ := ih _ _ _ hl
        refine ⟨by omega, ?_, ?_, ?_, ?_⟩
        · intro f hf
          rcases List.mem_cons.1 hf with rfl | hf
          · refine ⟨?_, ?_, ?_, ?_⟩ <;> simp only <;> omega
          · have := k2 f hf; omega
        · refine List.pairwise_cons.2 ⟨?_, k3⟩
          intro g hg
          have := k2 g hg
          simp only; omega
        · simp [k4]
        · simp only [List.map_cons, List.sum_cons]; omega

theorem readB_congr (m m' : Bytes) (n : Nat) : ∀ (o : Nat), (∀ x, o ≤ x → x < o + n → m x = m' x) →
    readB m o n = readB m' o n := by
  induction n with
  | zero => intro o _; rfl
  | succ n ih =>
    intro o h
    simp only [readB]
    rw [ih (o + 1) (fun x h1 h2 => h x (by omega) (by omega)), h o (by omega) (by omega)]

/-- Bytes of a defined value. -/
theorem readB_of_bytes (m : Bytes) (n : Nat) : ∀ (o : Nat) (v : BitVec (8 * n)),
    (∀ x, o ≤ x → x < o + n → m x = some (v.extractLsb' (8 * (x - o)) 8)) →
    readB m o n = some v := by
  induction n with
  | zero => intro o v _; simp only [readB, Option.some.injEq]; exact (BitVec.of_length_zero (x := v)).symm
  | succ n ih =>
    intro o v h
    simp only [readB]
    rw [ih (o + 1) (v.extractLsb' 8 (8 * n)) ?_, h o (by omega) (by omega)]
    · simp only [bin, Option.some.injEq]
      apply BitVec.eq_of_getLsbD_eq
      intro i hi
      rw [BitVec.getLsbD_append]
      split
      · simp only [BitVec.getLsbD_extractLsb']
        simp [*]
      · simp only [BitVec.getLsbD_extractLsb']
        have hi' : i < 8 * n + 8 := hi
        have : i - 8 < 8 * n := by omega
        simp only [this, decide_true, Bool.true_and]
        congr 1; omega
    · intro x h1 h2
      rw [h x (by omega) (by omega)]
      congr 1
      apply BitVec.eq_of_getLsbD_eq
      intro i hi
      simp only [BitVec.getLsbD_extractLsb', hi, decide_true, Bool.true_and]
      have : 8 * (x - (o + 1)) + i < 8 * n := by omega
      simp only [this, decide_true, Bool.true_and]
      congr 1; omega

/-- A read containing a poison byte is poison. -/
theorem readB_none (m : Bytes) (n : Nat) : ∀ (o x : Nat), o ≤ x → x < o + n → m x = none →
    readB m o n = none := by
  induction n with
  | zero => intro o x h1 h2; omega
  | succ n ih =>
    intro o x h1 h2 h
    simp only [readB]
    by_cases hx : x = o
    · subst hx; rw [h]; cases readB m (x + 1) n <;> rfl
    · rw [ih (o + 1) x (by omega) (by omega) h]; rfl

theorem writeB_out (m : Bytes) (o n : Nat) (v : Val (8 * n)) (x : Nat) (h : ¬ (o ≤ x ∧ x < o + n)) :
    writeB m o n v x = m x := by simp only [writeB, h, if_false]

theorem read_writeB (m : Bytes) (o n : Nat) (hn : 0 < n) (v : Val (8 * n)) :
    readB (writeB m o n v) o n = v := by
  cases v with
  | none => exact readB_none _ n o o (by omega) (by omega) (by simp [writeB, hn, un])
  | some v =>
    apply readB_of_bytes
    intro x h1 h2
    simp [writeB, h1, h2, un]

/-- Reading defined bytes and writing them back changes nothing. -/
theorem write_readB (m : Bytes) (o n : Nat) (hd : ∀ x, o ≤ x → x < o + n → (m x).isSome) :
    writeB m o n (readB m o n) = m := by
  have key : ∀ (n o : Nat), (∀ x, o ≤ x → x < o + n → (m x).isSome) →
      ∃ v, readB m o n = some v ∧ ∀ x, o ≤ x → x < o + n → m x = some (v.extractLsb' (8 * (x - o)) 8) := by
    intro n
    induction n with
    | zero => intro o _; exact ⟨0#0, rfl, fun x h1 h2 => by omega⟩
    | succ n ih =>
      intro o h
      obtain ⟨v, hv, hb⟩ := ih (o + 1) (fun x h1 h2 => h x (by omega) (by omega))
      obtain ⟨b, hb0⟩ := Option.isSome_iff_exists.1 (h o (by omega) (by omega))
      refine ⟨v ++ b, by simp only [readB, hv, hb0, bin], ?_⟩
      intro x h1 h2
      by_cases hx : x = o
      · subst hx
        rw [hb0]; congr 1
        apply BitVec.eq_of_getLsbD_eq
        intro i hi
        simp only [BitVec.getLsbD_extractLsb', BitVec.getLsbD_append]
        simp [hi]
      · rw [hb x (by omega) (by omega)]; congr 1
        apply BitVec.eq_of_getLsbD_eq
        intro i hi
        simp only [BitVec.getLsbD_extractLsb', BitVec.getLsbD_append, hi, decide_true, Bool.true_and]
        have : ¬ 8 * (x - o) + i < 8 := by omega
        simp only [this]
        congr 1; omega
  obtain ⟨v, hv, hb⟩ := key n o hd
  funext x
  simp only [writeB, hv, un]
  split
  next h => rw [hb x h.1 h.2]
  · rfl

theorem store_out (f : Facet) (m : Bytes) (o : Nat) (v : Val f.bits) (x : Nat)
    (h : x < o ∨ o + f.bytes ≤ x) : store f m o v x = m x := by
  cases f <;> simp only [store, Facet.bytes] at * <;> exact writeB_out _ _ _ _ _ (by omega)

theorem load_congr (f : Facet) (m m' : Bytes) (o : Nat)
    (h : ∀ x, o ≤ x → x < o + f.bytes → m x = m' x) : load f m o = load f m' o := by
  cases f <;> simp only [load, Facet.bytes] at * <;> rw [readB_congr _ _ _ _ h]

theorem load_store (f : Facet) (m : Bytes) (o : Nat) (v : Val f.bits) : load f (store f m o v) o = v := by
  cases f with
  | I1 =>
    simp only [load, store]
    rw [read_writeB _ _ _ (by omega)]
    cases v with
    | none => rfl
    | some v =>
      have h : ∀ v : BitVec 1, (Option.bind (un (fun b => b.setWidth 8) (some v) : Val 8)
        (fun b => if b = 0#8 then some 0#1 else if b = 1#8 then some 1#1 else none)) = some v := by
        decide
      exact h v
  | I8 => exact read_writeB m o 1 (by omega) v
  | I64 => exact read_writeB m o 8 (by omega) v
  | V2I64 => exact read_writeB m o 16 (by omega) v

/-- What a field has to contain for its value to be defined: initialised bytes, and 0 or 1 if it is a
single bit. -/
def FieldOK (f : Facet) (m : Bytes) (o : Nat) : Prop :=
  match f with
  | .I1 => m o = some 0#8 ∨ m o = some 1#8
  | f => ∀ x, o ≤ x → x < o + f.bytes → (m x).isSome

theorem store_load (f : Facet) (m : Bytes) (o : Nat) (h : FieldOK f m o) :
    store f m o (load f m o) = m := by
  cases f with
  | I1 =>
    simp only [FieldOK] at h
    have h1 : ∀ b, m o = some b → readB m o 1 = some b := by
      intro b hb
      apply readB_of_bytes
      intro x h1 h2
      obtain rfl : x = o := by omega
      rw [hb]; congr 1
      apply BitVec.eq_of_getLsbD_eq; intro i hi; simp [BitVec.getLsbD_extractLsb', hi]
    funext x
    simp only [store, load, writeB]
    split
    next hx =>
      obtain rfl : x = o := by omega
      rcases h with h | h <;> rw [h1 _ h, h] <;> simp [un]
    · rfl
  | I8 => exact write_readB m o 1 h
  | I64 => exact write_readB m o 8 h
  | V2I64 => exact write_readB m o 16 h

/-! ### Packing -/

/-- What packing and unpacking need of the table. -/
structure Good (es : List Entry) : Prop where
  apart : ∀ e ∈ es, ∀ e' ∈ es, e ≠ e' → e.off + e.facet.bytes ≤ e'.off ∨ e'.off + e'.facet.bytes ≤ e.off
  pc : ∀ e ∈ es, e.reg ≠ .invalid → 8 ≤ e.off
  nodup : es.Nodup

theorem packRegs_out (sel : Entry → Bool) (vals : Vals) (es : List Entry) : ∀ (m : Bytes) (x : Nat),
    (∀ e ∈ es, e.reg ≠ .invalid → sel e = true → x < e.off ∨ e.off + e.facet.bytes ≤ x) →
    packRegs sel vals es m x = m x := by
  induction es with
  | nil => intro m x _; rfl
  | cons e es ih =>
    intro m x h
    simp only [packRegs]
    rw [ih _ x (fun e' he' => h e' (List.mem_cons_of_mem _ he'))]
    split
    next hs => exact store_out _ _ _ _ _ (h e List.mem_cons_self hs.1 hs.2)
    · rfl

theorem packRegs_load (sel : Entry → Bool) (vals : Vals) (es : List Entry) : ∀ (m : Bytes),
    (∀ e ∈ es, ∀ e' ∈ es, e ≠ e' → e.off + e.facet.bytes ≤ e'.off ∨ e'.off + e'.facet.bytes ≤ e.off) →
    es.Nodup → ∀ e ∈ es, load e.facet (packRegs sel vals es m) e.off =
      if e.reg ≠ .invalid ∧ sel e then vals e else load e.facet m e.off := by
  induction es with
  | nil => intro m _ _ e he; cases he
  | cons a es ih =>
    intro m hap hnd e he
    obtain ⟨hna, hnd'⟩ := List.nodup_cons.1 hnd
    simp only [packRegs]
    by_cases hea : e = a
    · subst hea
      have : load e.facet (packRegs sel vals es
          (if e.reg ≠ .invalid ∧ sel e then store e.facet m e.off (vals e) else m)) e.off =
          load e.facet (if e.reg ≠ .invalid ∧ sel e then store e.facet m e.off (vals e) else m) e.off := by
        apply load_congr
        intro x h1 h2
        apply packRegs_out
        intro e' he' _ _
        have := hap e List.mem_cons_self e' (List.mem_cons_of_mem _ he') (by rintro rfl; exact hna he')
        omega
      rw [this]
      split
      · exact load_store _ _ _ _
      · rfl
    · have hes : e ∈ es := by
        rcases List.mem_cons.1 he with h | h
        · exact absurd h hea
        · exact h
      rw [ih _ (fun e h e' h' => hap e (List.mem_cons_of_mem _ h) e' (List.mem_cons_of_mem _ h')) hnd' e hes]
      split
      · rfl
      · apply load_congr
        intro x h1 h2
        split
        · apply store_out
          have := hap e he a List.mem_cons_self hea
          omega
        · rfl

end Verif.CpuStruct
