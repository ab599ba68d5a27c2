/-!
Bit-level vocabulary shared by the IR semantics and the ISA specifications: counting bits,
splitting a word into lanes.  Nothing here is specific to rellume.
-/

namespace Verif.Bits

/-- Number of leading zero bits (the width for zero): position of the first one from the top. -/
def clz {w : Nat} (x : BitVec w) : Nat :=
  ((List.range w).find? (fun i => x.getMsbD i)).getD w

/-- Number of trailing zero bits (the width for zero). -/
def ctz {w : Nat} (x : BitVec w) : Nat :=
  ((List.range w).find? (fun i => x.getLsbD i)).getD w

/-- Number of one bits. -/
def popcount {w : Nat} (x : BitVec w) : Nat :=
  ((List.range w).filter (fun i => x.getLsbD i)).length

/-- Bits in reversed order. -/
def bitrev {w : Nat} (x : BitVec w) : BitVec w := BitVec.reverse x

/-- Lane `i` of width `n`. -/
def lane {w : Nat} (n : Nat) (x : BitVec w) (i : Nat) : BitVec n := x.extractLsb' (n * i) n

/-- Word of `m` lanes of width `n`, lane 0 least significant. -/
def ofLanes (n : Nat) : (m : Nat) → (Nat → BitVec n) → BitVec (n * m)
  | 0, _ => 0#0
  | m + 1, f => f m ++ ofLanes n m f |>.cast (by rw [Nat.mul_succ, Nat.add_comm])

theorem getLsbD_ofLanes (n m : Nat) (f : Nat → BitVec n) (i : Nat) (hn : 0 < n) :
    (ofLanes n m f).getLsbD i = (decide (i < n * m) && (f (i / n)).getLsbD (i % n)) := by
  induction m with
  | zero => simp [ofLanes]
  | succ m ih =>
    simp only [ofLanes, BitVec.getLsbD_cast, BitVec.getLsbD_append, ih]
    by_cases h : i < n * m
    · have h2 : i < n * (m + 1) := by rw [Nat.mul_succ]; omega
      simp [h, h2]
    · by_cases h2 : i < n * (m + 1)
      · have h3 : i / n = m := by
          rw [Nat.mul_succ] at h2
          apply Nat.div_eq_of_lt_le
          · rw [Nat.mul_comm]; omega
          · rw [Nat.succ_mul, Nat.mul_comm]; omega
        have h4 : i % n = i - n * m := by
          rw [Nat.mod_eq_sub_mul_div, h3]
        simp [h, h2, h3, h4]
      · simp only [h, h2, decide_false, Bool.false_and, if_false]
        apply BitVec.getLsbD_of_ge
        rw [Nat.mul_succ] at h2; omega

theorem lane_ofLanes (n m : Nat) (f : Nat → BitVec n) (i : Nat) (hi : i < m) :
    lane n (ofLanes n m f) i = f i := by
  apply BitVec.eq_of_getLsbD_eq
  intro j hj
  have hn : 0 < n := by omega
  have h1 : n * i + j < n * m := by
    have : n * (i + 1) ≤ n * m := Nat.mul_le_mul_left _ hi
    rw [Nat.mul_succ] at this; omega
  have h2 : (n * i + j) / n = i := by
    rw [Nat.mul_add_div hn, Nat.div_eq_of_lt hj, Nat.add_zero]
  have h3 : (n * i + j) % n = j := by
    rw [Nat.mul_add_mod, Nat.mod_eq_of_lt hj]
  rw [lane, BitVec.getLsbD_extractLsb', getLsbD_ofLanes _ _ _ _ hn, h2, h3]
  simp only [hj, h1, decide_true, Bool.true_and]

theorem ofLanes_lane (n m : Nat) (x : BitVec (n * m)) : ofLanes n m (lane n x) = x := by
  apply BitVec.eq_of_getLsbD_eq
  intro j hj
  have hn : 0 < n := by
    rcases Nat.eq_zero_or_pos n with h | h
    · subst h; simp at hj
    · exact h
  rw [getLsbD_ofLanes _ _ _ _ hn]
  simp [lane, hj, Nat.mod_lt _ hn, Nat.div_add_mod]

theorem clz_le {w : Nat} (x : BitVec w) : clz x ≤ w := by
  unfold clz
  cases h : (List.range w).find? (fun i => x.getMsbD i) with
  | none => simp
  | some i =>
    have := List.mem_of_find?_eq_some h
    simp at this ⊢; omega

theorem ctz_le {w : Nat} (x : BitVec w) : ctz x ≤ w := by
  unfold ctz
  cases h : (List.range w).find? (fun i => x.getLsbD i) with
  | none => simp
  | some i =>
    have := List.mem_of_find?_eq_some h
    simp at this ⊢; omega

theorem popcount_le {w : Nat} (x : BitVec w) : popcount x ≤ w := by
  unfold popcount
  have := List.length_filter_le (fun i => x.getLsbD i) (List.range w)
  simpa using this

/-- `ctz` is the index of the lowest one bit. -/
theorem ctz_spec {w : Nat} (x : BitVec w) :
    (∀ i, i < ctz x → x.getLsbD i = false) ∧ (ctz x < w → x.getLsbD (ctz x) = true) := by
  unfold ctz
  cases h : (List.range w).find? (fun i => x.getLsbD i) with
  | none =>
    simp only [List.find?_eq_none, List.mem_range] at h
    refine ⟨fun i hi => by simpa using h i hi, fun hlt => by simp at hlt⟩
  | some i =>
    simp only [Option.getD_some]
    have h1 := List.find?_some h
    refine ⟨?_, fun _ => h1⟩
    rw [List.find?_range_eq_some] at h
    intro j hj
    have := h.2.2 j hj
    simpa using this

/-- `clz` is the distance of the highest one bit from the top. -/
theorem clz_spec {w : Nat} (x : BitVec w) :
    (∀ i, i < clz x → x.getMsbD i = false) ∧ (clz x < w → x.getMsbD (clz x) = true) := by
  unfold clz
  cases h : (List.range w).find? (fun i => x.getMsbD i) with
  | none =>
    simp only [List.find?_eq_none, List.mem_range] at h
    refine ⟨fun i hi => by simpa using h i hi, fun hlt => by simp at hlt⟩
  | some i =>
    simp only [Option.getD_some]
    have h1 := List.find?_some h
    refine ⟨?_, fun _ => h1⟩
    rw [List.find?_range_eq_some] at h
    intro j hj
    have := h.2.2 j hj
    simpa using this

end Verif.Bits
