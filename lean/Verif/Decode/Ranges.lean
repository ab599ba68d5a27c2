import Verif.Decode.Closure
import Mathlib.Data.Fintype.Card

/-!
Invariants behind C03 (termination), C04 (code ranges) and C05 (stop modes).
-/

namespace Verif.Decode

variable {P : Type}

/-! ### Contiguous runs -/

theorem Contig.append {a b : Addr} {is : List (Inst P)} (h : Contig a is b) (i : Inst P)
    (hi : i.start = b) : Contig a (is ++ [i]) i.stop := by
  induction h with
  | nil a => rw [← hi]; exact .cons i (.nil _)
  | cons j _ ih => exact .cons j (ih hi)

theorem ofNat_add64 (a b : Nat) : BitVec.ofNat 64 (a + b) = BitVec.ofNat 64 a + BitVec.ofNat 64 b := by
  simp [BitVec.ofNat_add]

theorem Contig.end_eq {a b : Addr} {is : List (Inst P)} (h : Contig a is b) :
    b = a + BitVec.ofNat 64 (totalLen is) := by
  induction h with
  | nil a => simp [totalLen]
  | cons i _ ih =>
    rw [ih]
    simp only [totalLen, List.map_cons, List.sum_cons, Inst.stop, ofNat_add64, BitVec.add_assoc]

theorem Contig.bytes {a b : Addr} {is : List (Inst P)} (h : Contig a is b) (x : Addr) :
    (∃ i ∈ is, i.HasByte x) ↔ ∃ k : Nat, k < totalLen is ∧ x = a + BitVec.ofNat 64 k := by
  induction h with
  | nil a => simp [totalLen]
  | @cons b is i _ ih =>
    constructor
    · rintro ⟨j, hj, hb⟩
      rcases List.mem_cons.1 hj with rfl | hj
      · obtain ⟨k, hk, hx⟩ := hb
        exact ⟨k, by simp only [totalLen, List.map_cons, List.sum_cons]; omega, hx⟩
      · obtain ⟨k, hk, hx⟩ := ih.1 ⟨j, hj, hb⟩
        refine ⟨i.len + k, by simp only [totalLen, List.map_cons, List.sum_cons] at hk ⊢; omega, ?_⟩
        rw [hx, ofNat_add64, Inst.stop, BitVec.add_assoc]
    · rintro ⟨k, hk, hx⟩
      by_cases hki : k < i.len
      · exact ⟨i, List.mem_cons_self, k, hki, hx⟩
      · have : ∃ k', k' < totalLen is ∧ x = i.stop + BitVec.ofNat 64 k' := by
          refine ⟨k - i.len, ?_, ?_⟩
          · simp only [totalLen, List.map_cons, List.sum_cons] at hk ⊢; omega
          · rw [hx, Inst.stop, BitVec.add_assoc, ← ofNat_add64]
            congr 2; omega
        obtain ⟨j, hj, hb⟩ := ih.2 this
        exact ⟨j, List.mem_cons_of_mem _ hj, hb⟩

theorem Contig.inRange {a b : Addr} {is : List (Inst P)} (h : Contig a is b)
    (hlen : totalLen is < 2 ^ 64) (x : Addr) :
    InRange (a, b) x ↔ ∃ i ∈ is, i.HasByte x := by
  rw [h.bytes]
  have : (b - a).toNat = totalLen is := by
    rw [h.end_eq, BitVec.add_comm, BitVec.add_sub_cancel, BitVec.toNat_ofNat]
    exact Nat.mod_eq_of_lt hlen
  simp only [InRange, this]

/-- A run of instructions of less than 2^64 bytes does not come back to its own instructions. -/
theorem Contig.fresh {a b : Addr} {is : List (Inst P)} (h : Contig a is b)
    (hlen : totalLen is < 2 ^ 64) (hpos : ∀ i ∈ is, 0 < i.len) : ∀ i ∈ is, i.start ≠ b := by
  intro i hi hb
  obtain ⟨k, hk, hx⟩ := (h.bytes i.start).1 ⟨i, hi, 0, hpos i hi, by simp⟩
  rw [hb, h.end_eq] at hx
  have h1 := congrArg BitVec.toNat ((BitVec.add_right_inj a).1 hx)
  simp only [BitVec.toNat_ofNat] at h1
  rw [Nat.mod_eq_of_lt hlen, Nat.mod_eq_of_lt (by omega)] at h1
  omega

theorem Contig.last {a b : Addr} {is : List (Inst P)} (h : Contig a is b) {i : Inst P}
    (hi : is.getLast? = some i) : i.stop = b := by
  induction h with
  | nil a => cases hi
  | @cons b is j hc ih =>
    cases is with
    | nil =>
      simp only [List.getLast?_singleton, Option.some.injEq] at hi
      subst hi
      simpa [totalLen] using hc.end_eq.symm
    | cons k l => exact ih (by simpa [List.getLast?_cons_cons] using hi)

/-! ### Ranges -/

/-- State of the range list. -/
def RangesOk (fn : Fn P) (is : List (Inst P)) : Prop :=
  ∃ L, fn.ranges = L ++ [(0, 0)] ∧ (∀ r ∈ L, r.1 ≠ r.2) ∧
    ∀ b, (∃ r ∈ L, InRange r b) ↔ ∃ i ∈ is, i.HasByte b

def RangeCtl : Ctl × Fn P → Prop
  | (.inner _ start cur _, fn) =>
    ∃ pre suf, fn.insts = pre ++ suf ∧ Contig start suf cur ∧ RangesOk fn pre
  | (_, fn) => RangesOk fn fn.insts

theorem insertBeforeLast_eq (L : List (Addr × Addr)) (r z : Addr × Addr) :
    insertBeforeLast (L ++ [z]) r = (L ++ [r]) ++ [z] := by
  simp [insertBeforeLast]

theorem rangesOk_congr {fn fn' : Fn P} {is : List (Inst P)} (h : RangesOk fn is)
    (hr : fn'.ranges = fn.ranges) : RangesOk fn' is := by
  obtain ⟨L, h1, h2, h3⟩ := h
  exact ⟨L, by rw [hr]; exact h1, h2, h3⟩

theorem rangesOk_finish {fn : Fn P} {pre suf : List (Inst P)} {stop : Stop} {s : List Addr}
    {start cur : Addr} (h : RangesOk fn pre) (hc : Contig start suf cur)
    (hins : fn.insts = pre ++ suf) (hlen : totalLen suf < 2 ^ 64) :
    RangeCtl (finish stop s start cur fn) := by
  have key : RangesOk (finish stop s start cur fn).2 (finish stop s start cur fn).2.insts := by
    rw [finish_insts, hins]
    obtain ⟨L, h1, h2, h3⟩ := h
    by_cases hcs : cur = start
    · refine ⟨L, by simp [finish, hcs, h1], h2, ?_⟩
      intro b
      rw [h3]
      have hz : ¬ ∃ i ∈ suf, i.HasByte b := by
        rw [hc.bytes]
        have h0 : totalLen suf = 0 := by
          have := hc.end_eq
          rw [hcs] at this
          have h2 : BitVec.ofNat 64 (totalLen suf) = 0#64 := by
            have h3 := congrArg (fun z => z - start) this
            simp only [BitVec.sub_self] at h3
            rw [BitVec.add_comm, BitVec.add_sub_cancel] at h3
            exact h3.symm
          have := congrArg BitVec.toNat h2
          simpa [Nat.mod_eq_of_lt hlen] using this
        rintro ⟨k, hk, -⟩; omega
      constructor
      · rintro ⟨i, hi, hb⟩; exact ⟨i, List.mem_append_left _ hi, hb⟩
      · rintro ⟨i, hi, hb⟩
        rcases List.mem_append.1 hi with hi | hi
        · exact ⟨i, hi, hb⟩
        · exact absurd ⟨i, hi, hb⟩ hz
    · refine ⟨L ++ [(start, cur)], ?_, ?_, ?_⟩
      · simp [finish, hcs, h1, insertBeforeLast_eq]
      · intro r hr
        rcases List.mem_append.1 hr with hr | hr
        · exact h2 r hr
        · simp only [List.mem_singleton] at hr
          subst hr; exact fun h => hcs h.symm
      · intro b
        have hr := hc.inRange hlen b
        constructor
        · rintro ⟨r, hr', hb⟩
          rcases List.mem_append.1 hr' with hr' | hr'
          · obtain ⟨i, hi, hb⟩ := (h3 b).1 ⟨r, hr', hb⟩
            exact ⟨i, List.mem_append_left _ hi, hb⟩
          · simp only [List.mem_singleton] at hr'
            subst hr'
            obtain ⟨i, hi, hb⟩ := hr.1 hb
            exact ⟨i, List.mem_append_right _ hi, hb⟩
        · rintro ⟨i, hi, hb⟩
          rcases List.mem_append.1 hi with hi | hi
          · obtain ⟨r, hr', hb⟩ := (h3 b).2 ⟨i, hi, hb⟩
            exact ⟨r, List.mem_append_left _ hr', hb⟩
          · exact ⟨(start, cur), by simp, hr.2 ⟨i, hi, hb⟩⟩
  have hf := finish_fst stop s start cur fn
  rcases hq : finish stop s start cur fn with ⟨ctl, fn'⟩
  rw [hq] at hf key
  simp only at hf
  subst hf
  by_cases hb : stop = .block <;> simp only [hb, if_true, if_false, RangeCtl] <;> exact key

theorem totalLen_append (a b : List (Inst P)) : totalLen (a ++ b) = totalLen a + totalLen b := by
  simp [totalLen]

theorem totalLen_prefix {a b : List (Inst P)} (h : a <+: b) : totalLen a ≤ totalLen b := by
  obtain ⟨c, rfl⟩ := h
  rw [totalLen_append]; omega

theorem range_step {cls : Classifier P} {c : Call P} {σ σ' : Ctl × Fn P}
    (h : StepSpec cls c σ σ')
    (hi : totalLen σ.2.insts < 2 ^ 64 → RangeCtl σ) :
    totalLen σ'.2.insts < 2 ^ 64 → RangeCtl σ' := by
  intro hlt
  have hlt0 : totalLen σ.2.insts < 2 ^ 64 :=
    Nat.lt_of_le_of_lt (totalLen_prefix (insts_step h)) hlt
  have hi := hi hlt0
  cases h with
  | stay fn => exact hi
  | exit fn => exact hi
  | pop hr same preds ex =>
    refine ⟨_, [], (List.append_nil _).symm, .nil _, ?_⟩
    rw [same.insts_eq]
    exact rangesOk_congr (fn := _) hi same.ranges
  | hit hj same preds marked =>
    obtain ⟨pre, suf, h1, h2, h3⟩ := hi
    have h1' := h1
    rw [← same.insts_eq] at h1
    refine rangesOk_finish (rangesOk_congr h3 same.ranges) h2 h1 ?_
    simp only [h1', totalLen_append] at hlt0; omega
  | fail hj hd =>
    obtain ⟨pre, suf, h1, h2, h3⟩ := hi
    refine rangesOk_finish h3 h2 h1 ?_
    simp only [h1, totalLen_append] at hlt0; omega
  | @decInstr s start cur nb fn len p hj hd hs i hie =>
    obtain ⟨pre, suf, h1, h2, h3⟩ := hi
    have h4 : (fn.push i nb).insts = pre ++ (suf ++ [i]) := by
      rw [push_insts, h1, List.append_assoc]
    rw [finish_insts, h4, totalLen_append] at hlt
    exact rangesOk_finish (rangesOk_congr h3 rfl) (h2.append i (by rw [hie])) h4 (by omega)
  | @decEnd s s' start cur nb fn fn2 fn3 len p hj hd hs i hie ht same preds he =>
    obtain ⟨pre, suf, h1, h2, h3⟩ := hi
    have h4 : fn3.insts = pre ++ (suf ++ [i]) := by
      rw [same.insts_eq, ht.same.insts_eq, push_insts, h1, List.append_assoc]
    rw [finish_insts, h4, totalLen_append] at hlt
    exact rangesOk_finish (rangesOk_congr h3 (by rw [same.ranges, ht.same.ranges]; rfl))
      (h2.append i (by rw [hie])) h4 (by omega)
  | @decCont s s' start cur nb fn fn2 fn3 len p hj hd hs i hie ht same preds ex he hb hr =>
    obtain ⟨pre, suf, h1, h2, h3⟩ := hi
    refine ⟨pre, suf ++ [i], ?_, h2.append i (by rw [hie]),
      rangesOk_congr h3 (by rw [same.ranges, ht.same.ranges]; rfl)⟩
    rw [same.insts_eq, ht.same.insts_eq, push_insts, h1, List.append_assoc]

theorem ranges_returns {cls : Classifier P} {c : Call P} {fn fn' : Fn P}
    (hr : Returns cls c fn fn') (hw : WF cls fn)
    (h0 : totalLen fn.insts < 2 ^ 64 → RangesOk fn fn.insts) :
    totalLen fn'.insts < 2 ^ 64 → RangesOk fn' fn'.insts :=
  returns_induct (fun σ => totalLen σ.2.insts < 2 ^ 64 → RangeCtl σ) hr hw h0
    (fun _ _ hs _ _ hi => range_step hs hi)

theorem ranges_hist {cls : Classifier P} {h : List (Call P)} {fn : Fn P} (H : Hist cls h fn) :
    totalLen fn.insts < 2 ^ 64 → RangesOk fn fn.insts := by
  induction H using Hist.rec' with
  | init => intro _; exact ⟨[], rfl, by simp, by simp [Fn.insts, Fn.init]⟩
  | call c H hr ih => exact ranges_returns hr (wf_hist H) ih
  | lift _ ih =>
    rw [lifted_insts]
    exact fun h => rangesOk_congr (ih h) (by simp)

/-! ### Genuine instructions -/

theorem genuine_returns {cls : Classifier P} {c : Call P} {fn fn' : Fn P}
    (hr : Returns cls c fn fn') (hw : WF cls fn) :
    ∀ i ∈ fn'.insts, i ∈ fn.insts ∨ c.dec i.start = some (i.len, i.payload) := by
  refine returns_induct
    (fun σ => ∀ i ∈ σ.2.insts, i ∈ fn.insts ∨ c.dec i.start = some (i.len, i.payload))
    hr hw (fun i hi => .inl hi) ?_
  intro σ σ' h _ _ hi
  have app : ∀ {l : List (Inst P)} {i : Inst P} {cur : Addr} {len : Nat} {p : P},
      (∀ i ∈ l, i ∈ fn.insts ∨ c.dec i.start = some (i.len, i.payload)) →
      c.dec cur = some (len, p) → i = ⟨cur, len, p⟩ →
      ∀ j ∈ l ++ [i], j ∈ fn.insts ∨ c.dec j.start = some (j.len, j.payload) := by
    intro l i cur len p hl hd hi j hj
    rcases List.mem_append.1 hj with hj | hj
    · exact hl j hj
    · simp only [List.mem_singleton] at hj
      subst hj; subst hi; exact .inr hd
  cases h with
  | stay fn => exact hi
  | exit fn => exact hi
  | pop hr same preds ex => simp only [same.insts_eq]; exact hi
  | hit hj same preds marked => simp only [finish_insts, same.insts_eq]; exact hi
  | fail hj hd => simp only [finish_insts]; exact hi
  | decInstr hj hd hs i hie =>
    simp only [finish_insts, push_insts]; exact app hi hd hie
  | decEnd hj hd hs2 i hie ht same preds he =>
    simp only [finish_insts, same.insts_eq, ht.same.insts_eq, push_insts]; exact app hi hd hie
  | decCont hj hd hs2 i hie ht same preds ex he hb hr =>
    simp only [same.insts_eq, ht.same.insts_eq, push_insts]; exact app hi hd hie

theorem wf_decodedAt {cls : Classifier P} {fn : Fn P} (hw : WF cls fn) (a : Addr) :
    fn.DecodedAt a ↔ ∃ j, fn.decIdx a = some j := by
  constructor
  · rintro ⟨i, hi, rfl⟩
    obtain ⟨d, hd, rfl⟩ := List.mem_map.1 hi
    obtain ⟨k, hk⟩ := List.mem_iff_getElem?.1 hd
    exact ⟨k, hw.complete k d hk⟩
  · rintro ⟨j, hj⟩
    obtain ⟨d, hd, hs⟩ := hw.sound a j hj
    exact ⟨d.inst, List.mem_map.2 ⟨d, List.mem_iff_getElem?.2 ⟨j, hd⟩, rfl⟩, hs⟩

/-! ### Stop modes -/

/-- What `decode_instr` appends. -/
def InstrAdds (c : Call P) (old : Fn P) (l : List (Inst P)) : Prop :=
  (l = [] ∧ (old.DecodedAt c.addr ∨ c.dec c.addr = none)) ∨
  ∃ i, l = [i] ∧ ¬ old.DecodedAt c.addr ∧ i.start = c.addr ∧
    c.dec c.addr = some (i.len, i.payload)

/-- Invariant of a `decode_instr` call. -/
def InstrInv (c : Call P) (old : Fn P) : Ctl × Fn P → Prop
  | (.inner s _ cur _, fn) => fn.insts = old.insts ∧ cur = c.addr ∧ s = []
  | (.outer s, fn) => (fn.insts = old.insts ∧ s = [c.addr]) ∨
      (s = [] ∧ ∃ l, fn.insts = old.insts ++ l ∧ InstrAdds c old l)
  | (.done, fn) => ∃ l, fn.insts = old.insts ++ l ∧ InstrAdds c old l

theorem instrInv_finish {c : Call P} {old : Fn P} {start cur : Addr} {fn : Fn P}
    (h : ∃ l, fn.insts = old.insts ++ l ∧ InstrAdds c old l) :
    InstrInv c old (finish .instr [] start cur fn) := by
  rcases hq : finish .instr [] start cur fn with ⟨ctl, fn'⟩
  have h1 := finish_fst .instr [] start cur fn
  have h2 := finish_insts .instr [] start cur fn
  rw [hq] at h1 h2
  simp at h1 h2
  subst h1
  simp only [InstrInv, true_and]
  rw [h2]; exact .inr h

theorem decodedAt_congr {fn fn' : Fn P} (h : fn'.insts = fn.insts) (a : Addr) :
    fn'.DecodedAt a ↔ fn.DecodedAt a := by
  simp only [Fn.DecodedAt, h]

theorem instr_returns {cls : Classifier P} {c : Call P} {fn fn' : Fn P}
    (hr : Returns cls c fn fn') (hw : WF cls fn) (hs : c.stop = .instr) :
    ∃ l, fn'.insts = fn.insts ++ l ∧ InstrAdds c fn l := by
  refine returns_induct (InstrInv c fn) hr hw (.inl ⟨rfl, rfl⟩) ?_
  intro σ σ' h hwσ _ hi
  cases h with
  | stay fn => exact hi
  | exit fn =>
    rcases hi with ⟨_, h⟩ | ⟨_, h⟩
    · simp at h
    · exact h
  | pop hr same preds ex =>
    rcases hi with ⟨h1, h2⟩ | ⟨h, -⟩
    · simp only [List.cons.injEq] at h2
      exact ⟨by rw [same.insts_eq]; exact h1, h2.1, h2.2⟩
    · simp at h
  | hit hj same preds marked =>
    obtain ⟨h1, h2, rfl⟩ := hi
    rw [hs]
    refine instrInv_finish ⟨[], by rw [same.insts_eq, h1, List.append_nil], .inl ⟨rfl, .inl ?_⟩⟩
    rw [← decodedAt_congr h1, ← h2]
    exact (wf_decodedAt hwσ _).2 ⟨_, hj⟩
  | fail hj hd =>
    obtain ⟨h1, h2, rfl⟩ := hi
    rw [hs]
    exact instrInv_finish ⟨[], by rw [h1, List.append_nil], .inl ⟨rfl, .inr (by rw [← h2]; exact hd)⟩⟩
  | decInstr hj hd hs i hie =>
    obtain ⟨h1, h2, rfl⟩ := hi
    rw [hs]
    refine instrInv_finish ⟨[i], by rw [push_insts, h1], .inr ⟨i, rfl, ?_, by rw [hie]; exact h2, ?_⟩⟩
    · rw [← decodedAt_congr h1, wf_decodedAt hwσ, ← h2, hj]; simp
    · rw [← h2, hie]; exact hd
  | decEnd hj hd hs2 i hie ht same preds he => exact absurd hs hs2
  | decCont hj hd hs2 i hie ht same preds ex he hb hr => exact absurd hs hs2

/-- The run appended by `decode_block`, ending before `cur`. -/
structure BlockRun (cls : Classifier P) (c : Call P) (old : Fn P) (run : List (Inst P))
    (cur : Addr) : Prop where
  contig : Contig c.addr run cur
  genuine : ∀ i ∈ run, c.dec i.start = some (i.len, i.payload)
  plain : ∀ i ∈ run.dropLast, (cls i).1 = .other
  why : (∃ i ∈ run.getLast?, (cls i).1 ≠ .other) ∨ c.dec cur = none ∨ old.DecodedAt cur ∨
    ∃ i ∈ run, i.start = cur

/-- Invariant of a `decode_block` call. -/
def BlockInv (cls : Classifier P) (c : Call P) (old : Fn P) : Ctl × Fn P → Prop
  | (.inner _ start cur _, fn) => start = c.addr ∧
      ∃ run, fn.insts = old.insts ++ run ∧ Contig c.addr run cur ∧
        (∀ i ∈ run, c.dec i.start = some (i.len, i.payload)) ∧ ∀ i ∈ run, (cls i).1 = .other
  | (.outer s, fn) => s = [c.addr] ∧ fn.insts = old.insts
  | (.done, fn) => ∃ run cur, fn.insts = old.insts ++ run ∧ BlockRun cls c old run cur

theorem block_returns {cls : Classifier P} {c : Call P} {fn fn' : Fn P}
    (hr : Returns cls c fn fn') (hw : WF cls fn) (hs : c.stop = .block) :
    ∃ run cur, fn'.insts = fn.insts ++ run ∧ BlockRun cls c fn run cur := by
  refine returns_induct (BlockInv cls c fn) hr hw ⟨rfl, rfl⟩ ?_
  intro σ σ' h hwσ _ hi
  have fin : ∀ {s : List Addr} {start cur : Addr} {fn2 : Fn P} {run : List (Inst P)},
      fn2.insts = fn.insts ++ run → BlockRun cls c fn run cur →
      BlockInv cls c fn (finish c.stop s start cur fn2) := by
    intro s start cur fn2 run h1 h2
    rcases hq : finish c.stop s start cur fn2 with ⟨ctl, fn3⟩
    have e1 := finish_fst c.stop s start cur fn2
    have e2 := finish_insts c.stop s start cur fn2
    rw [hq] at e1 e2
    simp only [hs, if_true] at e1 e2
    subst e1
    exact ⟨run, cur, by rw [e2]; exact h1, h2⟩
  cases h with
  | stay fn => exact hi
  | exit fn => obtain ⟨h, -⟩ := hi; simp at h
  | pop hr same preds ex =>
    obtain ⟨h1, h2⟩ := hi
    simp only [List.cons.injEq] at h1
    refine ⟨h1.1, [], by rw [same.insts_eq, h2, List.append_nil], ?_, by simp, by simp⟩
    rw [h1.1]; exact .nil _
  | hit hj same preds marked =>
    obtain ⟨h0, run, h1, h2, hg, h3⟩ := hi
    refine fin (run := run) (by rw [same.insts_eq]; exact h1)
      ⟨h2, hg, fun i hi => h3 i (List.mem_of_mem_dropLast hi), .inr (.inr ?_)⟩
    obtain ⟨i, hi, he⟩ := (wf_decodedAt hwσ _).2 ⟨_, hj⟩
    simp only [h1] at hi
    rcases List.mem_append.1 hi with hi | hi
    · exact .inl ⟨i, hi, he⟩
    · exact .inr ⟨i, hi, he⟩
  | fail hj hd =>
    obtain ⟨h0, run, h1, h2, hg, h3⟩ := hi
    exact fin h1 ⟨h2, hg, fun i hi => h3 i (List.mem_of_mem_dropLast hi), .inr (.inl hd)⟩
  | decInstr hj hd hs2 i hie => rw [hs] at hs2; cases hs2
  | decEnd hj hd hs2 i hie ht same preds he =>
    obtain ⟨h0, run, h1, h2, hg, h3⟩ := hi
    refine fin (run := run ++ [i]) ?_ ⟨h2.append i (by rw [hie]), ?_, ?_, .inl ⟨i, by simp, ?_⟩⟩
    · rw [same.insts_eq, ht.same.insts_eq, push_insts, h1, List.append_assoc]
    · intro j hj'
      rcases List.mem_append.1 hj' with hj' | hj'
      · exact hg j hj'
      · simp only [List.mem_singleton] at hj'
        subst hj'; subst hie; exact hd
    · intro j hj; rw [List.dropLast_concat] at hj; exact h3 j hj
    · intro hk
      rw [hk] at he
      rcases he with he | he
      · simp [endsStream] at he
      · simp [endsBlock] at he
  | decCont hj hd hs2 i hie ht same preds ex he hb hr =>
    obtain ⟨h0, run, h1, h2, hg, h3⟩ := hi
    refine ⟨h0, run ++ [i], ?_, h2.append i (by rw [hie]), ?_, ?_⟩
    · rw [same.insts_eq, ht.same.insts_eq, push_insts, h1, List.append_assoc]
    · intro j hj'
      rcases List.mem_append.1 hj' with hj' | hj'
      · exact hg j hj'
      · simp only [List.mem_singleton] at hj'
        subst hj'; subst hie; exact hd
    · intro j hj
      rcases List.mem_append.1 hj with hj | hj
      · exact h3 j hj
      · simp only [List.mem_singleton] at hj
        subst hj
        apply kind_other_of he
        by_contra hcon
        exact hb ⟨by simpa using hcon, hs⟩

/-! ### Termination -/

theorem wf_nodup {cls : Classifier P} {fn : Fn P} (hw : WF cls fn) :
    (fn.insts.map Inst.start).Nodup := by
  rw [List.nodup_iff_getElem?_ne_getElem?]
  intro i j hij hj
  simp only [Fn.insts, List.length_map] at hj
  have hi : i < fn.instrs.length := by omega
  simp only [Fn.insts, List.map_map, List.getElem?_map,
    List.getElem?_eq_getElem hi, List.getElem?_eq_getElem hj, Option.map_some, ne_eq,
    Option.some.injEq, Function.comp]
  intro he
  have h1 := hw.complete i _ (List.getElem?_eq_getElem hi)
  have h2 := hw.complete j _ (List.getElem?_eq_getElem hj)
  rw [he, h2] at h1
  simp at h1
  omega

theorem nodup_length_le {l : List Addr} (h : l.Nodup) : l.length ≤ 2 ^ 64 := by
  have h2 : (l.map BitVec.toFin).Nodup :=
    h.map (fun a b hab => by cases a; cases b; simp at hab; simp [hab])
  have := h2.length_le_card
  simpa using this

theorem wf_length_lt {cls : Classifier P} {fn : Fn P} (hw : WF cls fn) {cur : Addr}
    (hc : fn.decIdx cur = none) : fn.instrs.length < 2 ^ 64 := by
  have h1 : (cur :: fn.insts.map Inst.start).Nodup := by
    refine List.nodup_cons.2 ⟨?_, wf_nodup hw⟩
    intro hmem
    obtain ⟨i, hi, rfl⟩ := List.mem_map.1 hmem
    obtain ⟨d, hd, rfl⟩ := List.mem_map.1 hi
    obtain ⟨k, hk⟩ := List.mem_iff_getElem?.1 hd
    have := hw.complete k d hk
    rw [this] at hc; cases hc
  have := nodup_length_le h1
  simp [Fn.insts] at this
  omega

/-- Control part of the termination measure. -/
def phi : Ctl → Nat
  | .outer s => 2 * s.length + 1
  | .inner s _ _ _ => 2 * s.length + 2
  | .done => 0

theorem phi_finish (stop : Stop) (s : List Addr) (start cur : Addr) (fn : Fn P) :
    phi (finish stop s start cur fn).1 ≤ 2 * s.length + 1 := by
  rw [finish_fst]; split <;> simp [phi]

theorem target_len {t : Addr} {s s' : List Addr} {fn fn' : Fn P} (h : TargetSpec t s fn s' fn') :
    s'.length ≤ s.length + 1 := by
  by_cases h0 : t = 0
  · rw [h.zero h0]; omega
  · cases hx : fn.decIdx t with
    | none => rw [h.miss h0 hx]; simp
    | some j => rw [(h.hit h0 j hx).1]; omega

theorem phi_step {cls : Classifier P} {c : Call P} {σ σ' : Ctl × Fn P}
    (h : StepSpec cls c σ σ') (hd : σ.1 ≠ .done) :
    phi σ'.1 + 1 + 3 * σ.2.instrs.length ≤ phi σ.1 + 3 * σ'.2.instrs.length := by
  cases h with
  | stay fn => exact absurd rfl hd
  | exit fn => simp [phi]
  | pop hr same preds ex => rw [same.length]; simp [phi]; omega
  | @hit s start cur nb fn fn' j hj same preds marked =>
    have := phi_finish c.stop s start cur fn'
    rw [finish_instrs, same.length]; simp only [phi.eq_2]; omega
  | @fail s start cur nb fn hj hd =>
    have := phi_finish c.stop s start cur fn
    rw [finish_instrs]; simp only [phi.eq_2]; omega
  | @decInstr s start cur nb fn len p hj hd hs i hie =>
    have := phi_finish c.stop s start i.stop (fn.push i nb)
    rw [finish_instrs]; simp only [phi, Fn.push, List.length_append, List.length_singleton] at *
    omega
  | @decEnd s s' start cur nb fn fn2 fn3 len p hj hd hs i hie ht same preds he =>
    have := phi_finish c.stop s' start i.stop fn3
    have hl := target_len ht
    rw [finish_instrs, same.length, ht.same.length]
    simp only [phi, Fn.push, List.length_append, List.length_singleton] at *
    omega
  | @decCont s s' start cur nb fn fn2 fn3 len p hj hd hs i hie ht same preds ex he hb hr =>
    have hl := target_len ht
    rw [same.length, ht.same.length]
    simp only [phi, Fn.push, List.length_append, List.length_singleton] at *
    omega

theorem length_step {cls : Classifier P} {c : Call P} {σ σ' : Ctl × Fn P}
    (h : StepSpec cls c σ σ') (hw : WF cls σ.2) (hle : σ.2.instrs.length ≤ 2 ^ 64) :
    σ'.2.instrs.length ≤ 2 ^ 64 := by
  cases h with
  | stay fn => exact hle
  | exit fn => exact hle
  | pop hr same preds ex => rw [same.length]; exact hle
  | hit hj same preds marked => rw [finish_instrs, same.length]; exact hle
  | fail hj hd => rw [finish_instrs]; exact hle
  | decInstr hj hd hs i hie =>
    have := wf_length_lt hw hj
    rw [finish_instrs]; simp only [Fn.push, List.length_append, List.length_singleton]
    simp only at this; omega
  | decEnd hj hd hs i hie ht same preds he =>
    have := wf_length_lt hw hj
    rw [finish_instrs, same.length, ht.same.length]
    simp only [Fn.push, List.length_append, List.length_singleton]
    simp only at this; omega
  | decCont hj hd hs i hie ht same preds ex he hb hr =>
    have := wf_length_lt hw hj
    rw [same.length, ht.same.length]
    simp only [Fn.push, List.length_append, List.length_singleton]
    simp only at this; omega

theorem terminates_aux {cls : Classifier P} {c : Call P} : ∀ (m : Nat) (σ : Ctl × Fn P),
    WF cls σ.2 → CtlInv cls σ → σ.2.instrs.length ≤ 2 ^ 64 →
    phi σ.1 + 3 * (2 ^ 64 - σ.2.instrs.length) ≤ m →
    (∃ n, steps cls c n σ = none) ∨
    ∃ n fn', steps cls c n σ = some (.done, fn') ∧
      n + 3 * σ.2.instrs.length ≤ phi σ.1 + 3 * fn'.instrs.length := by
  intro m
  induction m with
  | zero =>
    intro σ _ _ _ hm
    obtain ⟨ctl, fn⟩ := σ
    cases ctl with
    | done => exact .inr ⟨0, fn, rfl, by simp⟩
    | outer s => simp [phi] at hm
    | inner s st cu nb => simp [phi] at hm
  | succ m ih =>
    intro σ hw hc hle hm
    by_cases hd : σ.1 = .done
    · obtain ⟨ctl, fn⟩ := σ
      simp only at hd; subst hd
      exact .inr ⟨0, fn, rfl, by simp⟩
    · cases hs : step cls c σ with
      | none => exact .inl ⟨1, by simp [steps, hs]⟩
      | some τ =>
        have hsp := step_spec hs
        have hw' := wf_step hsp hw hc
        have hphi := phi_step hsp hd
        have hle' := length_step hsp hw hle
        rcases ih τ hw'.1 hw'.2 hle' (by omega) with ⟨n, hn⟩ | ⟨n, fn', hn, hb⟩
        · exact .inl ⟨n + 1, by simp [steps, hs, hn]⟩
        · exact .inr ⟨n + 1, fn', by simp [steps, hs, hn], by omega⟩

/-- No address handled by the call is a reserved map key. -/
def NoReserved (cls : Classifier P) (c : Call P) : Prop :=
  reserved c.addr = false ∧ ∀ a len p, c.dec a = some (len, p) →
    reserved (Inst.stop (P := P) ⟨a, len, p⟩) = false ∧
    ((cls ⟨a, len, p⟩).2 ≠ 0 → reserved (cls ⟨a, len, p⟩).2 = false)

def StackOk : Ctl → Prop
  | .outer s => ∀ a ∈ s, reserved a = false
  | .inner s _ _ _ => ∀ a ∈ s, reserved a = false
  | .done => True

theorem stackOk_step {cls : Classifier P} {c : Call P} {σ σ' : Ctl × Fn P}
    (h : StepSpec cls c σ σ') (hi : StackOk σ.1) : StackOk σ'.1 := by
  have fin : ∀ {s : List Addr} {start cur : Addr} {fn : Fn P}, (∀ a ∈ s, reserved a = false) →
      StackOk (finish c.stop s start cur fn).1 := by
    intro s start cur fn h
    rw [finish_fst]; split
    · trivial
    · exact h
  have tgt : ∀ {t : Addr} {s s' : List Addr} {fn fn' : Fn P}, TargetSpec t s fn s' fn' →
      (∀ a ∈ s, reserved a = false) → ∀ a ∈ s', reserved a = false := by
    intro t s s' fn fn' h hs a ha
    by_cases h0 : t = 0
    · rw [h.zero h0] at ha; exact hs a ha
    · cases hx : fn.decIdx t with
      | none =>
        rw [h.miss h0 hx] at ha
        rcases List.mem_cons.1 ha with rfl | ha
        · exact h.res h0
        · exact hs a ha
      | some j => rw [(h.hit h0 j hx).1] at ha; exact hs a ha
  cases h with
  | stay fn => exact hi
  | exit fn => trivial
  | pop hr same preds ex => exact fun a ha => hi a (List.mem_cons_of_mem _ ha)
  | hit hj same preds marked => exact fin hi
  | fail hj hd => exact fin hi
  | decInstr hj hd hs i hie => exact fin hi
  | decEnd hj hd hs i hie ht same preds he => exact fin (tgt ht hi)
  | decCont hj hd hs i hie ht same preds ex he hb hr => exact tgt ht hi

theorem handleTarget_some {s : List Addr} {fn : Fn P} {t : Addr}
    (h : t ≠ 0 → reserved t = false) : ∃ r, handleTarget s fn t = some r := by
  unfold handleTarget
  by_cases h0 : t = 0
  · simp [h0]
  · simp only [h0, if_false, h h0, Bool.false_eq_true]
    cases fn.imap t with
    | none => simp
    | some e => by_cases hd : e.decoded = true <;> simp [hd]

theorem step_some {cls : Classifier P} {c : Call P} (hn : NoReserved cls c) {σ : Ctl × Fn P}
    (hc : CtlInv cls σ) (hs : StackOk σ.1) : ∃ τ, step cls c σ = some τ := by
  obtain ⟨ctl, fn⟩ := σ
  cases ctl with
  | done => exact ⟨_, rfl⟩
  | outer s =>
    cases s with
    | nil => exact ⟨_, rfl⟩
    | cons a s =>
      have := hs a List.mem_cons_self
      simp [step, this]
  | inner s start cur nb =>
    simp only [step]
    cases he : fn.imap cur with
    | none => exact absurd he hc.1
    | some e =>
      by_cases hd : e.decoded = true
      · simp [hd]
      · simp only [hd, Bool.false_eq_true, if_false]
        cases hdec : c.dec cur with
        | none => simp
        | some lp =>
          obtain ⟨len, p⟩ := lp
          obtain ⟨h1, h2⟩ := hn.2 cur len p hdec
          simp only [afterDecode]
          by_cases hst : c.stop = .instr
          · simp [hst]
          · simp only [hst, if_false]
            obtain ⟨r, hr⟩ := handleTarget_some (s := s)
              (fn := { fn with
                instrs := fn.instrs ++ [{ inst := ⟨cur, len, p⟩, newBlock := nb, inhibit := false }]
                imap := setDecoded fn.imap cur fn.instrs.length }) h2
            simp only [hr]
            by_cases e1 : endsStream c.callFn (cls ⟨cur, len, p⟩).1 = true
            · simp [e1]
            · by_cases e2 : endsBlock (cls ⟨cur, len, p⟩).1 = true ∧ c.stop = .block
              · simp [e1, e2]
              · simp [e1, e2, h1]

theorem steps_some {cls : Classifier P} {c : Call P} (hn : NoReserved cls c) :
    ∀ (n : Nat) {σ : Ctl × Fn P}, WF cls σ.2 → CtlInv cls σ → StackOk σ.1 →
    steps cls c n σ ≠ none
  | 0, σ, _, _, _ => by simp [steps]
  | n + 1, σ, hw, hc, hs => by
    obtain ⟨τ, hτ⟩ := step_some hn hc hs
    have hsp := step_spec hτ
    have := wf_step hsp hw hc
    simp only [steps, hτ, Option.bind_some]
    exact steps_some hn n this.1 this.2 (stackOk_step hsp hs)

end Verif.Decode
