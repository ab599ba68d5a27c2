import Verif.Decode.Ranges

/-!
Property theorems for the decoder: C01-C06 and the counting half of C08.
All of them quantify over every classification, every decoder (memory contents) and every history
of decode calls.
-/

namespace Verif.Decode

variable {P : Type}

/-- Address lookup as used by `ResolveAddr`: `instr_map.find(a)`, then `instrs[instr_idx]` if
`decoded`.  /repo/src/function.cc:79-85. -/
def Fn.lookup (fn : Fn P) (a : Addr) : Option (DInstr P) :=
  match fn.imap a with
  | none => none
  | some e => if e.decoded then fn.instrs[e.idx]? else none

theorem lookup_eq (fn : Fn P) (a : Addr) :
    fn.lookup a = (fn.decIdx a).bind (fun j => fn.instrs[j]?) := by
  unfold Fn.lookup Fn.decIdx
  cases fn.imap a with
  | none => rfl
  | some e => by_cases h : e.decoded = true <;> simp [h]

/-! ### A small concrete program used as non-vacuity witness

`0x10: jz 0x20; 0x12: jmp 0x10; 0x20: ret`, everything else undecodable.  The payload of an
instruction is its classification. -/

def exCls : Classifier (Kind × Addr) := fun i => i.payload

def exDec : Decoder (Kind × Addr) := fun a =>
  if a = 0x10#64 then some (2, .condBranch, 0x20#64)
  else if a = 0x12#64 then some (2, .branch, 0x10#64)
  else if a = 0x20#64 then some (1, .unknown, 0)
  else none

def exCall : Call (Kind × Addr) := ⟨exDec, 0x10#64, .all, true⟩

/-- Result of running the machine for `n` iterations, for concrete examples. -/
def runFn (cls : Classifier P) (n : Nat) (c : Call P) (fn : Fn P) : Option (Fn P) :=
  match steps cls c n (.outer [c.addr], fn) with
  | some (.done, fn') => some fn'
  | _ => none

theorem runFn_returns {cls : Classifier P} {n : Nat} {c : Call P} {fn fn' : Fn P}
    (h : runFn cls n c fn = some fn') : Returns cls c fn fn' := by
  unfold runFn at h
  split at h
  · next fn2 hs => simp only [Option.some.injEq] at h; subst h; exact ⟨n, hs⟩
  · cases h

/-- Object state after decoding the example with `ll_func_decode_cfg(0x10)`. -/
def exFn : Fn (Kind × Addr) := (runFn exCls 20 exCall (Fn.init _)).getD (Fn.init _)

theorem exFn_returns : Returns exCls exCall (Fn.init _) exFn := by
  apply runFn_returns (n := 20)
  have : (runFn exCls 20 exCall (Fn.init _)).isSome = true := by decide +kernel
  obtain ⟨f, hf⟩ := Option.isSome_iff_exists.1 this
  simp only [exFn, hf, Option.getD_some]

theorem exFn_hist : Hist exCls [exCall] exFn := .call _ .init exFn_returns

example : exFn.insts.map Inst.start = [0x10#64, 0x12#64, 0x20#64] := by decide +kernel
example : exFn.instrs.map DInstr.newBlock = [true, true, true] := by decide +kernel
example : exFn.codeRanges = [(0x10#64, 0x14#64), (0x20#64, 0x21#64), (0, 0)] := by decide +kernel
example : [exFn.predsOf 0x10#64, exFn.predsOf 0x12#64, exFn.predsOf 0x20#64] = [1, 1, 1] := by
  decide +kernel

/-! ### C01 -/

/-- C01: after any history of decode calls no address is decoded twice, and looking an address up
yields exactly the instruction decoded at it. -/
theorem C01_decoded_once {cls : Classifier P} {h : List (Call P)} {fn : Fn P}
    (H : Hist cls h fn) :
    (fn.insts.map Inst.start).Nodup ∧
    ∀ a i, (fn.lookup a).map DInstr.inst = some i ↔ i ∈ fn.insts ∧ i.start = a := by
  have hw := wf_hist H
  refine ⟨wf_nodup hw, fun a i => ?_⟩
  rw [lookup_eq]
  constructor
  · intro hl
    cases hj : fn.decIdx a with
    | none => simp [hj] at hl
    | some j =>
      obtain ⟨d, hd, hs⟩ := hw.sound a j hj
      simp only [hj, Option.bind_some, hd, Option.map_some, Option.some.injEq] at hl
      subst hl
      exact ⟨List.mem_map.2 ⟨d, List.mem_iff_getElem?.2 ⟨j, hd⟩, rfl⟩, hs⟩
  · rintro ⟨hi, rfl⟩
    obtain ⟨d, hd, rfl⟩ := List.mem_map.1 hi
    obtain ⟨k, hk⟩ := List.mem_iff_getElem?.1 hd
    simp [hw.complete k d hk, hk]

/-- C01: every decoded instruction is what the decoder of one of the calls returned at its
address. -/
theorem C01_genuine {cls : Classifier P} {h : List (Call P)} {fn : Fn P}
    (H : Hist cls h fn) :
    ∀ i ∈ fn.insts, ∃ c ∈ h, c.dec i.start = some (i.len, i.payload) := by
  induction H using Hist.rec' with
  | init => simp [Fn.insts, Fn.init]
  | lift _ ih => simpa using ih
  | call c H hr ih =>
    intro i hi
    rcases genuine_returns hr (wf_hist H) i hi with h1 | h1
    · obtain ⟨c', hc', hd⟩ := ih i h1
      exact ⟨c', List.mem_cons_of_mem _ hc', hd⟩
    · exact ⟨c, List.mem_cons_self, h1⟩

/-- C01: later calls never remove or change an instruction decoded earlier. -/
theorem C01_stable {cls : Classifier P} {h : List (Call P)} {fn fn' : Fn P} {c : Call P}
    (H : Hist cls h fn) (hr : Returns cls c fn fn') : fn.insts <+: fn'.insts :=
  insts_returns hr (wf_hist H)

example : (exFn.insts.map Inst.start).Nodup ∧ exFn.insts.length = 3 :=
  ⟨(C01_decoded_once exFn_hist).1, by decide +kernel⟩

/-! ### C02 -/

theorem doneNB_blockStart {cls : Classifier P} {c : Call P} {fn : Fn P} {a : Addr}
    (hw : WF cls fn) (h : DoneNB c fn a) : fn.BlockStart a ∨ c.dec a = none := by
  rcases h with h | ⟨j, d, hj, hd, hn⟩
  · exact .inr h
  · obtain ⟨d', hd', hs⟩ := hw.sound a j hj
    rw [hd] at hd'
    simp only [Option.some.injEq] at hd'
    subst hd'
    exact .inl ⟨d, List.mem_iff_getElem?.2 ⟨j, hd⟩, hs, hn⟩

theorem BlockStart.decodedAt {fn : Fn P} {a : Addr} (h : fn.BlockStart a) : fn.DecodedAt a := by
  obtain ⟨d, hd, hs, -⟩ := h
  exact ⟨d.inst, List.mem_map.2 ⟨d, hd, rfl⟩, hs⟩

/-- C02: `ll_func_decode_cfg(addr)` after any history closes over the static control flow.
The start address and all branch targets, and the instructions after conditional branches and
calls, start a block or do not decode; every static successor of a newly decoded instruction is
decoded or does not decode; every newly decoded instruction is genuine and reachable. -/
theorem C02_decode_cfg_closed {cls : Classifier P} {h : List (Call P)} {fn fn' : Fn P}
    {c : Call P} (H : Hist cls h fn) (hall : c.stop = .all) (hr : Returns cls c fn fn') :
    (fn'.BlockStart c.addr ∨ c.dec c.addr = none) ∧
    ∀ i ∈ fn'.insts.drop fn.insts.length,
      (c.dec i.start = some (i.len, i.payload) ∧ Reach cls c.dec c.callFn c.addr i.start) ∧
      (∀ a, StaticSucc cls c.callFn i a → fn'.DecodedAt a ∨ c.dec a = none) ∧
      ((cls i).2 ≠ 0 → fn'.BlockStart (cls i).2 ∨ c.dec (cls i).2 = none) ∧
      ((cls i).1 = .condBranch ∨ ((cls i).1 = .call ∧ c.callFn = true) →
        fn'.BlockStart i.stop ∨ c.dec i.stop = none) := by
  have hw := wf_hist H
  have hw' := wf_returns hr hw
  have inv := allInv_returns hr hw hall
  refine ⟨?_, ?_⟩
  · rcases inv.start with h | h
    · exact doneNB_blockStart hw' h
    · exact absurd h (by simp [Pend])
  · intro i hi
    obtain ⟨k, hk⟩ := List.mem_iff_getElem?.1 hi
    rw [List.getElem?_drop, Fn.insts, List.getElem?_map, Option.map_eq_some_iff] at hk
    obtain ⟨d, hd, rfl⟩ := hk
    have hle : fn.instrs.length ≤ fn.insts.length + k := by simp [Fn.insts]
    have ht : (cls d.inst).2 ≠ 0 → fn'.BlockStart (cls d.inst).2 ∨ c.dec (cls d.inst).2 = none := by
      intro h0
      rcases inv.tgt _ d hle hd h0 with h | h
      · exact doneNB_blockStart hw' h
      · exact absurd h (by simp [Pend])
    refine ⟨inv.new _ d hle hd, ?_, ht, ?_⟩
    · rintro a (⟨h0, rfl⟩ | ⟨hf, rfl⟩)
      · exact (ht h0).imp_left BlockStart.decodedAt
      · rcases inv.fall _ d hle hd hf with h | h | ⟨-, ⟨d', hd', hs⟩ | h⟩
        · exact (doneNB_blockStart hw' h).imp_left BlockStart.decodedAt
        · exact absurd h (by simp [Pend])
        · exact .inl ⟨d'.inst, List.mem_map.2 ⟨d', List.mem_iff_getElem?.2 ⟨_, hd'⟩, rfl⟩, hs⟩
        · exact absurd h (by simp [PendNext])
    · intro hk
      have hf : FallsThrough c.callFn (cls d.inst).1 := by
        rcases hk with hk | hk
        · exact .inr (.inl hk)
        · exact .inr (.inr hk)
      rcases inv.fall _ d hle hd hf with h | h | ⟨ho, -⟩
      · exact doneNB_blockStart hw' h
      · exact absurd h (by simp [Pend])
      · rw [ho] at hk; simp at hk

/-- C02, exactness: on a fresh function, `ll_func_decode_cfg(addr)` decodes exactly the decodable
addresses reachable from `addr` by static control flow. -/
theorem C02_decode_cfg_exact {cls : Classifier P} {fn' : Fn P} {c : Call P}
    (hall : c.stop = .all) (hr : Returns cls c (Fn.init P) fn') (a : Addr) :
    fn'.DecodedAt a ↔ Reach cls c.dec c.callFn c.addr a ∧ c.dec a ≠ none := by
  obtain ⟨hs, hn⟩ := C02_decode_cfg_closed .init hall hr
  simp only [Fn.insts, Fn.init, List.map_nil, List.length_nil, List.drop_zero] at hn
  constructor
  · rintro ⟨i, hi, rfl⟩
    obtain ⟨⟨h1, h2⟩, -⟩ := hn i hi
    exact ⟨h2, by rw [h1]; simp⟩
  · rintro ⟨hreach, hdec⟩
    have key : ∀ b, Reach cls c.dec c.callFn c.addr b → fn'.DecodedAt b ∨ c.dec b = none := by
      intro b hb
      induction hb with
      | start => exact hs.imp_left BlockStart.decodedAt
      | @succ x y len p _ hx hsucc ih =>
        rcases ih with ⟨i, hi, he⟩ | ih
        · obtain ⟨⟨h1, -⟩, h2, -⟩ := hn i hi
          rw [he, hx] at h1
          simp only [Option.some.injEq, Prod.mk.injEq] at h1
          have : i = ⟨x, len, p⟩ := by
            cases i; simp only at he h1 ⊢; simp [he, h1.1, h1.2]
          rw [this] at h2
          exact h2 y hsucc
        · rw [hx] at ih; cases ih
    rcases key a hreach with h | h
    · exact h
    · exact absurd h hdec

example : exFn.DecodedAt 0x20#64 :=
  (C02_decode_cfg_exact rfl exFn_returns _).2
    ⟨.succ .start (len := 2) (p := (.condBranch, 0x20#64)) rfl (.inl ⟨by decide, rfl⟩), by decide⟩

/-! ### C03 -/

/-- C03: every decode call on an object with any history either returns, within
`3 * (number of newly decoded instructions) + 3` loop iterations, or inserts one of the two keys
reserved by the hash map (undefined behaviour).  It never runs forever. -/
theorem C03_decode_terminates {cls : Classifier P} {h : List (Call P)} {fn : Fn P}
    (H : Hist cls h fn) (c : Call P) :
    (∃ n, steps cls c n (.outer [c.addr], fn) = none) ∨
    ∃ n fn', steps cls c n (.outer [c.addr], fn) = some (.done, fn') ∧
      n ≤ 3 * (fn'.insts.length - fn.insts.length) + 3 := by
  have hw := wf_hist H
  have hlen : fn.instrs.length ≤ 2 ^ 64 := by
    have := nodup_length_le (wf_nodup hw)
    simpa [Fn.insts] using this
  rcases terminates_aux _ (.outer [c.addr], fn) hw trivial hlen (Nat.le_refl _) with h | h
  · exact .inl h
  · obtain ⟨n, fn', hn, hb⟩ := h
    have hp := insts_returns ⟨n, hn⟩ hw
    have := hp.length_le
    refine .inr ⟨n, fn', hn, ?_⟩
    simp only [phi, Fn.insts, List.length_map, List.length_singleton] at *
    omega

/-- C03: when no reserved key is an address the call handles, it returns. -/
theorem C03_decode_returns {cls : Classifier P} {h : List (Call P)} {fn : Fn P}
    (H : Hist cls h fn) (c : Call P) (hc : NoReserved cls c) : ∃ fn', Returns cls c fn fn' := by
  rcases C03_decode_terminates H c with ⟨n, hn⟩ | ⟨n, fn', hn, -⟩
  · refine absurd hn (steps_some hc n (wf_hist H) trivial ?_)
    intro a ha
    simp only [List.mem_singleton] at ha
    subst ha; exact hc.1
  · exact ⟨fn', n, hn⟩

/-- C03: the number of decoded instructions never exceeds the number of addresses. -/
theorem C03_bounded {cls : Classifier P} {h : List (Call P)} {fn : Fn P}
    (H : Hist cls h fn) : fn.insts.length ≤ 2 ^ 64 := by
  have := nodup_length_le (wf_nodup (wf_hist H))
  simpa using this

theorem exCall_noReserved : NoReserved exCls exCall := by
  refine ⟨by decide, ?_⟩
  intro a len p h
  simp only [exCall, exDec] at h
  split at h
  · next he => simp only [Option.some.injEq, Prod.mk.injEq] at h; obtain ⟨rfl, rfl⟩ := h; subst he; decide
  · split at h
    · next he => simp only [Option.some.injEq, Prod.mk.injEq] at h; obtain ⟨rfl, rfl⟩ := h; subst he; decide
    · split at h
      · next he => simp only [Option.some.injEq, Prod.mk.injEq] at h; obtain ⟨rfl, rfl⟩ := h; subst he; decide
      · cases h

example : ∃ fn', Returns exCls exCall (Fn.init _) fn' := C03_decode_returns .init _ exCall_noReserved

/-- C03, the excluded case is real: a conditional branch to the reserved key `~0` makes the decoder
insert it into the map. -/
theorem C03_reserved_counterexample :
    ∃ (c : Call (Kind × Addr)) (n : Nat), steps exCls c n (.outer [c.addr], Fn.init _) = none :=
  ⟨⟨fun _ => some (4, .condBranch, -1#64), 0x1000#64, .all, true⟩, 2, by decide +kernel⟩

/-! ### C04 -/

/-- C04: after any history whose instructions have less than 2^64 bytes in total, `ll_func_ranges`
is a list of non-empty ranges, terminated by an empty one, whose union is exactly the union of the
bytes of the decoded instructions. -/
theorem C04_ranges_exact {cls : Classifier P} {h : List (Call P)} {fn : Fn P}
    (H : Hist cls h fn) (hlen : totalLen fn.insts < 2 ^ 64) :
    ∃ L, fn.codeRanges = L ++ [(0, 0)] ∧ (∀ r ∈ L, r.1 ≠ r.2) ∧
      ∀ b, (∃ r ∈ L, InRange r b) ↔ ∃ i ∈ fn.insts, i.HasByte b :=
  ranges_hist H hlen

example : ∃ L, exFn.codeRanges = L ++ [(0, 0)] ∧ L ≠ [] ∧
    ∀ b, (∃ r ∈ L, InRange r b) ↔ ∃ i ∈ exFn.insts, i.HasByte b := by
  obtain ⟨L, h1, -, h3⟩ := C04_ranges_exact exFn_hist (by decide +kernel)
  refine ⟨L, h1, ?_, h3⟩
  rintro rfl
  have := congrArg List.length h1
  revert this; decide +kernel

/-! ### C05 -/

/-- C05: `ll_func_decode_instr` adds exactly the instruction at the given address, unless it is
already decoded or does not decode, in which case it adds nothing. -/
theorem C05_decode_instr {cls : Classifier P} {h : List (Call P)} {fn fn' : Fn P} {c : Call P}
    (H : Hist cls h fn) (hs : c.stop = .instr) (hr : Returns cls c fn fn') :
    (fn'.insts = fn.insts ∧ (fn.DecodedAt c.addr ∨ c.dec c.addr = none)) ∨
    ∃ i, fn'.insts = fn.insts ++ [i] ∧ ¬ fn.DecodedAt c.addr ∧ i.start = c.addr ∧
      c.dec c.addr = some (i.len, i.payload) := by
  obtain ⟨l, h1, ⟨rfl, h2⟩ | ⟨i, rfl, h2⟩⟩ := instr_returns hr (wf_hist H) hs
  · exact .inl ⟨by rw [h1, List.append_nil], h2⟩
  · exact .inr ⟨i, h1, h2⟩

/-- C05: `ll_func_decode_block` adds one straight-line run starting at the given address in which
only the last instruction may be a control-flow instruction, and the run only stops at a
control-flow instruction, where decoding fails, or where an instruction is already decoded. -/
theorem C05_decode_block {cls : Classifier P} {h : List (Call P)} {fn fn' : Fn P} {c : Call P}
    (H : Hist cls h fn) (hs : c.stop = .block) (hr : Returns cls c fn fn') :
    ∃ run cur, fn'.insts = fn.insts ++ run ∧ Contig c.addr run cur ∧
      (∀ i ∈ run, c.dec i.start = some (i.len, i.payload)) ∧
      (∀ i ∈ run.dropLast, (cls i).1 = .other) ∧
      ((∃ i ∈ run.getLast?, (cls i).1 ≠ .other) ∨ c.dec cur = none ∨ fn.DecodedAt cur ∨
        ∃ i ∈ run, i.start = cur) := by
  obtain ⟨run, cur, h1, h2⟩ := block_returns hr (wf_hist H) hs
  exact ⟨run, cur, h1, h2.contig, h2.genuine, h2.plain, h2.why⟩

/-- A two-instruction straight line ending in a jump. -/
def exDec2 : Decoder (Kind × Addr) := fun a =>
  if a = 0x10#64 then some (3, .other, 0) else if a = 0x13#64 then some (2, .branch, 0x10#64) else none

example : ∃ fn', Returns exCls ⟨exDec2, 0x10#64, .block, true⟩ (Fn.init _) fn' ∧
    fn'.insts.map Inst.start = [0x10#64, 0x13#64] := by
  have h : ((runFn exCls 10 ⟨exDec2, 0x10#64, .block, true⟩ (Fn.init _)).map
      (fun f => f.insts.map Inst.start)) = some [0x10#64, 0x13#64] := by decide +kernel
  obtain ⟨f, hf, he⟩ := Option.map_eq_some_iff.1 h
  exact ⟨f, runFn_returns hf, he⟩

example : ∃ fn', Returns exCls ⟨exDec2, 0x13#64, .instr, true⟩ (Fn.init _) fn' ∧
    fn'.insts.map Inst.start = [0x13#64] := by
  have h : ((runFn exCls 10 ⟨exDec2, 0x13#64, .instr, true⟩ (Fn.init _)).map
      (fun f => f.insts.map Inst.start)) = some [0x13#64] := by decide +kernel
  obtain ⟨f, hf, he⟩ := Option.map_eq_some_iff.1 h
  exact ⟨f, runFn_returns hf, he⟩

/-! ### C06 -/

/-- C06: after any history, an instruction that does not start a block directly follows, in the
list and in memory, a plain instruction; in particular the first instruction starts a block. -/
theorem C06_blocks_contiguous {cls : Classifier P} {h : List (Call P)} {fn : Fn P}
    (H : Hist cls h fn) (i : Nat) (d : DInstr P) (hd : fn.instrs[i]? = some d)
    (hn : d.newBlock = false) :
    ∃ (j : Nat) (p : DInstr P), i = j + 1 ∧ fn.instrs[j]? = some p ∧
      p.inst.stop = d.inst.start ∧ (cls p.inst).1 = .other :=
  (wf_hist H).chain i d hd hn

/-- C06: a maximal run of instructions without block start is contiguous in memory. -/
theorem C06_block_run {cls : Classifier P} {h : List (Call P)} {fn : Fn P}
    (H : Hist cls h fn) (i : Nat) (d : DInstr P) (hd : fn.instrs[i]? = some d) :
    ∀ n, (∀ k e, i < k → k ≤ i + n → fn.instrs[k]? = some e → e.newBlock = false) →
      i + n < fn.instrs.length →
      ∃ b, Contig d.inst.start ((fn.insts.drop i).take (n + 1)) b ∧
        ∀ x ∈ ((fn.insts.drop i).take n), (cls x).1 = .other := by
  have hlt : i < fn.instrs.length := (List.getElem?_eq_some_iff.1 hd).1
  have step : ∀ n, (∀ k e, i < k → k ≤ i + n → fn.instrs[k]? = some e → e.newBlock = false) →
      i + n < fn.instrs.length →
      ∃ l : DInstr P, fn.instrs[i + n]? = some l ∧
        Contig d.inst.start ((fn.insts.drop i).take (n + 1)) l.inst.stop ∧
        ∀ x ∈ ((fn.insts.drop i).take n), (cls x).1 = .other := by
    intro n
    induction n with
    | zero =>
      intro _ _
      refine ⟨d, hd, ?_, by simp⟩
      have : (fn.insts.drop i).take (0 + 1) = [d.inst] := by
        rw [List.take_add_one]
        simp [Fn.insts, hd]
      rw [this]
      exact .cons _ (.nil _)
    | succ n ih =>
      intro hnb hle
      obtain ⟨l, hl, hc, hk⟩ := ih (fun k e h1 h2 h3 => hnb k e h1 (by omega) h3) (by omega)
      have he : fn.instrs[i + (n + 1)]? = some fn.instrs[i + (n + 1)] := List.getElem?_eq_getElem hle
      obtain ⟨j, p, h1, h2, h3, h4⟩ := C06_blocks_contiguous H _ _ he
        (hnb _ _ (by omega) (Nat.le_refl _) he)
      have hj : j = i + n := by omega
      subst hj
      rw [hl] at h2
      simp only [Option.some.injEq] at h2
      subst h2
      refine ⟨_, he, ?_, ?_⟩
      · have : (fn.insts.drop i).take (n + 1 + 1)
            = (fn.insts.drop i).take (n + 1) ++ [fn.instrs[i + (n + 1)].inst] := by
          rw [List.take_add_one (i := n + 1)]
          simp [Fn.insts, he]
        rw [this]
        exact hc.append _ h3.symm
      · intro x hx
        have : (fn.insts.drop i).take (n + 1) = (fn.insts.drop i).take n ++ [l.inst] := by
          rw [List.take_add_one]
          simp [Fn.insts, hl]
        rw [this] at hx
        rcases List.mem_append.1 hx with hx | hx
        · exact hk x hx
        · simp only [List.mem_singleton] at hx
          subst hx; exact h4
  intro n hnb hle
  obtain ⟨l, -, hc, hk⟩ := step n hnb hle
  exact ⟨_, hc, hk⟩

/-- In the second example the jump at 0x13 does not start a block. -/
example : ∃ fn', Returns exCls ⟨exDec2, 0x10#64, .all, true⟩ (Fn.init _) fn' ∧
    fn'.instrs.map DInstr.newBlock = [true, false] := by
  have h : ((runFn exCls 10 ⟨exDec2, 0x10#64, .all, true⟩ (Fn.init _)).map
      (fun f => f.instrs.map DInstr.newBlock)) = some [true, false] := by decide +kernel
  obtain ⟨f, hf, he⟩ := Option.map_eq_some_iff.1 h
  exact ⟨f, runFn_returns hf, he⟩

/-! ### C08, counting part -/

/-- The entry of the function never changes once something is decoded, and nothing was lifted before. -/
theorem entry_kept {cls : Classifier P} {h : List (Call P)} {n : Nat} {fn fn' : Fn P} {c : Call P}
    (H : HistN cls h n fn) (hr : Returns cls c fn fn') (a : Addr) :
    (if fn'.entry? = some a then n else 0) = if fn.entry? = some a then n else 0 := by
  cases n with
  | zero => simp
  | succ n =>
    have hne : ∀ {h : List (Call P)} {m : Nat} {fn : Fn P}, HistN cls h m fn → m ≠ 0 →
        fn.insts ≠ [] := by
      intro h m fn H
      induction H with
      | init => intro h; exact absurd rfl h
      | call c H hr ih =>
        intro hm hx
        have := C01_stable ⟨_, H⟩ hr
        rw [hx] at this
        exact ih hm (List.prefix_nil.1 this)
      | lift H hi _ => intro _; simpa [Fn.insts] using hi
    have h1 := hne H (by omega)
    obtain ⟨l, hl⟩ := C01_stable ⟨_, H⟩ hr
    have : fn'.entry? = fn.entry? := by
      unfold Fn.entry?
      rw [← hl]
      cases hx : fn.insts with
      | nil => exact absurd hx h1
      | cons i l => rfl
    rw [this]

theorem edgeCount_lifted (cls : Classifier P) (callFn : Bool) (fn : Fn P) (a : Addr) :
    fn.lifted.edgeCount cls callFn a = fn.edgeCount cls callFn a := by
  simp [Fn.edgeCount]

theorem cutCount_lifted (cls : Classifier P) (callFn : Bool) (fn : Fn P) (a : Addr) :
    fn.lifted.cutCount cls callFn a = fn.cutCount cls callFn a := by
  simp [Fn.cutCount]

/-- C08 (partial): for histories of `ll_func_decode_cfg` calls with an unchanged `call_function`
setting, the recorded predecessor count of every address is exactly the number of static
control-flow edges to it from decoded instructions, and for the entry in addition the number of times
the function was lifted.  Missing: histories with
`decode_instr`/`decode_block` calls, for which it is false
(`C08_decode_block_counterexample`). -/
theorem C08_preds_exact_partial {cls : Classifier P} {h : List (Call P)} {fn : Fn P} (callFn : Bool)
    {n : Nat} (H : HistN cls h n fn) (hall : ∀ c ∈ h, c.stop = .all ∧ c.callFn = callFn) (a : Addr) :
    fn.predsOf a = fn.edgeCount cls callFn a + if fn.entry? = some a then n else 0 := by
  induction H with
  | init => rfl
  | call c H hr ih =>
    obtain ⟨h1, h2⟩ := hall c List.mem_cons_self
    have := ih (fun c' hc' => hall c' (List.mem_cons_of_mem _ hc'))
    rw [entry_kept H hr, ← h2]
    rw [← h2] at this
    exact preds_returns hr (wf_hist ⟨_, H⟩) h1 a _ this
  | lift H hi ih =>
    rw [edgeCount_lifted, predsOf_lifted, ih hall, lifted_entry]
    split <;> omega

/-- `0x10: jz 0x30; 0x12: nop; 0x13: jmp 0x12`. -/
def exDec3 : Decoder (Kind × Addr) := fun a =>
  if a = 0x10#64 then some (2, .condBranch, 0x30#64)
  else if a = 0x12#64 then some (1, .other, 0)
  else if a = 0x13#64 then some (2, .branch, 0x12#64)
  else none

/-- C08 fails for `decode_block` histories: after decoding the blocks at 0x10 and 0x12, address
0x12 has two static predecessors (fall-through and back edge) but only one is counted. -/
theorem C08_decode_block_counterexample :
    ∃ (h : List (Call (Kind × Addr))) (fn : Fn (Kind × Addr)), Hist exCls h fn ∧
      fn.predsOf 0x12#64 = 1 ∧ fn.edgeCount exCls true 0x12#64 = 2 := by
  have h : ((runFn exCls 10 ⟨exDec3, 0x10#64, .block, true⟩ (Fn.init _)).bind
      (fun f => (runFn exCls 10 ⟨exDec3, 0x12#64, .block, true⟩ f).map
        (fun f => (f.predsOf 0x12#64, f.edgeCount exCls true 0x12#64)))) = some (1, 2) := by
    decide +kernel
  obtain ⟨f, hf, h2⟩ := Option.bind_eq_some_iff.1 h
  obtain ⟨f', hf', h3⟩ := Option.map_eq_some_iff.1 h2
  simp only [Prod.mk.injEq] at h3
  exact ⟨_, f', .call _ (.call _ .init (runFn_returns hf)) (runFn_returns hf'), h3.1, h3.2⟩

example : exFn.lifted.predsOf 0x10#64 = exFn.edgeCount exCls true 0x10#64 + 1 :=
  C08_preds_exact_partial true (.lift (.call _ .init exFn_returns) (by decide +kernel)) (by intro c hc; simp only [List.mem_singleton] at hc; subst hc; exact ⟨rfl, rfl⟩) _

/-- C08: whatever the history of calls, a recorded predecessor always stands for a static
control-flow edge, or, at the entry, for one time the function was lifted: there are never more. -/
theorem C08_preds_le {cls : Classifier P} {h : List (Call P)} {fn : Fn P} (callFn : Bool)
    {n : Nat} (H : HistN cls h n fn) (hcf : ∀ c ∈ h, c.callFn = callFn) (a : Addr) :
    fn.predsOf a ≤ fn.edgeCount cls callFn a + if fn.entry? = some a then n else 0 := by
  induction H with
  | init => exact Nat.zero_le _
  | call c H hr ih =>
    have h2 := hcf c List.mem_cons_self
    have := ih (fun c' hc' => hcf c' (List.mem_cons_of_mem _ hc'))
    rw [entry_kept H hr, ← h2]
    rw [← h2] at this
    exact preds_le_returns hr (wf_hist ⟨_, H⟩) a _ this
  | lift H hi ih =>
    have := ih hcf
    rw [edgeCount_lifted, predsOf_lifted, lifted_entry]
    split <;> simp_all
    omega

theorem preds_cut {cls : Classifier P} {h : List (Call P)} {fn : Fn P} (callFn : Bool)
    {n : Nat} (H : HistN cls h n fn) (hcf : ∀ c ∈ h, c.stop ≠ .instr ∧ c.callFn = callFn) (a : Addr) :
    fn.edgeCount cls callFn a ≤ fn.predsOf a + fn.cutCount cls callFn a ∧
      ((∀ c ∈ h, c.stop = .block) →
        fn.edgeCount cls callFn a + (if fn.entry? = some a then n else 0) =
          fn.predsOf a + fn.cutCount cls callFn a) := by
  induction H with
  | init => exact ⟨Nat.zero_le _, fun _ => rfl⟩
  | lift H hi ih =>
    have := ih hcf
    rw [edgeCount_lifted, cutCount_lifted, predsOf_lifted, lifted_entry]
    refine ⟨by omega, fun h => ?_⟩
    have := this.2 h
    split <;> simp_all
    omega
  | @call h n fn0 fn1 c H hr ih =>
    obtain ⟨h1, h2⟩ := hcf c List.mem_cons_self
    have := ih (fun c' hc' => hcf c' (List.mem_cons_of_mem _ hc'))
    rw [entry_kept H hr, ← h2]
    rw [← h2] at this
    by_cases hb : ∀ c' ∈ h, c'.stop = .block
    · have h3 := preds_cut_returns hr (wf_hist ⟨_, H⟩) h1 a _ ⟨this.1, fun _ => this.2 hb⟩
      exact ⟨h3.1, fun h => h3.2 (h c List.mem_cons_self)⟩
    · refine ⟨?_, fun h => absurd (fun c' hc' => h c' (List.mem_cons_of_mem _ hc')) hb⟩
      exact returns_induct (fun σ => σ.2.edgeCount cls c.callFn a ≤
          σ.2.predsOf a + σ.2.cutCount cls c.callFn a) hr (wf_hist ⟨_, H⟩) this.1
        (fun _ _ h _ _ hi => preds_cut_le_step h1 h a hi)

/-- C08: for histories of `ll_func_decode_block` calls, the recorded predecessor count of an address
is exactly the number of static control-flow edges to it, less the conditional branches and calls
directly before it, from which control falls through to it; for the entry in addition the number of
times the function was lifted. -/
theorem C08_preds_block {cls : Classifier P} {h : List (Call P)} {fn : Fn P} (callFn : Bool)
    {n : Nat} (H : HistN cls h n fn) (hall : ∀ c ∈ h, c.stop = .block ∧ c.callFn = callFn) (a : Addr) :
    fn.edgeCount cls callFn a + (if fn.entry? = some a then n else 0) = fn.predsOf a + fn.cutCount cls callFn a :=
  (preds_cut callFn H (fun c hc => ⟨by rw [(hall c hc).1]; simp, (hall c hc).2⟩) a).2
    (fun c hc => (hall c hc).1)

/-- No edge is missed with `ll_func_decode_cfg`. -/
theorem counted_cfg {cls : Classifier P} {h : List (Call P)} {fn : Fn P} {callFn : Bool}
    (H : Hist cls h fn) (hall : ∀ c ∈ h, c.stop = .all ∧ c.callFn = callFn) :
    Counted cls callFn h fn :=
  ⟨fun c hc => (hall c hc).2, fun c hc hs => (by rw [(hall c hc).1] at hs; cases hs),
    fun a _ => H.elim fun _ H => by rw [C08_preds_exact_partial callFn H hall a]; omega⟩

/-- Lifting does not make edges be missed. -/
theorem Counted.lifted {cls : Classifier P} {h : List (Call P)} {fn : Fn P} {callFn : Bool}
    (hc : Counted cls callFn h fn) : Counted cls callFn h fn.lifted := by
  refine ⟨hc.same, by simpa using hc.calls, fun a ha => ?_⟩
  have := hc.edges a ((lifted_blockStart fn a).1 ha)
  rw [edgeCount_lifted, predsOf_lifted]
  omega

/-- C08: no edge into a block is missed with any mixture of `ll_func_decode_cfg` and
`ll_func_decode_block` calls, as long as no block starts directly after a conditional branch or call
from which control can fall through. -/
theorem C08_counted_block {cls : Classifier P} {h : List (Call P)} {fn : Fn P} {callFn : Bool}
    (H : Hist cls h fn) (hcf : ∀ c ∈ h, c.stop ≠ .instr ∧ c.callFn = callFn)
    (hcut : ∀ i ∈ fn.insts, (cls i).1 ≠ .other → FallsThrough callFn (cls i).1 →
      ¬ fn.BlockStart i.stop) :
    Counted cls callFn h fn := by
  refine ⟨fun c hc => (hcf c hc).2, fun c hc hs => absurd hs (hcf c hc).1, fun a ha => ?_⟩
  obtain ⟨n, H⟩ := H
  have h1 := (preds_cut callFn H hcf a).1
  have h2 : fn.cutCount cls callFn a = 0 := by
    unfold Fn.cutCount
    have : ∀ l : List (Inst P), (∀ i ∈ l, i ∈ fn.insts) → (l.map (fun i =>
        if (cls i).1 ≠ .other ∧ FallsThrough callFn (cls i).1 ∧ a = i.stop then 1 else 0)).sum = 0 := by
      intro l
      induction l with
      | nil => intro _; rfl
      | cons i l ih =>
        intro hl
        rw [List.map_cons, List.sum_cons, ih (fun j hj => hl j (List.mem_cons_of_mem _ hj)),
          Nat.add_zero]
        refine if_neg ?_
        rintro ⟨h3, h4, rfl⟩
        exact hcut i (hl i List.mem_cons_self) h3 h4 ha
    exact this _ (fun _ h => h)
  omega

/-- C08: a single `ll_func_decode_block` call misses no edge into a block, unless it decodes all of
the address space. -/
theorem C08_counted_one_block {cls : Classifier P} {c : Call P} {fn : Fn P}
    (hr : Returns cls c (Fn.init P) fn) (hs : c.stop = .block)
    (hpos : ∀ i ∈ fn.insts, 0 < i.len) (hlen : totalLen fn.insts < 2 ^ 64) :
    Counted cls c.callFn [c] fn := by
  have H : Hist cls [c] fn := .call c .init hr
  refine C08_counted_block H (by simp [hs]) ?_
  rintro i hi hk - ⟨d, hd, hds, -⟩
  obtain ⟨run, cur, h1, h2, -, h3, -⟩ := C05_decode_block .init hs hr
  have h1 : fn.insts = run := by simpa [Fn.init, Fn.insts] using h1
  rw [h1] at hi hpos hlen
  have hlast : run.getLast? = some i := by
    rcases List.eq_nil_or_concat run with rfl | ⟨l, j, rfl⟩
    · cases hi
    · simp only [List.concat_eq_append, List.mem_append, List.mem_singleton, List.dropLast_concat] at *
      rcases hi with hi | rfl
      · exact absurd (h3 i hi) hk
      · simp
  refine h2.fresh hlen hpos d.inst ?_ (by rw [hds, h2.last hlast])
  rw [← h1]
  exact List.mem_map.2 ⟨d, hd, rfl⟩

/-- C08: a single `ll_func_decode_instr` call misses no edge into a block, unless the instruction
jumps to itself, or is a call that is not lifted as a call. -/
theorem C08_counted_one_instr {cls : Classifier P} {c : Call P} {fn : Fn P}
    (hr : Returns cls c (Fn.init P) fn) (hs : c.stop = .instr)
    (hself : ∀ i ∈ fn.insts, ¬ StaticSucc cls c.callFn i i.start)
    (hcall : c.callFn = true ∨ ∀ i ∈ fn.insts, (cls i).1 ≠ .call) :
    Counted cls c.callFn [c] fn := by
  have H : Hist cls [c] fn := .call c .init hr
  refine ⟨by simp, by simpa [hs] using hcall, ?_⟩
  rintro a ⟨d, hd, rfl, -⟩
  have hd' : d.inst ∈ fn.insts := List.mem_map.2 ⟨d, hd, rfl⟩
  have h0 : fn.edgeCount cls c.callFn d.inst.start = 0 := by
    rcases C05_decode_instr .init hs hr with ⟨h1, -⟩ | ⟨i, h1, -⟩
    · rw [h1] at hd'; cases hd'
    · have h1 : fn.insts = [i] := by simpa [Fn.init, Fn.insts] using h1
      rw [h1] at hd' hself
      simp only [List.mem_singleton] at hd'
      have := hself i (by simp)
      simp only [StaticSucc, not_or] at this
      simp only [Fn.edgeCount, h1, hd', numSucc, List.map_cons, List.map_nil, List.sum_cons,
        List.sum_nil, Nat.add_zero, if_neg this.1, if_neg this.2]
  omega

/-- The block of `exDec2` jumps back to its own beginning: one edge, counted. -/
example : ∃ fn, Returns exCls ⟨exDec2, 0x10#64, .block, true⟩ (Fn.init _) fn ∧
    Counted exCls true [⟨exDec2, 0x10#64, .block, true⟩] fn ∧
    fn.edgeCount exCls true 0x10#64 = 1 := by
  have h : ((runFn exCls 10 ⟨exDec2, 0x10#64, .block, true⟩ (Fn.init _)).map
      (fun f => (f.insts.map Inst.len, f.edgeCount exCls true 0x10#64))) = some ([3, 2], 1) := by
    decide +kernel
  obtain ⟨f, hf, he⟩ := Option.map_eq_some_iff.1 h
  simp only [Prod.mk.injEq] at he
  have hr := runFn_returns hf
  refine ⟨f, hr, C08_counted_one_block hr rfl ?_ ?_, he.2⟩
  · intro i hi
    have : i.len ∈ f.insts.map Inst.len := List.mem_map.2 ⟨i, hi, rfl⟩
    rw [he.1] at this
    simp only [List.mem_cons, List.not_mem_nil, or_false] at this
    omega
  · rw [totalLen, he.1]; decide

end Verif.Decode
