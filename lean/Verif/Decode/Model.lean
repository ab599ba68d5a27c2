/-
Model of the decoding stage of rellume.

Source: /repo/src/lldecoder.cc lines 36-232 (`InstrKind`, `classifyInstr`, `Function::Decode`),
/repo/src/function.h lines 56-93 (state kept in `Function`),
/repo/src/rellume.cc lines 142-176 (API entry points `ll_func_decode_*`, `ll_func_ranges`).

The decoder libraries are not part of /repo: a decoder is an arbitrary (partial) function of the
address.  The memory reader callback and the decoder are merged into that function; it may differ
from call to call.  `unsigned` counters (`preds`) are modelled by unbounded naturals.
-/

namespace Verif.Decode

/-- Guest addresses, `uint64_t`. -/
abbrev Addr := BitVec 64

/-- `InstrKind`, /repo/src/lldecoder.cc:36-42. -/
inductive Kind where
  | branch | condBranch | call | unknown | other
  deriving DecidableEq, Repr

/-- `Function::DecodeStop`, /repo/src/function.h:56-60. -/
inductive Stop where
  | instr | block | all
  deriving DecidableEq, Repr

/-- A decoded instruction (`Instr`): the address it was decoded at, its length and the decoder's
payload (mnemonic, operands). /repo/src/instr.h (`start`, `end`, `len`). -/
structure Inst (P : Type) where
  start : Addr
  len : Nat
  payload : P

/-- `Instr::end()`: 64-bit wrap-around sum of start and length. /repo/src/instr.h. -/
def Inst.stop {P : Type} (i : Inst P) : Addr := i.start + BitVec.ofNat 64 i.len

/-- The result of instruction decoding (`Instr::DecodeFrom` after the memory callback),
/repo/src/lldecoder.cc:174-181: `none` is a negative return value. -/
abbrev Decoder (P : Type) := Addr → Option (Nat × P)

/-- `classifyInstr` for a fixed architecture, /repo/src/lldecoder.cc:45-152; concrete instances are
`rvClassify`, `aClassify` and `xClassify` (`Verif.Lift.RV64`, `.A64`, `.X86`). -/
abbrev Classifier (P : Type) := Inst P → Kind × Addr

/-- `Function::DecodedInstr`, /repo/src/function.h:75-80. -/
structure DInstr (P : Type) where
  inst : Inst P
  newBlock : Bool
  inhibit : Bool

/-- `Function::InstrMapEntry`, /repo/src/function.h:84-90. -/
structure Entry where
  preds : Nat := 0
  decoded : Bool := false
  idx : Nat := 0
  deriving DecidableEq, Repr

/-- The part of `Function` used by decoding, /repo/src/function.h:82-93.  The `DenseMap` is a
partial function; its key restrictions are in `reserved`. -/
structure Fn (P : Type) where
  instrs : List (DInstr P)
  imap : Addr → Option Entry
  ranges : List (Addr × Addr)

/-- A fresh `Function` object (`ll_func_new`), /repo/src/function.h:45,82-93. -/
def Fn.init (P : Type) : Fn P := { instrs := [], imap := fun _ => none, ranges := [(0, 0)] }

/-- Keys that `llvm::DenseMap<uint64_t, _>` reserves (`~0` and `~0 - 1`): inserting them is an
assertion failure or memory corruption.  /repo/src/function.h:91 (the map type). -/
def reserved (a : Addr) : Bool := a == -1#64 || a == -2#64

/-- `instr_map[a]`/`try_emplace(a)`: create a default entry if there is none.
/repo/src/lldecoder.cc:167. -/
def touch (m : Addr → Option Entry) (a : Addr) : Addr → Option Entry :=
  fun x => if x = a then some ((m a).getD {}) else m x

/-- `try_emplace(a).first->second.preds++`, /repo/src/lldecoder.cc:196-197 and 221-222. -/
def addPred (m : Addr → Option Entry) (a : Addr) : Addr → Option Entry :=
  fun x => if x = a then
      some { (m a).getD {} with preds := ((m a).getD {}).preds + 1 }
    else m x

/-- Mark the entry of `a` as decoded with index `n`, /repo/src/lldecoder.cc:183-184. -/
def setDecoded (m : Addr → Option Entry) (a : Addr) (n : Nat) : Addr → Option Entry :=
  fun x => if x = a then some { (m a).getD {} with decoded := true, idx := n } else m x

/-- `instrs[i].new_block = true`, /repo/src/lldecoder.cc:170 and 201. -/
def mark {P : Type} (l : List (DInstr P)) (i : Nat) : List (DInstr P) :=
  l.modify i (fun d => { d with newBlock := true })

/-- `instr.inhibit_branch = true` on the last instruction, /repo/src/lldecoder.cc:204-205. -/
def inhibitLast {P : Type} (l : List (DInstr P)) : List (DInstr P) :=
  l.modify (l.length - 1) (fun d => { d with inhibit := true })

/-- `code_ranges.insert(code_ranges.end() - 1, r)`, /repo/src/lldecoder.cc:226. -/
def insertBeforeLast (l : List (Addr × Addr)) (r : Addr × Addr) : List (Addr × Addr) :=
  l.dropLast ++ [r] ++ l.drop (l.length - 1)

/-- Parameters of one API call `ll_func_decode_{instr,block,cfg}`,
/repo/src/rellume.cc:142-172: decoder (with memory reader), start address, stop mode and whether
`cfg->call_function` is set at that time. -/
structure Call (P : Type) where
  dec : Decoder P
  addr : Addr
  stop : Stop
  callFn : Bool

/-- Control state of `Function::Decode` (/repo/src/lldecoder.cc:159-229): at the head of the outer
loop with the address stack (head = top), at the head of the inner loop, or returned. -/
inductive Ctl where
  | outer (stack : List Addr)
  | inner (stack : List Addr) (start cur : Addr) (newBlock : Bool)
  | done
  deriving DecidableEq

/-- Code after the inner loop, /repo/src/lldecoder.cc:225-228. -/
def finish {P : Type} (stop : Stop) (stack : List Addr) (start cur : Addr) (fn : Fn P) :
    Ctl × Fn P :=
  (if stop = .block then .done else .outer stack,
   if cur ≠ start then { fn with ranges := insertBeforeLast fn.ranges (start, cur) } else fn)

/-- Does the stream end after an instruction of this kind?  /repo/src/lldecoder.cc:208-210. -/
def endsStream (callFn : Bool) (k : Kind) : Bool :=
  k == .branch || k == .unknown || (k == .call && !callFn)

/-- Does an instruction of this kind end a block (but not the stream)?
/repo/src/lldecoder.cc:215. -/
def endsBlock (k : Kind) : Bool := k == .condBranch || k == .call

/-- Handling of a statically known jump target, /repo/src/lldecoder.cc:195-202.
`none` is undefined behaviour (reserved key). -/
def handleTarget {P : Type} (stack : List Addr) (fn : Fn P) (t : Addr) :
    Option (List Addr × Fn P) :=
  if t = 0 then some (stack, fn)
  else if reserved t then none
  else
    let m := addPred fn.imap t
    match fn.imap t with
    | some e =>
      if e.decoded then some (stack, { fn with imap := m, instrs := mark fn.instrs e.idx })
      else some (t :: stack, { fn with imap := m })
    | none => some (t :: stack, { fn with imap := m })

/-- The code between successful decoding of an instruction and the next loop iteration,
/repo/src/lldecoder.cc:189-222. `cur` is already advanced. -/
def afterDecode {P : Type} (cls : Classifier P) (c : Call P) (stack : List Addr)
    (start cur : Addr) (i : Inst P) (fn : Fn P) : Option (Ctl × Fn P) :=
  if c.stop = .instr then some (finish c.stop stack start cur fn)
  else
    match handleTarget stack fn (cls i).2 with
    | none => none
    | some (stack, fn) =>
      let fn := if (cls i).1 = .call ∧ c.callFn = false then
          { fn with instrs := inhibitLast fn.instrs } else fn
      if endsStream c.callFn (cls i).1 then some (finish c.stop stack start cur fn)
      else if endsBlock (cls i).1 ∧ c.stop = .block then some (finish c.stop stack start cur fn)
      else if reserved cur then none
      else some (.inner stack start cur (endsBlock (cls i).1),
                 { fn with imap := addPred fn.imap cur })

/-- One iteration of the outer or inner loop of `Function::Decode`,
/repo/src/lldecoder.cc:161-229.  `none` is undefined behaviour. -/
def step {P : Type} (cls : Classifier P) (c : Call P) : Ctl × Fn P → Option (Ctl × Fn P)
  | (.done, fn) => some (.done, fn)
  | (.outer [], fn) => some (.done, fn)
  | (.outer (a :: s), fn) =>
    if reserved a then none
    else some (.inner s a a true, { fn with imap := touch fn.imap a })
  | (.inner s start cur nb, fn) =>
    match fn.imap cur with
    | none => none
    | some e =>
      if e.decoded then
        some (finish c.stop s start cur { fn with instrs := mark fn.instrs e.idx })
      else
        match c.dec cur with
        | none => some (finish c.stop s start cur fn)
        | some (len, p) =>
          let i : Inst P := { start := cur, len := len, payload := p }
          afterDecode cls c s start i.stop i
            { fn with
              instrs := fn.instrs ++ [{ inst := i, newBlock := nb, inhibit := false }]
              imap := setDecoded fn.imap cur fn.instrs.length }

/-- `n` loop iterations. -/
def steps {P : Type} (cls : Classifier P) (c : Call P) : Nat → Ctl × Fn P → Option (Ctl × Fn P)
  | 0, s => some s
  | n + 1, s => (step cls c s).bind (steps cls c n)

/-- The call `Function::Decode(addr, stop, memacc)` returns, turning `fn` into `fn'`
(/repo/src/lldecoder.cc:156-232). -/
def Returns {P : Type} (cls : Classifier P) (c : Call P) (fn fn' : Fn P) : Prop :=
  ∃ n, steps cls c n (.outer [c.addr], fn) = some (.done, fn')

/-- The function object after `instr_map[entry_ip].preds++`, /repo/src/function.cc:100-101. -/
def countEntry {P : Type} (fn : Fn P) (a : Addr) : Fn P := { fn with imap := addPred fn.imap a }

/-- The function object after `Function::Lift`, /repo/src/function.cc:93-101: nothing happens if there
is no instruction; otherwise the entry, which is the first instruction decoded, gets one more
predecessor, whether or not lifting succeeds.  Nothing else in the object is changed
(/repo/src/function.cc:102-243). -/
def Fn.lifted {P : Type} (fn : Fn P) : Fn P :=
  match fn.instrs with
  | [] => fn
  | d :: _ => countEntry fn d.inst.start

/-- Object states reachable by a history of API calls on a fresh function object: calls that decode,
recorded, last call first, and in between any number of `ll_func_lift` calls.  The number is that of
the `ll_func_lift` calls made when something was decoded. -/
inductive HistN {P : Type} (cls : Classifier P) : List (Call P) → Nat → Fn P → Prop
  | init : HistN cls [] 0 (Fn.init P)
  | call {h : List (Call P)} {n : Nat} {fn fn' : Fn P} (c : Call P) :
      HistN cls h n fn → Returns cls c fn fn' → HistN cls (c :: h) n fn'
  | lift {h : List (Call P)} {n : Nat} {fn : Fn P} :
      HistN cls h n fn → fn.instrs ≠ [] → HistN cls h (n + 1) fn.lifted

/-- Object states reachable by a history of calls that decode, with any number of `ll_func_lift` calls
in between. -/
def Hist {P : Type} (cls : Classifier P) (h : List (Call P)) (fn : Fn P) : Prop :=
  ∃ n, HistN cls h n fn

theorem Hist.init {P : Type} {cls : Classifier P} : Hist cls [] (Fn.init P) := ⟨0, .init⟩

theorem Hist.call {P : Type} {cls : Classifier P} {h : List (Call P)} {fn fn' : Fn P} (c : Call P)
    (H : Hist cls h fn) (hr : Returns cls c fn fn') : Hist cls (c :: h) fn' :=
  H.imp fun _ H => .call c H hr

theorem Hist.lift {P : Type} {cls : Classifier P} {h : List (Call P)} {fn : Fn P}
    (H : Hist cls h fn) : Hist cls h fn.lifted := by
  obtain ⟨n, H⟩ := H
  by_cases hi : fn.instrs = []
  · exact ⟨n, by simpa [Fn.lifted, hi] using H⟩
  · exact ⟨n + 1, .lift H hi⟩

/-- Induction over histories. -/
theorem Hist.rec' {P : Type} {cls : Classifier P}
    {I : (h : List (Call P)) → (fn : Fn P) → Hist cls h fn → Prop}
    (init : I [] (Fn.init P) .init)
    (call : ∀ {h : List (Call P)} {fn fn' : Fn P} (c : Call P) (H : Hist cls h fn)
      (hr : Returns cls c fn fn'), I h fn H → I (c :: h) fn' (.call c H hr))
    (lift : ∀ {h : List (Call P)} {fn : Fn P} (H : Hist cls h fn), I h fn H → I h fn.lifted H.lift)
    {h : List (Call P)} {fn : Fn P} (H : Hist cls h fn) : I h fn H := by
  obtain ⟨n, H⟩ := H
  induction H with
  | init => exact init
  | call c H hr ih => exact call c ⟨_, H⟩ hr ih
  | lift H _ ih => exact lift ⟨_, H⟩ ih

/-- `ll_func_ranges`: /repo/src/rellume.cc:174, /repo/src/function.h:67-69. -/
def Fn.codeRanges {P : Type} (fn : Fn P) : List (Addr × Addr) := fn.ranges

end Verif.Decode
