import Verif.X86.All

/-!
Property theorems for CPUID, RDTSC (C53) and the instructions that access the control and status words
of the floating-point units (C54).

The architecture is specified here (Intel SDM volume 2): `Spec.cpuid` for a given identification of the
processor, `Spec.rdtsc` for a given value of the time-stamp counter, `Spec.ctl` on a state extended by the
control and status words.
-/

set_option linter.constructorNameAsVariable false

namespace Verif.X86.Spec

open Verif.IR

variable {cfg : Cfg} {slide : BitVec 64} {len : Nat} {s s' : S}

/-! ### Specification -/

/-- The four words CPUID returns. -/
structure Leaf where
  eax : BitVec 32
  ebx : BitVec 32
  ecx : BitVec 32
  edx : BitVec 32

/-- CPUID: the words for the leaf in EAX and the subleaf in ECX are written to the registers. -/
def cpuid (id : BitVec 32 → BitVec 32 → Leaf) (len : Nat) (s : S) : S :=
  let l := id (s.reg 0 .d) (s.reg 1 .d)
  { s with
    ip := s.ip + BitVec.ofNat 64 len
    gp := fun r => match r.val with
      | 0 => l.eax.setWidth 64
      | 1 => l.ecx.setWidth 64
      | 2 => l.edx.setWidth 64
      | 3 => l.ebx.setWidth 64
      | _ => s.gp r }

/-- RDTSC: EDX:EAX is the counter, the upper halves of RAX and RDX are cleared. -/
def rdtsc (t : BitVec 64) (len : Nat) (s : S) : S :=
  { s with
    ip := s.ip + BitVec.ofNat 64 len
    gp := fun r => match r.val with
      | 0 => (t.extractLsb' 0 32).setWidth 64
      | 2 => (t.extractLsb' 32 32).setWidth 64
      | _ => s.gp r }

/-- Control and status words of the floating-point units. -/
@[ext] structure Fpu where
  fcw : BitVec 16
  fsw : BitVec 16
  mxcsr : BitVec 32
  deriving DecidableEq

/-- Their values in a fresh process: exceptions masked, round to nearest, no exception seen. -/
def Fpu.fresh : Fpu := ⟨0x37f, 0, 0x1f80⟩

/-- FNSTCW, FLDCW, FNSTSW, STMXCSR, LDMXCSR.  LDMXCSR faults if a reserved bit is set. -/
def ctl (k : Ctl) (o : Op) (len : Nat) (s : S) (f : Fpu) : Option (S × Fpu) :=
  let s1 := { s with ip := s.ip + BitVec.ofNat 64 len }
  match k with
  | .fstcw => (s1.write .w o f.fcw).map (·, f)
  | .fstsw => (s1.write .w o f.fsw).map (·, f)
  | .stmxcsr => (s1.write .d o f.mxcsr).map (·, f)
  | .fldcw => (s1.read .w o).map fun v => (s1, { f with fcw := v })
  | .ldmxcsr => (s1.read .d o).bind fun v =>
      if v.extractLsb' 16 16 = 0 then some (s1, { f with mxcsr := v }) else none

/-! ### C53: CPUID and RDTSC -/

/-- What the configured function returns for a leaf and a subleaf: the first word holds ECX and EAX, the
second EBX and EDX.  Without a function everything is zero. -/
def Identifies (cfg : Cfg) (id : BitVec 32 → BitVec 32 → Leaf) : Prop :=
  match cfg.cpuinfo with
  | none => ∀ a c, id a c = ⟨0, 0, 0, 0⟩
  | some f => ∀ a c, f (some a) (some c) = (some ((id a c).ecx ++ (id a c).eax), some ((id a c).ebx ++ (id a c).edx))

theorem lo_half (a b : BitVec 32) : (a ++ b) &&& 0xffffffff#64 = b.setWidth 64 := by
  apply BitVec.eq_of_getLsbD_eq
  intro i hi
  have : (0xffffffff#64).getLsbD i = decide (i < 32) := by
    have : ∀ i : Fin 64, (0xffffffff#64).getLsbD i.val = decide (i.val < 32) := by decide
    exact this ⟨i, hi⟩
  simp only [BitVec.getLsbD_and, this, BitVec.getLsbD_append, BitVec.getLsbD_setWidth, hi, decide_true, Bool.true_and]
  by_cases h : i < 32
  · simp [h]
  · simp [h, BitVec.getLsbD_of_ge b i (by omega)]

theorem hi_half (a b : BitVec 32) : (a ++ b) >>> 32 = a.setWidth 64 := by
  apply BitVec.eq_of_getLsbD_eq
  intro i hi
  simp only [BitVec.getLsbD_ushiftRight, BitVec.getLsbD_append, BitVec.getLsbD_setWidth, hi, decide_true, Bool.true_and]
  simp

/-- CPUID passes EAX and ECX to the configured function and distributes the words it returns to EAX, EBX,
ECX and EDX, clearing the upper halves; nothing else changes. -/
theorem C53_cpuid {id : BitVec 32 → BitVec 32 → Leaf} (hid : Identifies cfg id) :
    Simulates cfg slide .cpuid len s (cpuid id len s) := by
  refine .of_body (fun m => some (liftCpuid cfg m)) (fun _ _ => rfl) (fun m h => ⟨_, rfl, ?_⟩)
  have key : ∀ l : Leaf, l = id (s.reg 0 .d) (s.reg 1 .d) →
      liftCpuid cfg m = (((m.setGp rax (some (l.eax.setWidth 64))).setGp rcx (some (l.ecx.setWidth 64))).setGp rdx
        (some (l.edx.setWidth 64))).setGp rbx (some (l.ebx.setWidth 64)) := by
    rintro l rfl
    unfold Identifies at hid
    unfold liftCpuid
    split at hid
    next hc => simp only [hc, hid]; rfl
    next f hc =>
      simp only [hc, h.get]
      have e1 : S.reg { s with ip := s.ip + BitVec.ofNat 64 len } rax .d = s.reg 0 .d := rfl
      have e2 : S.reg { s with ip := s.ip + BitVec.ofNat 64 len } rcx .d = s.reg 1 .d := rfl
      rw [e1, e2, hid]
      simp only [and_some, lshr_some]
      rw [lo_half, lo_half]
      simp only [show (32#64).toNat = 32 from rfl, show (32 < 64) = True from by simp, if_true, hi_half]
  rw [key _ rfl]
  have := (((h.setGp rax ((id (s.reg 0 .d) (s.reg 1 .d)).eax.setWidth 64)).setGp rcx
    ((id (s.reg 0 .d) (s.reg 1 .d)).ecx.setWidth 64)).setGp rdx
    ((id (s.reg 0 .d) (s.reg 1 .d)).edx.setWidth 64)).setGp rbx ((id (s.reg 0 .d) (s.reg 1 .d)).ebx.setWidth 64)
  have e : cpuid id len s = ((((({ s with ip := s.ip + BitVec.ofNat 64 len } : S).setGp rax
      ((id (s.reg 0 .d) (s.reg 1 .d)).eax.setWidth 64)).setGp rcx
      ((id (s.reg 0 .d) (s.reg 1 .d)).ecx.setWidth 64)).setGp rdx
      ((id (s.reg 0 .d) (s.reg 1 .d)).edx.setWidth 64)).setGp rbx
      ((id (s.reg 0 .d) (s.reg 1 .d)).ebx.setWidth 64)) := by
    simp only [cpuid, S.setGp]
    congr 1
    funext r
    match r with
    | 0 => rfl
    | 1 => rfl
    | 2 => rfl
    | 3 => rfl
    | ⟨n + 4, hn⟩ =>
      have hne : ∀ k : Fin 16, k.val < 4 → (⟨n + 4, hn⟩ : Fin 16) ≠ k := by
        intro k hk h
        have := congrArg Fin.val h
        have : n + 4 = k.val := this
        omega
      rw [if_neg (hne rbx (by decide)), if_neg (hne rdx (by decide)), if_neg (hne rcx (by decide)),
        if_neg (hne rax (by decide))]
      rfl
  rw [e]
  exact this

/-- RDTSC splits the cycle counter over EDX and EAX and clears the upper halves of RDX and RAX. -/
theorem C53_rdtsc {t : BitVec 64} (ht : cfg.cycles = some t) :
    Simulates cfg slide .rdtsc len s (rdtsc t len s) := by
  refine .of_body (fun m => some (liftRdtsc cfg m)) (fun _ _ => rfl) (fun m h => ⟨_, rfl, ?_⟩)
  have := (h.setGp rax ((t.extractLsb' 0 32).setWidth 64)).setGp rdx ((t.extractLsb' 32 32).setWidth 64)
  have e1 : liftRdtsc cfg m = (m.setGp rax (some ((t.extractLsb' 0 32).setWidth 64))).setGp rdx
      (some ((t.extractLsb' 32 32).setWidth 64)) := by
    have a : BitVec.setWidth 32 t = t.extractLsb' 0 32 := by
      apply BitVec.eq_of_getLsbD_eq; intro i hi; simp [hi]
    have b : t >>> 32 = (t.extractLsb' 32 32).setWidth 64 := by
      apply BitVec.eq_of_getLsbD_eq; intro i hi
      simp only [BitVec.getLsbD_ushiftRight, BitVec.getLsbD_setWidth, BitVec.getLsbD_extractLsb', hi,
        decide_true, Bool.true_and]
      by_cases h : i < 32
      · simp [h]
      · simp only [h, decide_false, Bool.false_and]
        exact BitVec.getLsbD_of_ge _ _ (by omega)
    simp only [liftRdtsc, ht, trunc_some, zext_some, lshr_some, a]
    simp only [show (32#64).toNat = 32 from rfl, show (32 < 64) = True from by simp, if_true, b]
  have e2 : rdtsc t len s = ((({ s with ip := s.ip + BitVec.ofNat 64 len } : S).setGp rax
      ((t.extractLsb' 0 32).setWidth 64)).setGp rdx ((t.extractLsb' 32 32).setWidth 64)) := by
    simp only [rdtsc, S.setGp]
    congr 1
    funext r
    match r with
    | 0 => rfl
    | 1 => rfl
    | 2 => rfl
    | ⟨n + 3, hn⟩ =>
      rw [if_neg, if_neg] <;> simp [Fin.ext_iff]
  rw [e1, e2]
  exact this

/-- A processor whose words are all different: the leaf and the subleaf are found again in EBX and ECX. -/
def exampleId (a c : BitVec 32) : Leaf := ⟨0x16, a, c, 0x178bfbff⟩

/-- The function for it. -/
def exampleCfg : Cfg where
  cpuinfo := some fun a c => (IR.or (shl (zext 64 c) (some 32)) (some 0x16),
    IR.or (shl (zext 64 a) (some 32)) (some 0x178bfbff))
  cycles := some 0x123456789abcdef0

-- the function implements the identification, and the code gives the words to the right registers
example : Identifies exampleCfg exampleId := by
  intro a c
  have : ∀ (x y : BitVec 32), (BitVec.setWidth 64 x <<< 32) ||| y.setWidth 64 = x ++ y := by
    intro x y
    apply BitVec.eq_of_getLsbD_eq
    intro i hi
    simp only [BitVec.getLsbD_or, BitVec.getLsbD_shiftLeft, BitVec.getLsbD_setWidth, BitVec.getLsbD_append, hi,
      decide_true, Bool.true_and]
    by_cases h : i < 32
    · simp [h]
    · have := BitVec.getLsbD_of_ge y i (by omega)
      simp [h, this]
      omega
  have h1 := this c 0x16
  have h2 := this a 0x178bfbff
  simp only [exampleId]
  rw [← h1, ← h2]
  rfl
example : ((lift exampleCfg 0 .cpuid 0x400000 2 (s0.rep 0)).map fun o => (o.st.gp 0, o.st.gp 1, o.st.gp 2, o.st.gp 3))
    = some (some 0x16, some 3, some 0x178bfbff, some 5) := by decide +kernel
example : Identifies {} (fun _ _ => ⟨0, 0, 0, 0⟩) := fun _ _ => rfl
example : ((lift exampleCfg 0 .rdtsc 0x400000 2 (s0.rep 0)).map fun o => (o.st.gp 0, o.st.gp 2))
    = some (some 0x9abcdef0, some 0x12345678) ∧ (rdtsc 0x123456789abcdef0 2 s0).gp 2 = 0x12345678 := by decide +kernel

/-! ### C54: control and status words -/

/-- FNSTCW, FNSTSW and STMXCSR store, and FLDCW and LDMXCSR accept, the values of a fresh process.

Missing: other values (`C54_x86_counterexample`): what FLDCW and LDMXCSR load is ignored, and exceptions
are not recorded in the status word and in MXCSR. -/
theorem C54_x86_ctl_partial (k : Ctl) (o : Op) (ho : Op.plain o = true)
    (hs : ctl k o len s .fresh = some (s', .fresh)) : Simulates cfg slide (.ctl k o) len s s' := by
  refine .of_body (fun m => liftCtl slide m k o) (fun _ _ => rfl) (fun m h => ?_)
  cases k
  case fstcw =>
    simp only [ctl, Option.map_eq_some_iff, Prod.mk.injEq, and_true, exists_eq_right] at hs
    exact h.opStore .w o _ ho hs
  case fstsw =>
    simp only [ctl, Option.map_eq_some_iff, Prod.mk.injEq, and_true, exists_eq_right] at hs
    exact h.opStore .w o _ ho hs
  case stmxcsr =>
    simp only [ctl, Option.map_eq_some_iff, Prod.mk.injEq, and_true, exists_eq_right] at hs
    exact h.opStore .d o _ ho hs
  case fldcw =>
    simp only [ctl, Option.map_eq_some_iff, Prod.mk.injEq] at hs
    obtain ⟨v, -, rfl, -⟩ := hs
    exact ⟨m, rfl, h⟩
  case ldmxcsr =>
    simp only [ctl, Option.bind_eq_some_iff] at hs
    obtain ⟨v, -, hs⟩ := hs
    split at hs
    · simp only [Option.some.injEq, Prod.mk.injEq] at hs
      obtain ⟨rfl, -⟩ := hs
      exact ⟨m, rfl, h⟩
    · cases hs

-- `stmxcsr [rsi]`, `fnstsw ax`, `ldmxcsr` of the fresh value
example : ∃ s', ctl .stmxcsr (.mem { base := .reg 6 }) 4 s0 .fresh = some (s', .fresh) ∧
    s'.mem 0x2000 = 0x80 ∧ s'.mem 0x2001 = 0x1f := ⟨_, rfl, by decide +kernel, by decide +kernel⟩
example : ∃ s', ctl .fstsw (.reg 0) 4 s0 .fresh = some (s', .fresh) ∧ s'.gp 0 = 0 :=
  ⟨_, rfl, by decide +kernel⟩
example : (ctl .ldmxcsr (.reg 9) 4 { s0 with gp := fun _ => 0x1f80 } .fresh).map (·.2) = some .fresh := by
  decide +kernel

/-- **C54 is false** for values that are loaded into the control words: after `ldmxcsr` of `0x9fc0` (flush to
zero) `stmxcsr` must store that value, and after `fldcw` of `0x27f` `fnstcw` must; the lifted code of the
store gives `0x1f80` and `0x37f`. -/
theorem C54_x86_counterexample :
    (∃ s1 f1 s2, ctl .ldmxcsr (.reg 9) 4 { s0 with gp := fun _ => 0x9fc0 } .fresh = some (s1, f1) ∧
      ctl .stmxcsr (.reg 1) 4 s1 f1 = some (s2, f1) ∧ s2.gp 1 = 0x9fc0 ∧
      ∀ m, lift {} 0 (.ctl .ldmxcsr (.reg 9)) 0x400000 4 (S.rep 0 { s0 with gp := fun _ => 0x9fc0 }) = some m →
        (lift {} 0 (.ctl .stmxcsr (.reg 1)) 0x400004 4 m.st).map (fun o => o.st.gp 1) = some (some 0x1f80)) ∧
    (∃ s1 f1 s2, ctl .fldcw (.reg 9) 4 { s0 with gp := fun _ => 0x27f } .fresh = some (s1, f1) ∧
      ctl .fstcw (.reg 1) 4 s1 f1 = some (s2, f1) ∧ s2.gp 1 = 0x27f ∧
      ∀ m, lift {} 0 (.ctl .fldcw (.reg 9)) 0x400000 4 (S.rep 0 { s0 with gp := fun _ => 0x27f }) = some m →
        (lift {} 0 (.ctl .fstcw (.reg 1)) 0x400004 4 m.st).map (fun o => o.st.gp 1) = some (some 0x37f)) := by
  refine ⟨⟨_, _, _, rfl, rfl, by decide +kernel, fun m hm => ?_⟩, ⟨_, _, _, rfl, rfl, by decide +kernel, fun m hm => ?_⟩⟩
  · cases hm; decide +kernel
  · cases hm; decide +kernel

end Verif.X86.Spec
