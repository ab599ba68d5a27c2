import Verif.Config.Model

/-!
C40: the configuration API.
-/

namespace Verif.Config

/-! ### Specification -/

/-- The options a user can observe. -/
inductive Opt where
  | overflowIntrinsics | fastMath | clobberFlags | nativeSegment | verifyIr | pic
  | arch | callconv | sptrAddrspace | globalBase | pcBase
  | tailFunc | callFunc | syscallImpl | cpuinfoFunc | instrMarker
  | override (type : BitVec 32)
  deriving DecidableEq

/-- Values of options. -/
inductive OptVal where
  | bool (b : Bool)
  | arch (a : Arch)
  | conv (c : CallConv)
  | num (n : BitVec 32)
  | base (a : BitVec 64) (v : Ref)
  | ref (v : Ref)
  | unset
  deriving DecidableEq

/-- The value of an option in a configuration. -/
def Cfg.get (c : Cfg) : Opt → OptVal
  | .overflowIntrinsics => .bool c.overflowIntrinsics
  | .fastMath => .bool c.fastMath
  | .clobberFlags => .bool c.clobberFlags
  | .nativeSegment => .bool c.nativeSegment
  | .verifyIr => .bool c.verifyIr
  | .pic => .bool c.pic
  | .arch => .arch c.arch
  | .callconv => .conv c.callconv
  | .sptrAddrspace => .num c.sptrAddrspace
  | .globalBase => .base c.globalBaseAddr c.globalBase
  | .pcBase => .base c.pcBaseAddr c.pcBase
  | .tailFunc => .ref c.tailFunc
  | .callFunc => .ref c.callFunc
  | .syscallImpl => .ref c.syscallImpl
  | .cpuinfoFunc => .ref c.cpuinfoFunc
  | .instrMarker => .ref c.instrMarker
  | .override t => match c.overrides t with
    | some v => .ref v
    | none => .unset

/-- The names of architectures. -/
def archNames : List (String × Arch × CallConv) :=
  [("x86-64", .x86_64, .x86Sptr), ("x86_64", .x86_64, .x86Sptr), ("rv64", .rv64, .rvSptr),
   ("aarch64", .aarch64, .a64Sptr)]

def Build.has (b : Build) : Arch → Bool
  | .x86_64 => b.x86
  | .rv64 => b.rv64
  | .aarch64 => b.a64
  | .invalid => false

/-- The architecture selected by a name, if it is known and was built. -/
def supported (b : Build) (s : String) : Option (Arch × CallConv) :=
  (archNames.find? (fun p => p.1 = s)).bind (fun p => if b.has p.2.1 then some p.2 else none)

/-- What a call is meant to set an option to; `none`: the call has nothing to do with the option. -/
def intent (b : Build) : Call → Opt → Option OptVal
  | .setSptrAddrspace n, .sptrAddrspace => some (.num n)
  | .enableOverflowIntrinsics v, .overflowIntrinsics => some (.bool v)
  | .enableFastMath v, .fastMath => some (.bool v)
  | .enableVerifyIr v, .verifyIr => some (.bool v)
  | .setPositionIndependentCode v, .pic => some (.bool v)
  | .setGlobalBase a v, .globalBase => some (.base a v)
  | .setPcBase a v, .pcBase => some (.base a v)
  | .setInstrImpl t v, .override t' => if t' = t then some (.ref v) else none
  | .setTailFunc v, .tailFunc => some (.ref v)
  | .setCallFunc v, .callFunc => some (.ref v)
  | .setSyscallImpl v, .syscallImpl => some (.ref v)
  | .setCpuinfoFunc v, .cpuinfoFunc => some (.ref v)
  | .setInstrMarker v, .instrMarker => some (.ref v)
  | .setCallRetClobberFlags v, .clobberFlags => some (.bool v)
  | .setUseNativeSegmentBase v, .nativeSegment => some (.bool v)
  | .setArchitecture s, .arch => (supported b s).map (fun p => .arch p.1)
  | .setArchitecture s, .callconv => (supported b s).map (fun p => .conv p.2)
  | _, _ => none

/-- The value of an option after a history of calls: the one of the last call concerning it. -/
def lastWrite (b : Build) (o : Opt) : List Call → OptVal → OptVal
  | [], v => v
  | k :: ks, v => lastWrite b o ks ((intent b k o).getD v)

/-- The function arguments are acceptable: functions, or null where a function can be removed. -/
def Call.ArgOK : Call → Prop
  | .setInstrImpl _ v | .setSyscallImpl v => ∃ i, v = .fn i
  | .setTailFunc v | .setCallFunc v | .setCpuinfoFunc v | .setInstrMarker v => v = .null ∨ ∃ i, v = .fn i
  | _ => True

/-! ### Theorems -/

theorem setArchitecture_spec (b : Build) (c : Cfg) (s : String) :
    setArchitecture b c s = match supported b s with
      | some (a, cc) => ({ c with arch := a, callconv := cc }, true)
      | none => (c, false) := by
  simp only [setArchitecture, supported, archNames, List.find?]
  by_cases h1 : s = "x86-64"
  · subst h1; cases hb : b.x86 <;> simp [Build.has, hb]
  · by_cases h2 : s = "x86_64"
    · subst h2; cases hb : b.x86 <;> simp [Build.has, hb]
    · by_cases h3 : s = "rv64"
      · subst h3; cases hb : b.rv64 <;> simp [Build.has, hb]
      · by_cases h4 : s = "aarch64"
        · subst h4; cases hb : b.a64 <;> simp [Build.has, hb]
        · have e1 : ("x86-64" = s) = False := by simp [Ne.symm h1]
          have e2 : ("x86_64" = s) = False := by simp [Ne.symm h2]
          have e3 : ("rv64" = s) = False := by simp [Ne.symm h3]
          have e4 : ("aarch64" = s) = False := by simp [Ne.symm h4]
          simp [h1, h2, h3, h4, e1, e2, e3, e4]

/-- C40: a call changes exactly the options it is meant to change, and gives them the intended values.
It fails exactly if a function argument is not acceptable. -/
theorem C40_setter (b : Build) (c : Cfg) (k : Call) :
    (k.ArgOK ↔ (apply b c k).isSome) ∧
    ∀ c' r, apply b c k = some (c', r) → ∀ o, c'.get o = (intent b k o).getD (c.get o) := by
  constructor
  · cases k <;> simp only [Call.ArgOK, apply] <;> try simp
    all_goals
      rename_i v
      cases v <;> simp [Ref.cast, Ref.castOrNull]
  · intro c' r h o
    cases k with
    | setArchitecture s =>
      simp only [apply, Option.some.injEq, setArchitecture_spec] at h
      cases hs : supported b s with
      | none =>
        rw [hs] at h; simp only [Prod.mk.injEq] at h
        obtain ⟨rfl, -⟩ := h
        cases o <;> simp [intent, hs]
      | some p =>
        obtain ⟨a, cc⟩ := p
        rw [hs] at h; simp only [Prod.mk.injEq] at h
        obtain ⟨rfl, -⟩ := h
        cases o <;> simp [intent, hs, Cfg.get]
    | setInstrImpl t v =>
      simp only [apply] at h
      cases v <;> simp [Ref.cast] at h
      obtain ⟨rfl, -⟩ := h
      cases o <;> simp [intent, Cfg.get]
      rename_i t'
      by_cases ht : t' = t <;> simp [ht]
    | setTailFunc v | setCallFunc v | setSyscallImpl v | setCpuinfoFunc v | setInstrMarker v =>
      simp only [apply] at h
      cases v <;> simp [Ref.cast, Ref.castOrNull] at h <;>
        (obtain ⟨rfl, -⟩ := h; cases o <;> simp [intent, Cfg.get])
    | _ =>
      simp only [apply, Option.some.injEq, Prod.mk.injEq] at h
      obtain ⟨rfl, -⟩ := h
      cases o <;> simp [intent, Cfg.get]

/-- C40: after any history of acceptable calls, every option has the value of the last call that
concerned it, or its initial value. -/
theorem C40_last_write (b : Build) (ks : List Call) : ∀ (c : Cfg), (∀ k ∈ ks, k.ArgOK) →
    ∃ c', runCalls b c ks = some c' ∧ ∀ o, c'.get o = lastWrite b o ks (c.get o) := by
  induction ks with
  | nil => intro c _; exact ⟨c, rfl, fun _ => rfl⟩
  | cons k ks ih =>
    intro c hk
    obtain ⟨h1, h2⟩ := C40_setter b c k
    obtain ⟨⟨c1, r⟩, hc1⟩ := Option.isSome_iff_exists.1 (h1.1 (hk k List.mem_cons_self))
    obtain ⟨c', h3, h4⟩ := ih c1 (fun k' hk' => hk k' (List.mem_cons_of_mem _ hk'))
    refine ⟨c', by simp only [runCalls, hc1]; exact h3, ?_⟩
    intro o
    rw [h4, h2 c1 r hc1 o]
    rfl

/-- C40: calls that concern different options can be exchanged. -/
theorem C40_commute (b : Build) (c : Cfg) (k1 k2 : Call) (h1 : k1.ArgOK) (h2 : k2.ArgOK)
    (hd : ∀ o, intent b k1 o = none ∨ intent b k2 o = none) :
    ∃ c1 c2, runCalls b c [k1, k2] = some c1 ∧ runCalls b c [k2, k1] = some c2 ∧
      ∀ o, c1.get o = c2.get o := by
  obtain ⟨c1, e1, g1⟩ := C40_last_write b [k1, k2] c (by simp [h1, h2])
  obtain ⟨c2, e2, g2⟩ := C40_last_write b [k2, k1] c (by simp [h1, h2])
  refine ⟨c1, c2, e1, e2, fun o => ?_⟩
  rw [g1, g2]
  simp only [lastWrite]
  rcases hd o with h | h <;> simp [h]

/-- C40: the architecture names that are accepted; any other name is rejected and changes nothing. -/
theorem C40_architecture (b : Build) (c : Cfg) (s : String) :
    ((setArchitecture b c s).2 = true ↔
      (b.x86 = true ∧ (s = "x86-64" ∨ s = "x86_64")) ∨ (b.rv64 = true ∧ s = "rv64") ∨
      (b.a64 = true ∧ s = "aarch64")) ∧
    ((setArchitecture b c s).2 = false → (setArchitecture b c s).1 = c) := by
  simp only [setArchitecture]
  constructor
  · by_cases h1 : s = "x86-64" ∨ s = "x86_64"
    · have h3 : s ≠ "rv64" := by rcases h1 with rfl | rfl <;> decide
      have h4 : s ≠ "aarch64" := by rcases h1 with rfl | rfl <;> decide
      cases hb : b.x86 <;> simp [h1, h3, h4]
    · by_cases h3 : s = "rv64"
      · subst h3; cases hb : b.rv64 <;> simp
      · by_cases h4 : s = "aarch64"
        · subst h4; cases hb : b.a64 <;> simp
        · simp only [h1, h3, h4, if_false, and_false, or_self]; simp
  · split
    · split <;> simp
    · split
      · split <;> simp
      · split
        · split <;> simp
        · simp

/-- C40: after any history, the calling convention is the one of the architecture, provided that x86-64
was built in or an architecture was selected successfully. -/
theorem C40_convention (b : Build) (ks : List Call) : ∀ (c c' : Cfg), runCalls b c ks = some c' →
    c.callconv.toArch = c.arch → c'.callconv.toArch = c'.arch := by
  induction ks with
  | nil => intro c c' h hc; cases h; exact hc
  | cons k ks ih =>
    intro c c' h hc
    simp only [runCalls] at h
    split at h
    · cases h
    next c1 r hc1 =>
      refine ih c1 c' h ?_
      have hs := (C40_setter b c k).2 c1 r hc1
      have ha := hs .arch
      have hcc := hs .callconv
      simp only [Cfg.get] at ha hcc
      cases k with
      | setArchitecture s =>
        simp only [intent] at ha hcc
        cases hs : supported b s with
        | none => simp [hs] at ha hcc; rw [ha, hcc]; exact hc
        | some p =>
          simp [hs] at ha hcc; rw [ha, hcc]
          simp only [supported, archNames, List.find?] at hs
          repeat' (split at hs)
          all_goals
            first
            | (simp only [Option.bind_some] at hs; split at hs <;> simp at hs; subst hs; rfl)
            | simp at hs
      | _ => simp [intent] at ha hcc; rw [ha, hcc]; exact hc

theorem C40_convention_new (b : Build) (hb : b.x86 = true) (ks : List Call) (c' : Cfg)
    (h : runCalls b (Cfg.new b) ks = some c') : c'.callconv.toArch = c'.arch :=
  C40_convention b ks _ _ h (by simp [Cfg.new, Arch.default, hb, CallConv.toArch])

/-- Selecting an architecture makes them match, whatever was before. -/
theorem C40_convention_set (b : Build) (c : Cfg) (s : String) (h : (setArchitecture b c s).2 = true) :
    (setArchitecture b c s).1.callconv.toArch = (setArchitecture b c s).1.arch := by
  simp only [setArchitecture] at *
  repeat' split
  all_goals first | rfl | simp_all

/-- Without x86-64 support and without selecting an architecture they do not match (as the header
warns). -/
theorem C40_default_counterexample : ∃ b : Build, b.rv64 = true ∧
    (Cfg.new b).callconv.toArch ≠ (Cfg.new b).arch := ⟨⟨false, true, true⟩, rfl, by decide⟩

/-- C40: the implementation of system calls (or of an instruction) cannot be removed by passing NULL,
unlike the call function, the tail function and the instruction marker. -/
theorem C40_syscall_null_counterexample (b : Build) (c : Cfg) :
    apply b c (.setSyscallImpl .null) = none ∧ (∀ t, apply b c (.setInstrImpl t .null) = none) ∧
    (apply b c (.setCallFunc .null)).isSome ∧ (apply b c (.setTailFunc .null)).isSome ∧
    (apply b c (.setInstrMarker .null)).isSome := by
  simp [apply, Ref.cast, Ref.castOrNull]

/-- C40: the functions accepted as call, tail or system call function: exactly those of the C calling
convention that take one pointer and return nothing. -/
theorem C40_from_function (b : Build) (s : Sig) (arch : Arch) :
    fromFunction b s arch ≠ .invalid ↔ b.has arch = true ∧ ∃ as, s = ⟨0, [.ptr as], .void, false⟩ := by
  obtain ⟨cc, ps, ret, va⟩ := s
  simp only [fromFunction]
  have key : ∀ h : CallConv, h ≠ .invalid →
      ((if h = .invalid then .invalid
        else if h.fnCallConv ≠ cc then .invalid
        else match ps[h.paramIdx]? with
          | some (.ptr as) => if some (ps, ret, va) = h.fnType as then h else .invalid
          | _ => .invalid : CallConv) ≠ .invalid ↔
        ∃ as, (⟨cc, ps, ret, va⟩ : Sig) = ⟨0, [.ptr as], .void, false⟩) := by
    intro h hne
    have hty : ∀ as, h.fnType as = some ([.ptr as], .void, false) := by
      intro as; cases h <;> first | rfl | exact absurd rfl hne
    simp only [if_neg hne, CallConv.fnCallConv, CallConv.paramIdx, hty, Sig.mk.injEq]
    by_cases hcc : cc = 0
    · subst hcc
      simp only [ne_eq, not_true_eq_false, if_false, true_and]
      cases ps with
      | nil => simp
      | cons p ps =>
        cases p with
        | ptr as =>
          simp only [List.getElem?_cons_zero, Option.some.injEq, Prod.mk.injEq, List.cons.injEq,
            Ty.ptr.injEq, true_and]
          constructor
          · intro h'
            split at h'
            next h'' => exact ⟨as, ⟨rfl, h''.1⟩, h''.2⟩
            · exact absurd rfl h'
          · rintro ⟨as', ⟨rfl, h1⟩, h2⟩
            simp only [h1, h2, and_self, if_true]; exact hne
        | void => simp
        | other i => simp
    · simp [hcc, Ne.symm hcc]
  cases arch with
  | invalid => simp [Build.has]
  | x86_64 => cases hb : b.x86 <;> simp only [Build.has, hb, Bool.false_eq_true, if_false, if_true,
      false_and, true_and] <;> first | exact key _ (by decide) | simp
  | rv64 => cases hb : b.rv64 <;> simp only [Build.has, hb, Bool.false_eq_true, if_false, if_true,
      false_and, true_and] <;> first | exact key _ (by decide) | simp
  | aarch64 => cases hb : b.a64 <;> simp only [Build.has, hb, Bool.false_eq_true, if_false, if_true,
      false_and, true_and] <;> first | exact key _ (by decide) | simp

/-- C40: a lifted function has the signature that is accepted for call and tail functions of the same
architecture, so lifted functions can call each other. -/
theorem C40_lifted_accepted (b : Build) (c : Cfg) (hc : c.callconv.toArch = c.arch)
    (hb : b.has c.arch = true) :
    ∃ s, liftedSig c = some s ∧ fromFunction b s c.arch ≠ .invalid := by
  have hne : c.callconv ≠ .invalid := by
    intro h; rw [h] at hc; rw [← hc] at hb; cases hb
  refine ⟨⟨0, [.ptr c.sptrAddrspace], .void, false⟩, ?_, (C40_from_function b _ _).2 ⟨hb, _, rfl⟩⟩
  simp only [liftedSig]
  cases h : c.callconv <;> first | rfl | exact absurd h hne

/-- A history meeting the hypotheses: two settings of the same option, a rejected and an accepted
architecture. -/
example : ∃ c', runCalls ⟨true, true, false⟩ (Cfg.new ⟨true, true, false⟩)
      [.enableFastMath true, .setArchitecture "rv64", .setArchitecture "aarch64", .enableFastMath false,
       .setCallFunc (.fn 3)] = some c' ∧
    c'.arch = .rv64 ∧ c'.callconv = .rvSptr ∧ c'.fastMath = false ∧ c'.callFunc = .fn 3 :=
  ⟨_, rfl, rfl, rfl, rfl, rfl⟩

end Verif.Config
