import Verif.X86.All
import Verif.Lift.Model

/-!
What the x86-64 lifter knows when it generates code: whether an instruction can be lifted, the mode of
the program counter after it, and the registers it writes.  The theorems show that the generated code
agrees with it in every state.  Line numbers refer to /repo/src/x86-64/lifter-gp.cc.
-/

namespace Verif.X86

set_option linter.unusedSimpArgs false
set_option linter.constructorNameAsVariable false
set_option maxRecDepth 8000

open Verif.IR Verif.Lift

/-- Does `Lift` return true?  /repo/src/x86-64/lifter.cc:48-330 (the default case does not). -/
def handled : Instr → Bool
  | .unknown => false
  | _ => true

/-- Mode of the program counter after the code of an instruction; 594-690. -/
def form (callFn sysFn : Bool) (i : Instr) (stop : BitVec 64) : Form :=
  match i with
  | .jmpRel off => .const (stop + off)
  | .jmp _ => .value
  | .jcc _ off | .jcxz _ off | .loop _ _ off => .cond (stop + off) stop
  | .callRel _ | .call _ => if callFn then .check stop else .value
  | .ret _ => if callFn then .returned else .value
  | .syscall => if sysFn then .value else .const stop
  | .unknown => .value
  | _ => .const stop

/-- The register written by `OpStoreGp`. -/
def opOut : Op → List (Fin 16)
  | .reg r => [r]
  | .regH r => [hreg r]
  | _ => []

/-- The general-purpose register written by an SSE instruction. -/
def XOp.gpOut : XOp → List (Fin 16)
  | .gp r => [r]
  | _ => []

/-- The XMM register written by `OpStoreVec`. -/
def XOp.xOut : XOp → List (Fin 16)
  | .x r => [r]
  | _ => []

/-- General-purpose registers written by SSE instructions, /repo/src/x86-64/lifter-sse.cc. -/
def Sse.gpOuts : Sse → List (Fin 16)
  | .movq _ d _ | .pextr _ d _ _ => d.gpOut
  | .cvttsi _ _ d _ | .movmsk _ _ d _ => [d]
  | _ => []

/-- XMM registers written by SSE instructions. -/
def Sse.xOuts : Sse → List (Fin 16)
  | .movq _ d _ | .movs _ d _ | .movdq _ d _ | .movlp d _ | .movhp _ d _ => d.xOut
  | .movhlps d _ | .bin _ _ _ _ d _ | .addsub _ d _ | .andn _ d _ | .cmp _ _ d _ _ | .fminmax _ _ _ d _
  | .sqrt _ _ d _ | .cvt _ d _ | .cvtsi _ _ d _ | .unpck _ _ d _ | .shufpd d _ _ | .shufps d _ _ | .pshufd d _ _
  | .pshufw _ d _ _ | .insertps d _ _ | .pinsr _ d _ _ | .movdup _ _ d _ | .pshift _ _ d _ | .pshiftBytes _ d _
  | .palignr d _ _ | .pavg _ d _ | .pmulh _ d _ | .pmuld _ d _ | .pmaddwd d _ | .padds _ _ _ _ d _ | .psadbw d _
  | .pmaddubsw d _ | .pack _ _ d _ | .pcmp _ _ d _ | .pminmax _ _ _ d _ | .pabs _ d _ | .psign _ d _
  | .pmovx _ _ _ d _ => [d]
  | .fxrstor _ => List.finRange 16
  | .movnt _ _ | .comis _ _ _ | .cvttsi _ _ _ _ | .pextr _ _ _ _ | .movmsk _ _ _ _ | .fxsave _ | .prefetch _
  | .fence => []

/-- Does an SSE instruction write the status flags? -/
def Sse.flOuts : Sse → Bool
  | .comis _ _ _ => true
  | _ => false

/-- General-purpose registers passed to `SetReg`.  (A LOCK prefix goes with a memory operand.) -/
def gpOuts : Instr → List (Fin 16)
  | .mov _ _ d _ | .movzx _ _ d _ | .movbe _ d _ | .bswap _ d | .shift _ _ d _ | .shiftd _ _ d _ _
  | .rotate _ _ d _ | .imul2 _ d _ _ | .lea _ d _ | .cmov _ _ d _ | .setcc _ d | .bitscan _ _ _ d _
  | .popcnt _ d _ | .neg _ _ d | .not _ _ d | .incdec _ _ _ d => opOut d
  | .arith k _ _ d s => (if k ≠ .cmp then opOut d else []) ++ if k = .xadd then opOut s else []
  | .cmpxchg _ _ d _ => rax :: opOut d
  | .xchg _ d s => opOut d ++ opOut s
  | .logic k _ _ d _ => if k ≠ .test then opOut d else []
  | .bittest k _ _ d _ => if k ≠ .bt then opOut d else []
  | .mul1 _ z _ | .div _ z _ _ => if z = .b then [rax] else [rax, rdx]
  | .xlat _ _ | .cext _ | .lahf => [rax]
  | .csep _ => [rdx]
  | .loop _ _ _ => [rcx]
  | .callRel _ | .call _ | .ret _ | .push _ _ | .pushf _ | .popf _ => [rsp]
  | .pop _ d => rsp :: opOut d
  | .leave => [rsp, rbp]
  | .str k _ rep _ _ => (if k.hasDi then [rdi] else []) ++ (if k.hasSi then [rsi] else []) ++
      (if repMode k rep ≠ .no then [rcx] else []) ++ if k = .lods then [rax] else []
  | .syscall => [rcx, 11]
  | .cpuid => [rax, rcx, rdx, rbx]
  | .rdtsc => [rax, rdx]
  | .ctl k o => if k = .fldcw ∨ k = .ldmxcsr then [] else opOut o
  | .nop | .jmpRel _ | .jmp _ | .jcc _ _ | .jcxz _ _ | .sahf | .clc | .stc | .cmc | .cld | .std
  | .unknown => []
  | .sse i => i.gpOuts

/-- XMM registers passed to `SetReg`. -/
def xOuts : Instr → List (Fin 16)
  | .sse i => i.xOuts
  | _ => []

/-- Flags passed to `SetReg`. -/
def flOut (clobberFlags : Bool) : Instr → Flag → Bool
  | .arith .., f | .cmpxchg .., f | .logic .., f | .neg .., f | .shift .., f | .shiftd .., f | .mul1 .., f
  | .imul2 .., f | .div .., f | .bitscan .., f | .popcnt .., f => f != .df
  | .incdec .., f => f != .df && f != .cf
  | .rotate .., f => f == .of || f == .cf
  | .bittest .., f => f != .df && f != .zf
  | .callRel _, f | .call _, f | .ret _, f => clobberFlags && f != .df
  | .popf _, _ => true
  | .sahf, f => f != .df && f != .of
  | .clc, f | .stc, f | .cmc, f => f == .cf
  | .cld, f | .std, f => f == .df
  | .str k _ _ _ _, f => k.isCmp && f != .df
  | .nop, _ | .mov .., _ | .movzx .., _ | .movbe .., _ | .bswap .., _ | .xchg .., _ | .not .., _
  | .lea .., _ | .xlat .., _ | .cmov .., _ | .setcc .., _ | .cext .., _ | .csep .., _ | .jmpRel .., _
  | .jmp .., _ | .jcc .., _ | .jcxz .., _ | .loop .., _ | .push .., _ | .pop .., _ | .pushf .., _
  | .leave, _ | .lahf, _ | .cpuid, _ | .rdtsc, _ | .ctl .., _ | .syscall, _ | .unknown, _ => false
  | .sse i, f => i.flOuts && f != .df

/-- Frame condition: `s'` agrees with `s` outside the given registers and the program counter. -/
def FrW (G : Fin 16 → Prop) (F : Flag → Prop) (X : Fin 16 → Prop) (s s' : St) : Prop :=
  (∀ k, ¬ G k → s'.gp k = s.gp k) ∧ (∀ f, ¬ F f → s'.fl f = s.fl f) ∧ (¬ F .pf → s'.pf = s.pf) ∧
    ∀ k, ¬ X k → s'.vec k = s.vec k

/-- The same, also for the program counter. -/
def Fr (G : Fin 16 → Prop) (F : Flag → Prop) (X : Fin 16 → Prop) (s s' : St) : Prop := FrW G F X s s' ∧ s'.pc = s.pc

section
variable {G : Fin 16 → Prop} {F : Flag → Prop} {X : Fin 16 → Prop} {s s' s'' : St} {slide : BitVec 64}

theorem fr_refl : Fr G F X s s := ⟨⟨fun _ _ => rfl, fun _ _ => rfl, fun _ => rfl, fun _ _ => rfl⟩, rfl⟩

theorem fr_trans (h1 : Fr G F X s s') (h2 : Fr G F X s' s'') : Fr G F X s s'' :=
  ⟨⟨fun k h => (h2.1.1 k h).trans (h1.1.1 k h), fun k h => (h2.1.2.1 k h).trans (h1.1.2.1 k h),
    fun h => (h2.1.2.2.1 h).trans (h1.1.2.2.1 h), fun k h => (h2.1.2.2.2 k h).trans (h1.1.2.2.2 k h)⟩, h2.2.trans h1.2⟩

theorem fr_setGp {r : Fin 16} {v : Val 64} (hr : G r) (h : Fr G F X s s') : Fr G F X s (s'.setGp r v) := by
  refine fr_trans h ⟨⟨fun k hk => ?_, fun _ _ => rfl, fun _ => rfl, fun _ _ => rfl⟩, rfl⟩
  simp only [St.setGp]
  rw [if_neg]
  rintro rfl
  exact hk hr

theorem fr_store {r : Fin 16} {z : Sz} {v : Val z.bits} (hr : G r) (h : Fr G F X s s') :
    Fr G F X s (s'.store r z v) := by
  cases z <;> exact fr_setGp hr h

theorem fr_storeH {r : Fin 16} {v : Val 8} (hr : G r) (h : Fr G F X s s') :
    Fr G F X s (s'.storeH r v) := fr_setGp hr h

theorem fr_setF {f : Flag} {v : Val 1} (hf : F f) (h : Fr G F X s s') : Fr G F X s (s'.setF f v) := by
  refine fr_trans h ?_
  cases f <;> refine ⟨⟨fun _ _ => rfl, fun k hk => ?_, fun hk => ?_, fun _ _ => rfl⟩, rfl⟩ <;> first
    | rfl
    | exact absurd hf hk
    | (simp only [St.setF]
       rw [if_neg]
       rintro rfl
       exact hk hf)

theorem fr_setPf {v : Val 8} (hf : F .pf) (h : Fr G F X s s') : Fr G F X s (s'.setPf v) :=
  fr_trans h ⟨⟨fun _ _ => rfl, fun _ _ => rfl, fun hk => absurd hf hk, fun _ _ => rfl⟩, rfl⟩

theorem fr_undef {fs : List Flag} (hf : ∀ f ∈ fs, F f) (h : Fr G F X s s') : Fr G F X s (s'.undef fs) := by
  induction fs generalizing s' with
  | nil => exact h
  | cons f fs ih =>
    refine ih (s' := _) (fun g hg => hf g (List.mem_cons_of_mem _ hg)) ?_
    have := hf f List.mem_cons_self
    cases f <;> first | exact fr_setPf this h | exact fr_setF this h

theorem fr_pc {p : Pc} (h : Fr G F X s s') : FrW G F X s { s' with pc := p } := h.1

theorem fr_mem {a : Val 64} {n al : Nat} {v : Val (8 * n)} (h : Fr G F X s s')
    (hs : store s' a n al v = some s'') : Fr G F X s s'' := by
  unfold store at hs
  split at hs
  · cases hs
  · split at hs
    · cases hs; exact h
    · cases hs

theorem fr_opStore {z : Sz} {o : Op} {v : Val z.bits} (ho : ∀ r ∈ opOut o, G r) (h : Fr G F X s s')
    (hs : opStore slide s' z o v = some s'') : Fr G F X s s'' := by
  unfold opStore at hs
  split at hs
  · cases hs
  · cases hs; exact fr_store (ho _ (by simp [opOut])) h
  · split at hs
    · cases hs; exact fr_storeH (ho _ (by simp [opOut])) h
    · cases hs; exact fr_store (ho _ (by simp [opOut])) h
  · obtain ⟨a, -, hs⟩ := Option.bind_eq_some_iff.1 hs
    exact fr_mem h hs

theorem fr_opStoreIf {c : Bool} {z : Sz} {o : Op} {v : Val z.bits} (ho : c = true → ∀ r ∈ opOut o, G r)
    (h : Fr G F X s s') (hs : opStoreIf slide s' c z o v = some s'') : Fr G F X s s'' := by
  unfold opStoreIf at hs
  split at hs
  next hc => exact fr_opStore (ho hc) h hs
  · cases hs; exact h

theorem fr_atomic {z : Sz} {o : Op} {f : Val z.bits → Val z.bits} {v : Val z.bits} (h : Fr G F X s s')
    (hs : atomicRmw slide s' z o f = some (v, s'')) : Fr G F X s s'' := by
  unfold atomicRmw at hs
  split at hs
  · obtain ⟨a, -, hs⟩ := Option.bind_eq_some_iff.1 hs
    obtain ⟨b, -, hs⟩ := Option.bind_eq_some_iff.1 hs
    obtain ⟨m, h1, hs⟩ := Option.bind_eq_some_iff.1 hs
    cases hs
    exact fr_mem h h1
  · cases hs

theorem fr_rmw {z : Sz} {lock : Bool} {o : Op} {f : Val z.bits → Val z.bits} {v : Val z.bits}
    (h : Fr G F X s s') (hs : rmwLoad slide s' z lock o f = some (v, s'')) : Fr G F X s s'' := by
  unfold rmwLoad at hs
  split at hs
  · exact fr_atomic h hs
  · obtain ⟨a, -, hs⟩ := Option.map_eq_some_iff.1 hs
    cases hs; exact h

theorem fr_push {z : Sz} {v : Val z.bits} (hr : G rsp) (h : Fr G F X s s')
    (hs : stackPush s' z v = some s'') : Fr G F X s s'' := by
  unfold stackPush at hs
  obtain ⟨m, h1, hs⟩ := Option.bind_eq_some_iff.1 hs
  cases hs
  exact fr_setGp hr (fr_mem h h1)

theorem fr_pop {src : Fin 16} {v : Val 64} (hr : G rsp) (h : Fr G F X s s')
    (hs : stackPop s' src = some (v, s'')) : Fr G F X s s'' := by
  unfold stackPop at hs
  obtain ⟨m, h1, hs⟩ := Option.bind_eq_some_iff.1 hs
  cases hs
  exact fr_setGp hr h

/-! ### SSE -/

theorem fr_mergeX {r : Fin 16} {w : Nat} {v : Val w} (hr : X r) (h : Fr G F X s s') :
    Fr G F X s (s'.mergeX r v) := by
  refine fr_trans h ⟨⟨fun _ _ => rfl, fun _ _ => rfl, fun _ => rfl, fun k hk => ?_⟩, rfl⟩
  simp only [St.mergeX]
  rw [if_neg]
  rintro rfl
  exact hk hr

theorem fr_setX {r : Fin 16} {w n : Nat} {v : Vec w} (hr : X r) (h : Fr G F X s s') :
    Fr G F X s (s'.setX r n v) := fr_mergeX hr h

theorem fr_xstore {n al : Nat} {d : XOp} {v : Val (8 * n)} (hd : ∀ r ∈ d.xOut, X r) (h : Fr G F X s s')
    (hs : xstore slide s' n al d v = some s'') : Fr G F X s s'' := by
  unfold xstore at hs
  split at hs
  · cases hs; exact fr_mergeX (hd _ (by simp [XOp.xOut])) h
  · cases hs
  · obtain ⟨a, -, hs⟩ := Option.bind_eq_some_iff.1 hs
    exact fr_mem h hs

theorem fr_xmem {n al : Nat} {o : MemOp} {v : Val (8 * n)} (h : Fr G F X s s')
    (hs : (opAddr slide s' o).bind (fun a => store s' a n al v) = some s'') : Fr G F X s s'' := by
  obtain ⟨a, -, hs⟩ := Option.bind_eq_some_iff.1 hs
  exact fr_mem h hs

theorem fr_bin128 {z : Sz} {al n w : Nat} {d : Fin 16} {o : XOp} {f : Vec z.bits → Vec z.bits → Vec w} (hd : X d)
    (h : Fr G F X s s') (hs : bin128 slide s' z al d o n f = some s'') : Fr G F X s s'' := by
  unfold bin128 at hs
  obtain ⟨b, -, hs⟩ := Option.bind_eq_some_iff.1 hs
  cases hs
  exact fr_setX hd h

theorem fr_foldlM {f : St → Fin 16 → Option St} {l : List (Fin 16)}
    (hf : ∀ s1 s2 i, f s1 i = some s2 → Fr G F X s s1 → Fr G F X s s2) (h : Fr G F X s s')
    (hs : l.foldlM f s' = some s'') : Fr G F X s s'' := by
  induction l generalizing s' with
  | nil => cases hs; exact h
  | cons i l ih =>
    rw [List.foldlM_cons] at hs
    obtain ⟨s1, h1, hs⟩ := Option.bind_eq_some_iff.1 hs
    exact ih (hf _ _ _ h1 h) hs

/-- The frame condition of the SSE instructions. -/
theorem fr_sse {i : Sse} (hG : ∀ r ∈ i.gpOuts, G r) (hX : ∀ r ∈ i.xOuts, X r)
    (hF : i.flOuts = true → ∀ f, f ≠ .df → F f) (h : Fr G F X s s') (hs : i.lift slide s' = some s'') :
    Fr G F X s s'' := by
  have one : ∀ {d : Fin 16}, i.xOuts = [d] → X d := fun {d} hd => hX d (by rw [hd]; exact List.mem_singleton_self d)
  cases i <;> simp only [Sse.lift] at hs
  case movq z d o =>
    obtain ⟨v, -, hs⟩ := Option.bind_eq_some_iff.1 hs
    cases d with
    | x r => cases hs; exact fr_setX (one rfl) h
    | gp r => cases hs; exact fr_store (hG r (by simp [Sse.gpOuts, XOp.gpOut])) h
    | mem a => exact fr_xmem h hs
  case movs z d o =>
    obtain ⟨v, -, hs⟩ := Option.bind_eq_some_iff.1 hs
    refine fr_xstore hX ?_ hs
    split
    · exact fr_setX (one rfl) h
    · exact h
  case movdq al d o =>
    obtain ⟨v, -, hs⟩ := Option.bind_eq_some_iff.1 hs
    exact fr_xstore hX h hs
  case movnt o r => exact fr_xmem h hs
  case movhlps d r => cases hs; exact fr_setX (one rfl) h
  case movlp d o =>
    obtain ⟨v, -, hs⟩ := Option.bind_eq_some_iff.1 hs
    exact fr_xstore hX h hs
  case movhp pd d o =>
    split at hs
    · unfold liftMovhpd at hs
      split at hs
      · obtain ⟨v, -, hs⟩ := Option.bind_eq_some_iff.1 hs
        exact fr_xmem h hs
      · cases hs
      · obtain ⟨v, -, hs⟩ := Option.bind_eq_some_iff.1 hs
        cases hs; exact fr_setX (one rfl) h
    · unfold liftMovhps at hs
      split at hs
      · obtain ⟨v, -, hs⟩ := Option.bind_eq_some_iff.1 hs
        exact fr_xmem h hs
      · cases hs
      · obtain ⟨v, -, hs⟩ := Option.bind_eq_some_iff.1 hs
        cases hs; exact fr_setX (one rfl) h
  case bin op horz scalar z d o =>
    unfold liftBin at hs
    split at hs
    · split at hs
      · cases hs; exact fr_mergeX (one rfl) h
      · cases hs; exact fr_setX (one rfl) h
    · split at hs
      · obtain ⟨v, -, hs⟩ := Option.bind_eq_some_iff.1 hs
        cases hs; exact fr_mergeX (one rfl) h
      · exact fr_bin128 (one rfl) h hs
  case comis z d o =>
    have hF' : ∀ f, f ≠ .df → F f := hF rfl
    unfold liftComis at hs
    obtain ⟨v, -, hs⟩ := Option.bind_eq_some_iff.1 hs
    cases hs
    exact fr_setF (hF' _ (by decide)) (fr_setF (hF' _ (by decide)) (fr_setF (hF' _ (by decide))
      (fr_setPf (hF' _ (by decide)) (fr_setF (hF' _ (by decide)) (fr_setF (hF' _ (by decide)) h)))))
  case cmp scalar z d o imm =>
    unfold liftCmp at hs
    obtain ⟨p, -, hs⟩ := Option.bind_eq_some_iff.1 hs
    split at hs
    · obtain ⟨v, -, hs⟩ := Option.bind_eq_some_iff.1 hs
      cases hs; exact fr_mergeX (one rfl) h
    · exact fr_bin128 (one rfl) h hs
  case fminmax mx scalar z d o =>
    unfold liftFminmax at hs
    split at hs
    · obtain ⟨v, -, hs⟩ := Option.bind_eq_some_iff.1 hs
      cases hs; exact fr_mergeX (one rfl) h
    · exact fr_bin128 (one rfl) h hs
  case sqrt scalar z d o =>
    unfold liftSqrt at hs
    split at hs
    · obtain ⟨v, -, hs⟩ := Option.bind_eq_some_iff.1 hs
      cases hs; exact fr_mergeX (one rfl) h
    · exact fr_bin128 (one rfl) h hs
  case cvt k d o =>
    unfold liftCvt at hs
    cases k <;> (
      obtain ⟨v, -, hs⟩ := Option.bind_eq_some_iff.1 hs
      cases hs
      first | exact fr_setX (one rfl) h | exact fr_mergeX (one rfl) h)
  case cvttsi z iz d o =>
    obtain ⟨v, -, hs⟩ := Option.bind_eq_some_iff.1 hs
    cases hs; exact fr_store (hG d (by simp [Sse.gpOuts])) h
  case cvtsi z iz d o =>
    obtain ⟨v, -, hs⟩ := Option.bind_eq_some_iff.1 hs
    cases hs; exact fr_mergeX (one rfl) h
  case insertps d o imm =>
    unfold liftInsertps at hs
    have fin : ∀ {v w : Vec 32} {s1 : St}, (if immField imm 0 15 = 0 then some (s'.setX d 4 v)
        else some (s'.setX d 4 w)) = some s1 → Fr G F X s s1 := by
      intro v w s1 hs
      split at hs
      · cases hs; exact fr_setX (one rfl) h
      · cases hs; exact fr_setX (one rfl) h
    cases o <;> (
      obtain ⟨v, -, hs⟩ := Option.bind_eq_some_iff.1 hs
      exact fin hs)
  case pinsr z d o imm =>
    obtain ⟨v, -, hs⟩ := Option.bind_eq_some_iff.1 hs
    cases hs; exact fr_setX (one rfl) h
  case pextr z d r imm =>
    unfold liftPextr at hs
    cases d with
    | x r => cases hs
    | gp r => cases hs; exact fr_setGp (hG r (by simp [Sse.gpOuts, XOp.gpOut])) h
    | mem a => exact fr_xmem h hs
  case movdup odd z d o =>
    obtain ⟨v, -, hs⟩ := Option.bind_eq_some_iff.1 hs
    cases hs; exact fr_setX (one rfl) h
  case pshift k z d c =>
    cases c <;> (
      obtain ⟨v, -, hs⟩ := Option.bind_eq_some_iff.1 hs
      cases hs; exact fr_setX (one rfl) h)
  case pshiftBytes right d imm => cases hs; exact fr_setX (one rfl) h
  case movmsk z rz d r =>
    split at hs
    · cases hs; exact fr_setGp (hG d (by simp [Sse.gpOuts])) h
    · cases hs
  case pmovx sgn zf zt d o =>
    obtain ⟨v, -, hs⟩ := Option.bind_eq_some_iff.1 hs
    cases hs; exact fr_setX (one rfl) h
  case fxsave o =>
    obtain ⟨a, -, hs⟩ := Option.bind_eq_some_iff.1 hs
    obtain ⟨m, h1, hs⟩ := Option.bind_eq_some_iff.1 hs
    exact fr_foldlM (fun _ _ _ h1 h => fr_mem h h1) (fr_mem h h1) hs
  case fxrstor o =>
    obtain ⟨a, -, hs⟩ := Option.bind_eq_some_iff.1 hs
    refine fr_foldlM (fun s1 s2 i h1 h => ?_) h hs
    obtain ⟨v, -, h1⟩ := Option.bind_eq_some_iff.1 h1
    cases h1
    exact fr_mergeX (hX i (List.mem_finRange i)) h
  case prefetch o =>
    obtain ⟨a, -, hs⟩ := Option.bind_eq_some_iff.1 hs
    cases hs; exact h
  case fence => cases hs; exact h
  all_goals exact fr_bin128 (one rfl) h hs

theorem fr_flagSap {w : Nat} {v : Val w} (h1 : F .sf) (h2 : F .pf) (h3 : F .af) (h : Fr G F X s s') :
    Fr G F X s (flagSap s' v) := fr_setF h3 (fr_setPf h2 (fr_setF h1 h))

theorem fr_flagAdd {cfg : Cfg} {w : Nat} {a b c : Val w} {sk : Bool}
    (hF : ∀ f, f ≠ .df → (sk = true → f ≠ .cf) → F f) (h : Fr G F X s s') :
    Fr G F X s (flagAdd cfg s' a b c sk) := by
  have hF' : ∀ f, f ≠ .df → f ≠ .cf → F f := fun f h1 h2 => hF f h1 (fun _ => h2)
  unfold flagAdd
  have h1 : Fr G F X s ((((s'.setF .zf (isZero a)).setF .sf (isNeg a)).setPf (trunc 8 a)).setF .af
      (auxFlag a b c)) :=
    fr_setF (hF' _ (by simp) (by simp)) (fr_setPf (hF' _ (by simp) (by simp))
      (fr_setF (hF' _ (by simp) (by simp)) (fr_setF (hF' _ (by simp) (by simp)) h)))
  cases sk with
  | true =>
    simp only [if_true]
    split <;> exact fr_setF (hF' _ (by simp) (by simp)) h1
  | false =>
    simp only [Bool.false_eq_true, if_false]
    split <;> exact fr_setF (hF' _ (by simp) (by simp)) (fr_setF (hF _ (by simp) (by simp)) h1)

theorem fr_flagSub {w : Nat} {a b c : Val w} {sk az : Bool}
    (hF : ∀ f, f ≠ .df → (sk = true → f ≠ .cf) → F f) (h : Fr G F X s s') :
    Fr G F X s (flagSub s' a b c sk az) := by
  have hF' : ∀ f, f ≠ .df → f ≠ .cf → F f := fun f h1 h2 => hF f h1 (fun _ => h2)
  unfold flagSub
  refine fr_setF (hF' _ (by simp) (by simp)) ?_
  have h1 : Fr G F X s (((((s'.setF .zf (if az then icmp .eq b c else isZero a)).setF .sf
      (icmp .slt a (some 0#w))).setPf (trunc 8 a)).setF .af (auxFlag a b c))) :=
    fr_setF (hF' _ (by simp) (by simp)) (fr_setPf (hF' _ (by simp) (by simp))
      (fr_setF (hF' _ (by simp) (by simp)) (fr_setF (hF' _ (by simp) (by simp)) h)))
  cases sk with
  | true => exact h1
  | false => exact fr_setF (hF .cf (by simp) (by simp)) h1

theorem fr_flagFromReg {w : Nat} {v : Val w} (hF : ∀ kv ∈ rflagsIndices, kv.2 < w → F kv.1)
    (h : Fr G F X s s') : Fr G F X s (flagFromReg s' v) := by
  unfold flagFromReg
  revert hF
  generalize rflagsIndices = l
  intro hF
  induction l generalizing s' with
  | nil => exact h
  | cons kv l ih =>
    refine ih (s' := _) ?_ (fun g hg => hF g (List.mem_cons_of_mem _ hg))
    by_cases hw : w ≤ kv.2
    · simp only [if_pos hw]; exact h
    · have := hF kv List.mem_cons_self (by omega)
      rcases kv with ⟨f, n⟩
      cases f <;> simp only [if_neg hw] <;> first | exact fr_setPf this h | exact fr_setF this h

theorem fr_clobber {cfg : Cfg} (hF : cfg.clobberFlags = true → ∀ f, f ≠ .df → F f) (h : Fr G F X s s') :
    Fr G F X s (clobber cfg s') := by
  unfold clobber
  split
  next hc =>
    refine fr_undef (fun f hf => hF hc f ?_) h
    rintro rfl
    simp at hf
  · exact h

theorem fr_mulFlags {cfg : Cfg} {signed : Bool} {w : Nat} {a b : Val w} (hF : ∀ f, f ≠ .df → F f)
    (h : Fr G F X s s') : Fr G F X s (mulFlags cfg s' signed a b) := by
  unfold mulFlags
  exact fr_undef (fun f hf => hF f (by rintro rfl; simp at hf))
    (fr_setF (hF _ (by simp)) (fr_setF (hF _ (by simp)) h))

theorem fr_mulStore {z : Sz} {v : Val (z.bits * 2)} (ha : G rax) (hd : z ≠ .b → G rdx)
    (h : Fr G F X s s') : Fr G F X s (mulStore s' z v) := by
  cases z with
  | b => exact fr_store (z := .w) ha h
  | w => exact fr_store (z := .w) (hd (by decide)) (fr_store (z := .w) ha h)
  | d => exact fr_store (z := .d) (hd (by decide)) (fr_store (z := .d) ha h)
  | q => exact fr_store (z := .q) (hd (by decide)) (fr_store (z := .q) ha h)

theorem fr_strBody {k : Str} {z : Sz} {ax : Val z.bits} {si di : Val 64} {a b : Val z.bits}
    (h : Fr G F X s s') (hs : strBody k z ax s' si di = some (s'', a, b)) : Fr G F X s s'' := by
  cases k <;> simp only [strBody] at hs
  · obtain ⟨v, -, hs⟩ := Option.bind_eq_some_iff.1 hs
    cases hs; exact h
  · obtain ⟨v, h1, hs⟩ := Option.bind_eq_some_iff.1 hs
    cases hs; exact fr_mem h h1
  · obtain ⟨v, -, hs⟩ := Option.bind_eq_some_iff.1 hs
    obtain ⟨v, h1, hs⟩ := Option.bind_eq_some_iff.1 hs
    cases hs; exact fr_mem h h1
  · obtain ⟨v, -, hs⟩ := Option.bind_eq_some_iff.1 hs
    cases hs; exact h
  · obtain ⟨v, -, hs⟩ := Option.bind_eq_some_iff.1 hs
    obtain ⟨v, -, hs⟩ := Option.bind_eq_some_iff.1 hs
    cases hs; exact h

theorem fr_repLoop {k : Str} {z : Sz} {mode : RepMode} {ax : Val z.bits} {adj : Val 64} {fuel : Nat}
    {si di count si' di' count' : Val 64} {a b : Val z.bits} (h : Fr G F X s s')
    (hs : repLoop k z mode ax adj fuel s' si di count = some (s'', si', di', count', a, b)) :
    Fr G F X s s'' := by
  induction fuel generalizing s' si di count with
  | zero => cases hs
  | succ fuel ih =>
    unfold repLoop at hs
    obtain ⟨⟨m, a1, b1⟩, h1, hs⟩ := Option.bind_eq_some_iff.1 hs
    obtain ⟨c, -, hs⟩ := Option.bind_eq_some_iff.1 hs
    split at hs
    · exact ih (fr_strBody h h1) hs
    · cases hs; exact fr_strBody h h1

end

/-- Frame condition of an instruction. -/
abbrev FrI (cl : Bool) (i : Instr) (s s' : St) : Prop :=
  FrW (fun k => k ∈ gpOuts i) (fun f => flOut cl i f = true) (fun x => x ∈ xOuts i) s s'

/-- The part of `liftCall` before the call. -/
theorem fr_call {cfg : Cfg} {slide : BitVec 64} {s s' : St} {G : Fin 16 → Prop} {F : Flag → Prop} {X : Fin 16 → Prop}
    {m0 : St} {tgt : St → Option (Val 64)} {next : BitVec 64} (hc : cfg.callFunction = none) (hr : G rsp)
    (hF : cfg.clobberFlags = true → ∀ f, f ≠ .df → F f) (h : Fr G F X s m0)
    (hs : liftCall cfg slide m0 tgt next = some s') : FrW G F X s s' ∧ formOf s'.pc = .value := by
  unfold liftCall at hs
  obtain ⟨t, -, hs⟩ := Option.bind_eq_some_iff.1 hs
  obtain ⟨m1, h1, hs⟩ := Option.bind_eq_some_iff.1 hs
  simp only [hc] at hs
  cases hs
  exact ⟨fr_pc (fr_push hr (fr_clobber hF h) h1), rfl⟩

/-- The code generated for one instruction, without call and system call functions, agrees with the
static knowledge. -/
theorem lift_static {cfg : Cfg} {slide : BitVec 64} {i : Instr} {start : BitVec 64} {len : Nat}
    {s : St} {o : Out} (hc : cfg.callFunction = none) (hsy : cfg.syscall = none)
    (h : lift cfg slide i start len s = some o) :
    o.lifted = handled i ∧ o.returned = false ∧
      formOf o.st.pc = form false false i (stopPc start len) ∧
      FrI cfg.clobberFlags i s o.st := by
  have ok : ∀ {x : Option St}, handled i = true →
      x.map (fun m => ({ st := m } : Out)) = some o →
      (∀ s', x = some s' → FrI cfg.clobberFlags i { s with pc := .const (stopPc start len) } s' ∧
        formOf s'.pc = form false false i (stopPc start len)) →
      o.lifted = handled i ∧ o.returned = false ∧
      formOf o.st.pc = form false false i (stopPc start len) ∧
      FrI cfg.clobberFlags i s o.st := by
    intro x h1 h3 h4
    obtain ⟨s', h5, rfl⟩ := Option.map_eq_some_iff.1 h3
    obtain ⟨h6, h7⟩ := h4 s' h5
    exact ⟨h1.symm, rfl, h7, h6⟩
  have base : Fr (fun k => k ∈ gpOuts i) (fun f => flOut cfg.clobberFlags i f = true) (fun x => x ∈ xOuts i)
    { s with pc := .const (stopPc start len) } { s with pc := .const (stopPc start len) } := fr_refl
  have plain : ∀ {x : Option St}, handled i = true →
      form false false i (stopPc start len) = .const (stopPc start len) →
      x.map (fun m => ({ st := m } : Out)) = some o →
      (∀ s', x = some s' → Fr (fun k => k ∈ gpOuts i) (fun f => flOut cfg.clobberFlags i f = true) (fun x => x ∈ xOuts i)
        { s with pc := .const (stopPc start len) } s') →
      o.lifted = handled i ∧ o.returned = false ∧
      formOf o.st.pc = form false false i (stopPc start len) ∧
      FrI cfg.clobberFlags i s o.st := by
    intro x h1 h2 h3 h4
    refine ok h1 h3 fun s' hs => ⟨(h4 s' hs).1, ?_⟩
    rw [(h4 s' hs).2, h2]
    rfl
  cases i <;> simp only [lift] at h
  case nop => exact plain rfl rfl h fun s' hs => by cases hs; exact base
  case mov z sz d r =>
    refine plain rfl rfl h fun s' hs => ?_
    obtain ⟨v, -, hs⟩ := Option.bind_eq_some_iff.1 hs
    exact fr_opStore (fun _ h => h) base hs
  case movzx z sz d r =>
    refine plain rfl rfl h fun s' hs => ?_
    unfold liftMovzx at hs
    obtain ⟨v, -, hs⟩ := Option.bind_eq_some_iff.1 hs
    split at hs
    · cases hs; exact fr_setGp (by simp [gpOuts, opOut]) base
    · cases hs; exact fr_setGp (by simp [gpOuts, opOut]) base
    · exact fr_opStore (fun _ h => h) base hs
  case movbe z d r =>
    refine plain rfl rfl h fun s' hs => ?_
    obtain ⟨v, -, hs⟩ := Option.bind_eq_some_iff.1 hs
    exact fr_opStore (fun _ h => h) base hs
  case bswap z d =>
    refine plain rfl rfl h fun s' hs => ?_
    obtain ⟨v, -, hs⟩ := Option.bind_eq_some_iff.1 hs
    exact fr_opStore (fun _ h => h) base hs
  case arith k z lock d r =>
    refine plain rfl rfl h fun s' hs => ?_
    unfold liftArith at hs
    obtain ⟨v, -, hs⟩ := Option.bind_eq_some_iff.1 hs
    obtain ⟨⟨op1, m1⟩, h1, hs⟩ := Option.bind_eq_some_iff.1 hs
    obtain ⟨m2, h2, hs⟩ := Option.bind_eq_some_iff.1 hs
    obtain ⟨m3, h3, hs⟩ := Option.bind_eq_some_iff.1 hs
    have f3 := fr_opStoreIf (fun hk x hx => by
      simp only [decide_eq_true_eq] at hk
      simp only [gpOuts, if_pos hk]
      exact List.mem_append_right _ hx)
      (fr_opStoreIf (fun hk x hx => by
        simp only [decide_eq_true_eq] at hk
        simp only [gpOuts, if_pos hk.1]
        exact List.mem_append_left _ hx) (fr_rmw base h1) h2) h3
    simp only [Option.pure_def, Option.some.injEq] at hs
    subst hs
    split
    · exact fr_flagSub (fun f h1 _ => by simp [flOut, h1]) f3
    · exact fr_flagAdd (fun f h1 _ => by simp [flOut, h1]) f3
  case cmpxchg z lock d r =>
    refine plain rfl rfl h fun s' hs => ?_
    have hr : rax ∈ gpOuts (.cmpxchg z lock d r) := by simp [gpOuts]
    unfold liftCmpxchg at hs
    obtain ⟨v, -, hs⟩ := Option.bind_eq_some_iff.1 hs
    cases lock with
    | true =>
      simp only [if_true] at hs
      obtain ⟨⟨op1, m1⟩, h1, hs⟩ := Option.bind_eq_some_iff.1 hs
      cases hs
      exact fr_store hr (fr_setF (by simp [flOut]) (fr_flagSub (fun f h1 _ => by simp [flOut, h1])
        (fr_atomic base h1)))
    | false =>
      simp only [Bool.false_eq_true, if_false] at hs
      obtain ⟨dst, -, hs⟩ := Option.bind_eq_some_iff.1 hs
      obtain ⟨m1, h1, hs⟩ := Option.bind_eq_some_iff.1 hs
      cases hs
      exact fr_store hr (fr_opStore (fun x hx => by simp [gpOuts, hx])
        (fr_flagSub (fun f h1 _ => by simp [flOut, h1]) base) h1)
  case xchg z d r =>
    refine plain rfl rfl h fun s' hs => ?_
    unfold liftXchg at hs
    obtain ⟨v, -, hs⟩ := Option.bind_eq_some_iff.1 hs
    split at hs
    · obtain ⟨⟨op1, m1⟩, h1, hs⟩ := Option.bind_eq_some_iff.1 hs
      exact fr_opStore (fun x hx => List.mem_append_right _ hx) (fr_atomic base h1) hs
    · obtain ⟨op1, -, hs⟩ := Option.bind_eq_some_iff.1 hs
      obtain ⟨m1, h1, hs⟩ := Option.bind_eq_some_iff.1 hs
      exact fr_opStore (fun x hx => List.mem_append_right _ hx)
        (fr_opStore (fun x hx => List.mem_append_left _ hx) base h1) hs
  case logic k z lock d r =>
    refine plain rfl rfl h fun s' hs => ?_
    have fin : ∀ {w : Nat} {m : St} (res : Val w) (v1 : Val 1),
        Fr (fun k_1 => k_1 ∈ gpOuts (.logic k z lock d r))
        (fun f => flOut cfg.clobberFlags (.logic k z lock d r) f = true) (fun x => x ∈ xOuts (.logic k z lock d r))
        { s with pc := .const (stopPc start len) } m →
        Fr (fun k_1 => k_1 ∈ gpOuts (.logic k z lock d r))
        (fun f => flOut cfg.clobberFlags (.logic k z lock d r) f = true) (fun x => x ∈ xOuts (.logic k z lock d r))
        { s with pc := .const (stopPc start len) }
        (((flagSap (m.setF .zf v1) res).setF .cf (some 0#1)).setF .of (some 0#1)) := by
      intro w m res v1 h
      exact fr_setF rfl (fr_setF rfl (fr_flagSap rfl rfl rfl (fr_setF rfl h)))
    unfold liftLogic at hs
    split at hs
    next hk =>
      obtain ⟨m1, h1, hs⟩ := Option.bind_eq_some_iff.1 hs
      cases hs
      have := fr_opStore (fun x hx => by
        simp [gpOuts, hk.1, hx]) base h1
      exact fr_setF rfl (fr_setF rfl (fr_setF rfl (fr_flagSap rfl rfl rfl this)))
    · obtain ⟨v, -, hs⟩ := Option.bind_eq_some_iff.1 hs
      obtain ⟨⟨op1, m1⟩, h1, hs⟩ := Option.bind_eq_some_iff.1 hs
      obtain ⟨m2, h2, hs⟩ := Option.bind_eq_some_iff.1 hs
      cases hs
      exact fin _ _ (fr_opStoreIf (fun hk x hx => by
        simp only [decide_eq_true_eq] at hk
        simp only [gpOuts, if_pos hk.1]
        exact hx) (fr_rmw base h1) h2)
  case not z lock d =>
    refine plain rfl rfl h fun s' hs => ?_
    unfold liftNot at hs
    split at hs
    · obtain ⟨⟨v, m1⟩, h1, rfl⟩ := Option.map_eq_some_iff.1 hs
      exact fr_atomic base h1
    · obtain ⟨v, -, hs⟩ := Option.bind_eq_some_iff.1 hs
      exact fr_opStore (fun _ h => h) base hs
  case neg z lock d =>
    refine plain rfl rfl h fun s' hs => ?_
    unfold liftNeg at hs
    split at hs
    · cases hs
    · obtain ⟨v, -, hs⟩ := Option.bind_eq_some_iff.1 hs
      exact fr_opStore (fun _ h => h) (fr_flagSub (fun f h1 _ => by simp [flOut, h1]) base) hs
  case incdec dec z lock d =>
    refine plain rfl rfl h fun s' hs => ?_
    unfold liftIncDec at hs
    obtain ⟨⟨op1, m1⟩, h1, hs⟩ := Option.bind_eq_some_iff.1 hs
    obtain ⟨m2, h2, hs⟩ := Option.bind_eq_some_iff.1 hs
    have f2 := fr_opStoreIf (fun _ x hx => hx) (fr_rmw base h1) h2
    simp only [Option.pure_def, Option.some.injEq] at hs
    subst hs
    split
    · exact fr_flagSub (fun f h1 h2 => by simp [flOut, h1, h2 rfl]) f2
    · exact fr_flagAdd (fun f h1 h2 => by simp [flOut, h1, h2 rfl]) f2
  case shift k z d c =>
    refine plain rfl rfl h fun s' hs => ?_
    unfold liftShift at hs
    obtain ⟨v, -, hs⟩ := Option.bind_eq_some_iff.1 hs
    obtain ⟨w, -, hs⟩ := Option.bind_eq_some_iff.1 hs
    obtain ⟨m1, h1, hs⟩ := Option.bind_eq_some_iff.1 hs
    cases hs
    exact fr_setF rfl (fr_setF rfl (fr_flagSap rfl rfl rfl (fr_setF rfl
      (fr_opStore (fun _ h => h) base h1))))
  case shiftd left z d r c =>
    refine plain rfl rfl h fun s' hs => ?_
    unfold liftShiftd at hs
    obtain ⟨v, -, hs⟩ := Option.bind_eq_some_iff.1 hs
    obtain ⟨w, -, hs⟩ := Option.bind_eq_some_iff.1 hs
    obtain ⟨u, -, hs⟩ := Option.bind_eq_some_iff.1 hs
    obtain ⟨m1, h1, hs⟩ := Option.bind_eq_some_iff.1 hs
    cases hs
    exact fr_undef (by simp [flOut]) (fr_flagSap rfl rfl rfl (fr_setF rfl
      (fr_opStore (fun _ h => h) base h1)))
  case rotate left z d c =>
    refine plain rfl rfl h fun s' hs => ?_
    unfold liftRotate at hs
    obtain ⟨v, -, hs⟩ := Option.bind_eq_some_iff.1 hs
    obtain ⟨w, -, hs⟩ := Option.bind_eq_some_iff.1 hs
    obtain ⟨m1, h1, hs⟩ := Option.bind_eq_some_iff.1 hs
    cases hs
    exact fr_undef (by simp [flOut]) (fr_opStore (fun _ h => h) base h1)
  case mul1 signed z r =>
    refine plain rfl rfl h fun s' hs => ?_
    unfold liftMul1 at hs
    obtain ⟨v, -, hs⟩ := Option.bind_eq_some_iff.1 hs
    cases hs
    refine fr_mulFlags (fun f hf => by simp [flOut, hf]) ?_
    exact fr_mulStore (by cases z <;> simp [gpOuts]) (fun h => by simp [gpOuts, h]) base
  case imul2 z d r t =>
    refine plain rfl rfl h fun s' hs => ?_
    unfold liftImul2 at hs
    obtain ⟨v, -, hs⟩ := Option.bind_eq_some_iff.1 hs
    obtain ⟨w, -, hs⟩ := Option.bind_eq_some_iff.1 hs
    obtain ⟨m1, h1, hs⟩ := Option.bind_eq_some_iff.1 hs
    cases hs
    exact fr_mulFlags (fun f hf => by simp [flOut, hf]) (fr_opStore (fun _ h => h) base h1)
  case div signed z r high =>
    refine plain rfl rfl h fun s' hs => ?_
    unfold liftDiv at hs
    obtain ⟨m1, h1, hs⟩ := Option.bind_eq_some_iff.1 hs
    cases hs
    refine fr_undef (by simp [flOut]) ?_
    unfold divCore at h1
    split at h1
    next hz =>
      subst hz
      obtain ⟨w, -, h1⟩ := Option.bind_eq_some_iff.1 h1
      obtain ⟨⟨q, r⟩, -, h1⟩ := Option.bind_eq_some_iff.1 h1
      cases h1
      exact fr_storeH (by simp [gpOuts]) (fr_store (by simp [gpOuts]) base)
    next hz =>
      have ha : rax ∈ gpOuts (.div signed z r high) := by simp [gpOuts, hz]
      have hd : rdx ∈ gpOuts (.div signed z r high) := by simp [gpOuts, hz]
      split at h1
      · cases h1
      · obtain ⟨w, -, h1⟩ := Option.bind_eq_some_iff.1 h1
        obtain ⟨⟨q, r⟩, -, h1⟩ := Option.bind_eq_some_iff.1 h1
        cases h1
        exact fr_store hd (fr_store ha base)
      · obtain ⟨w, -, h1⟩ := Option.bind_eq_some_iff.1 h1
        obtain ⟨⟨q, r⟩, -, h1⟩ := Option.bind_eq_some_iff.1 h1
        cases h1
        exact fr_store hd (fr_store ha base)
  case lea z d o' =>
    refine plain rfl rfl h fun s' hs => ?_
    exact fr_opStore (fun _ h => h) base hs
  case xlat a32 seg =>
    refine plain rfl rfl h fun s' hs => ?_
    obtain ⟨v, -, hs⟩ := Option.bind_eq_some_iff.1 hs
    cases hs
    exact fr_store (by simp [gpOuts]) base
  case cmov c z d r =>
    refine plain rfl rfl h fun s' hs => ?_
    obtain ⟨v, -, hs⟩ := Option.bind_eq_some_iff.1 hs
    obtain ⟨w, -, hs⟩ := Option.bind_eq_some_iff.1 hs
    exact fr_opStore (fun _ h => h) base hs
  case setcc c d =>
    refine plain rfl rfl h fun s' hs => ?_
    exact fr_opStore (fun _ h => h) base hs
  case cext z => exact plain rfl rfl h fun s' hs => by cases hs; exact fr_store (by simp [gpOuts]) base
  case csep z => exact plain rfl rfl h fun s' hs => by cases hs; exact fr_store (by simp [gpOuts]) base
  case bitscan trailing cnt z d r =>
    refine plain rfl rfl h fun s' hs => ?_
    unfold liftBitscan at hs
    obtain ⟨v, -, hs⟩ := Option.bind_eq_some_iff.1 hs
    obtain ⟨m1, h1, hs⟩ := Option.bind_eq_some_iff.1 hs
    cases hs
    refine fr_undef (by simp [flOut]) (fr_setF rfl ?_)
    unfold bitscanStore at h1
    split at h1
    · cases h1; exact fr_setGp (by simp [gpOuts, opOut]) base
    · obtain ⟨w, -, h1⟩ := Option.bind_eq_some_iff.1 h1
      exact fr_opStore (fun _ h => h) base h1
  case popcnt z d r =>
    refine plain rfl rfl h fun s' hs => ?_
    unfold liftPopcnt at hs
    obtain ⟨v, -, hs⟩ := Option.bind_eq_some_iff.1 hs
    obtain ⟨m1, h1, hs⟩ := Option.bind_eq_some_iff.1 hs
    cases hs
    exact fr_setF rfl (fr_setPf rfl (fr_setF rfl (fr_setF rfl (fr_setF rfl (fr_setF rfl
      (fr_opStore (fun _ h => h) base h1))))))
  case bittest k z lock d r =>
    refine plain rfl rfl h fun s' hs => ?_
    unfold liftBittest at hs
    split at hs
    · cases hs
    · obtain ⟨v, -, hs⟩ := Option.bind_eq_some_iff.1 hs
      obtain ⟨⟨x, m1⟩, h1, hs⟩ := Option.bind_eq_some_iff.1 hs
      cases hs
      refine fr_undef (by simp [flOut]) (fr_setF rfl ?_)
      unfold btAccess at h1
      split at h1
      · obtain ⟨a, -, h1⟩ := Option.bind_eq_some_iff.1 h1
        obtain ⟨y, -, h1⟩ := Option.bind_eq_some_iff.1 h1
        obtain ⟨m2, h2, h1⟩ := Option.bind_eq_some_iff.1 h1
        cases h1
        unfold btStore at h2
        split at h2
        · exact fr_mem base h2
        · cases h2; exact base
      · split at h1
        · cases h1
        · obtain ⟨y, -, h1⟩ := Option.bind_eq_some_iff.1 h1
          obtain ⟨m2, h2, h1⟩ := Option.bind_eq_some_iff.1 h1
          cases h1
          exact fr_opStoreIf (fun hk x hx => by
            simp only [decide_eq_true_eq] at hk
            simp only [gpOuts, if_pos hk]
            exact hx) base h2
  case jmpRel off => cases h; exact ⟨rfl, rfl, rfl, base.1⟩
  case jmp r =>
    refine ok rfl h fun s' hs => ?_
    obtain ⟨v, -, rfl⟩ := Option.map_eq_some_iff.1 hs
    exact ⟨base.1, rfl⟩
  case jcc c off => cases h; exact ⟨rfl, rfl, rfl, base.1⟩
  case jcxz a32 off => cases h; exact ⟨rfl, rfl, rfl, base.1⟩
  case loop k a32 off =>
    cases h
    refine ⟨rfl, rfl, rfl, ?_⟩
    have h1 : rcx ∈ gpOuts (.loop k a32 off) := by simp [gpOuts]
    exact (fr_store (G := fun k' => k' ∈ gpOuts (.loop k a32 off)) h1 base).1
  case callRel off =>
    refine ok rfl h fun s' hs => ?_
    exact fr_call hc (by simp [gpOuts]) (fun hcl f hf => by simp [flOut, hcl, hf]) base hs
  case call r =>
    refine ok rfl h fun s' hs => ?_
    exact fr_call hc (by simp [gpOuts]) (fun hcl f hf => by simp [flOut, hcl, hf]) base hs
  case ret pop =>
    unfold liftRet at h
    obtain ⟨⟨v, m1⟩, h1, h⟩ := Option.bind_eq_some_iff.1 h
    cases h
    have f1 := fr_pop (F := fun f => flOut cfg.clobberFlags (.ret pop) f = true)
      (G := fun k => k ∈ gpOuts (.ret pop)) (by simp [gpOuts])
      (fr_clobber (fun hcl f hf => by simp [flOut, hcl, hf]) base) h1
    refine ⟨rfl, by simp [hc], ?_, ?_⟩
    · cases pop <;> rfl
    · cases pop with
      | none => exact f1.1
      | some n =>
        have h2 : rsp ∈ gpOuts (.ret (some n)) := by simp [gpOuts]
        exact (fr_setGp (G := fun k' => k' ∈ gpOuts (.ret (some n))) (v := IR.add (m1.gp rsp) (some n))
          h2 f1).1
  case push z r =>
    refine plain rfl rfl h fun s' hs => ?_
    obtain ⟨v, -, hs⟩ := Option.bind_eq_some_iff.1 hs
    exact fr_push (by simp [gpOuts]) base hs
  case pop z d =>
    refine plain rfl rfl h fun s' hs => ?_
    obtain ⟨⟨v, m1⟩, h1, hs⟩ := Option.bind_eq_some_iff.1 hs
    have f1 := fr_pop (G := fun k => k ∈ gpOuts (.pop z d)) (by simp [gpOuts]) base h1
    unfold popStore at hs
    split at hs
    · exact fr_opStore (fun _ h => by simp [gpOuts, h]) f1 hs
    · exact fr_opStore (fun _ h => by simp [gpOuts, h]) f1 hs
    · cases hs
  case pushf z =>
    refine plain rfl rfl h fun s' hs => ?_
    exact fr_push (by simp [gpOuts]) base hs
  case popf z =>
    refine plain rfl rfl h fun s' hs => ?_
    obtain ⟨⟨v, m1⟩, h1, hs⟩ := Option.bind_eq_some_iff.1 hs
    cases hs
    exact fr_flagFromReg (fun _ _ _ => rfl) (fr_pop (by simp [gpOuts]) base h1)
  case leave =>
    refine plain rfl rfl h fun s' hs => ?_
    obtain ⟨⟨v, m1⟩, h1, hs⟩ := Option.bind_eq_some_iff.1 hs
    cases hs
    exact fr_store (by simp [gpOuts]) (fr_pop (by simp [gpOuts]) base h1)
  case lahf => exact plain rfl rfl h fun s' hs => by cases hs; exact fr_storeH (by simp [gpOuts]) base
  case sahf =>
    refine plain rfl rfl h fun s' hs => ?_
    cases hs
    refine fr_flagFromReg (fun kv h1 h2 => ?_) base
    simp only [rflagsIndices, List.mem_cons, List.not_mem_nil, or_false] at h1
    rcases h1 with rfl | rfl | rfl | rfl | rfl | rfl | rfl <;> first | rfl | omega
  case clc => exact plain rfl rfl h fun s' hs => by cases hs; exact fr_setF rfl base
  case stc => exact plain rfl rfl h fun s' hs => by cases hs; exact fr_setF rfl base
  case cmc => exact plain rfl rfl h fun s' hs => by cases hs; exact fr_setF rfl base
  case cld => exact plain rfl rfl h fun s' hs => by cases hs; exact fr_setF rfl base
  case std => exact plain rfl rfl h fun s' hs => by cases hs; exact fr_setF rfl base
  case str k z rep a32 seg =>
    refine plain rfl rfl h fun s' hs => ?_
    have hdi : k.hasDi = true → rdi ∈ gpOuts (.str k z rep a32 seg) := fun h => by simp [gpOuts, h]
    have hsi : k.hasSi = true → rsi ∈ gpOuts (.str k z rep a32 seg) := fun h => by simp [gpOuts, h]
    have hcx : repMode k rep ≠ .no → rcx ∈ gpOuts (.str k z rep a32 seg) := fun h => by simp [gpOuts, h]
    have hax : k = .lods → rax ∈ gpOuts (.str k z rep a32 seg) := fun h => by simp [gpOuts, h]
    have hfl : k.isCmp = true → ∀ f, f ≠ .df → flOut cfg.clobberFlags (.str k z rep a32 seg) f = true :=
      fun h1 f h2 => by simp [flOut, h1, h2]
    unfold liftStr at hs
    split at hs
    next hk =>
      obtain ⟨rfl, rfl, rfl⟩ := hk
      split at hs
      · cases hs
        exact fr_setGp (hcx (by decide)) (fr_setGp (hdi rfl) ⟨⟨fun _ _ => rfl, fun _ _ => rfl,
          fun _ => rfl, fun _ _ => rfl⟩, rfl⟩)
      · cases hs
    next =>
      have tail : ∀ {m1 : St} {v : Val z.bits},
          Fr (fun k' => k' ∈ gpOuts (.str k z rep a32 seg))
            (fun f => flOut cfg.clobberFlags (.str k z rep a32 seg) f = true) (fun x => x ∈ xOuts (.str k z rep a32 seg))
            { s with pc := .const (stopPc start len) } m1 →
          Fr (fun k' => k' ∈ gpOuts (.str k z rep a32 seg))
            (fun f => flOut cfg.clobberFlags (.str k z rep a32 seg) f = true) (fun x => x ∈ xOuts (.str k z rep a32 seg))
            { s with pc := .const (stopPc start len) } (if k = .lods then m1.store rax z v else m1) := by
        intro m1 v h
        split
        next hk => exact fr_store (hax hk) h
        · exact h
      have ptr : ∀ {m1 : St} {v w : Val 64},
          Fr (fun k' => k' ∈ gpOuts (.str k z rep a32 seg))
            (fun f => flOut cfg.clobberFlags (.str k z rep a32 seg) f = true) (fun x => x ∈ xOuts (.str k z rep a32 seg))
            { s with pc := .const (stopPc start len) } m1 →
          Fr (fun k' => k' ∈ gpOuts (.str k z rep a32 seg))
            (fun f => flOut cfg.clobberFlags (.str k z rep a32 seg) f = true) (fun x => x ∈ xOuts (.str k z rep a32 seg))
            { s with pc := .const (stopPc start len) }
            (if k.hasSi then (if k.hasDi then m1.setGp rdi v else m1).setGp rsi w
              else if k.hasDi then m1.setGp rdi v else m1) := by
        intro m1 v w h
        have h1 : Fr (fun k' => k' ∈ gpOuts (.str k z rep a32 seg))
            (fun f => flOut cfg.clobberFlags (.str k z rep a32 seg) f = true) (fun x => x ∈ xOuts (.str k z rep a32 seg))
            { s with pc := .const (stopPc start len) } (if k.hasDi then m1.setGp rdi v else m1) := by
          split
          next hk => exact fr_setGp (hdi hk) h
          · exact h
        split
        next hk => exact fr_setGp (hsi hk) h1
        · exact h1
      split at hs
      · obtain ⟨⟨m1, a, b⟩, h1, hs⟩ := Option.bind_eq_some_iff.1 hs
        cases hs
        refine tail ?_
        have h2 := ptr (v := IR.add (s.gp rdi) (IR.mul (select (St.getF { s with pc := .const (stopPc start len) } .df)
            (some (-1#64)) (some 1#64)) (some (BitVec.ofNat 64 z.bytes))))
          (w := IR.add (s.gp rsi) (IR.mul (select (St.getF { s with pc := .const (stopPc start len) } .df)
            (some (-1#64)) (some 1#64)) (some (BitVec.ofNat 64 z.bytes)))) (fr_strBody base h1)
        split
        next hk => exact fr_flagSub (fun f h3 _ => hfl hk f h3) h2
        · exact h2
      next mode hmode =>
        have hm : repMode k rep ≠ .no := by
          intro hc
          exact hmode hc
        split at hs
        · cases hs
        · split at hs
          · cases hs
            split
            next hk => exact fr_setF (hfl hk .pf (by decide)) base
            · exact base
          · obtain ⟨⟨m1, si, di, count, a, b⟩, h1, hs⟩ := Option.bind_eq_some_iff.1 hs
            cases hs
            refine tail (fr_setGp (hcx hm) (ptr ?_))
            have h2 := fr_repLoop base h1
            split
            next hk =>
              exact fr_setF (hfl hk .pf (by decide)) (fr_flagSub (fun f h3 _ => hfl hk f h3) h2)
            · exact h2
  case sse j =>
    refine plain rfl rfl h fun s' hs => ?_
    exact fr_sse (fun _ h => h) (fun _ h => h) (fun hj f hf => by simp [flOut, hj, hf]) base hs
  case cpuid =>
    refine plain rfl rfl h fun s' hs => ?_
    cases hs
    exact fr_setGp (by simp [gpOuts]) (fr_setGp (by simp [gpOuts]) (fr_setGp (by simp [gpOuts])
      (fr_setGp (by simp [gpOuts]) base)))
  case rdtsc =>
    refine plain rfl rfl h fun s' hs => ?_
    cases hs
    exact fr_setGp (by simp [gpOuts]) (fr_setGp (by simp [gpOuts]) base)
  case ctl k o =>
    refine plain rfl rfl h fun s' hs => ?_
    cases k
    case fldcw => cases hs; exact base
    case ldmxcsr => cases hs; exact base
    all_goals exact fr_opStore (fun _ hk => by simpa [gpOuts] using hk) base hs
  case syscall =>
    refine plain rfl rfl h fun s' hs => ?_
    simp only [liftSyscall, hsy] at hs
    cases hs
    exact fr_setGp (by simp [gpOuts]) (fr_setGp (by simp [gpOuts]) base)
  case unknown => cases h; exact ⟨rfl, rfl, rfl, base.1⟩

end Verif.X86
