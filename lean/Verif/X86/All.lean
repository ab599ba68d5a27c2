import Verif.X86.Props
import Verif.X86.SsePerm

/-!
All modelled instructions in one theorem: the states in which the lifter is proved right
(`Supported`) and what is known after the instruction (`after`).
-/

set_option linter.unusedSimpArgs false
set_option linter.constructorNameAsVariable false

namespace Verif.X86.Spec

open Verif.IR

variable {cfg : Cfg} {slide : BitVec 64} {len : Nat} {s s' : S}

/-- Where the theorems of `Verif.X86.Props` and `Verif.X86.SseProps` apply; what is left out are the defects listed there. -/
def Supported (cfg : Cfg) (len : Nat) (s : S) : Instr → Prop
  | .mov _ _ d r | .movbe _ d r | .popcnt _ d r | .cmov _ _ d r =>
    Op.plain d = true ∧ Op.plain r = true
  | .movzx z sz d r => sz.bits ≤ z.bits ∧ Op.plain d = true ∧ Op.plain r = true
  | .bswap _ d | .setcc _ d => Op.plain d = true
  | .arith k z lock d r => Op.plain d = true ∧ LockOk (s.nx len) z lock d ∧
    if k = .xadd then XaddOk d r else Op.plain r = true ∧ (lock = true → k ≠ .cmp)
  | .cmpxchg z lock d r => Op.plain d = true ∧ Op.plain r = true ∧ LockOk (s.nx len) z lock d ∧
    CmpxchgOk (s.nx len) z d
  | .xchg z d r => Op.plain d = true ∧ (∀ o, r ≠ .mem o) ∧
    ∀ o, d = .mem o → ((s.nx len).ea o).toNat % z.bytes = 0
  | .logic k z lock d r => Op.plain d = true ∧ Op.plain r = true ∧ LockOk (s.nx len) z lock d ∧
    (lock = true → k ≠ .test)
  | .not z lock d | .incdec _ z lock d => Op.plain d = true ∧ LockOk (s.nx len) z lock d
  | .neg _ lock d => lock = false ∧ Op.plain d = true
  | .shift _ _ d c | .rotate _ _ d c => Op.plain d = true ∧ Op.plain c = true
  | .shiftd _ z d r c => Op.plain d = true ∧ Op.plain r = true ∧ Op.plain c = true ∧ (∀ v, d ≠ .imm v) ∧
    ∃ cv, (s.nx len).read .b c = some cv ∧ (count z cv = 0 → UpperZero (s.nx len) z d) ∧
      count z cv < z.bits
  | .mul1 _ _ r => Op.plain r = true
  | .imul2 _ d r t => Op.plain d = true ∧ Op.plain r = true ∧ Op.plain t = true
  | .div signed z r high => Op.plain r = true ∧ (z ≠ .b → HighOk s signed z high)
  | .lea _ d o => Op.plain d = true ∧ LeaOk o
  | .xlat a32 seg => a32 = false ∧ seg = .none
  | .bitscan _ cnt _ d r => cnt = false ∧ (∃ x, d = .reg x) ∧ Op.plain r = true
  | .bittest k z lock d r => BittestOk (s.nx len) k z lock d r
  | .jmp r => Op.plain r = true ∧ ∀ a, r = .mem a → a.seg = .none
  | .callRel _ => cfg.callFunction = none ∧ Aligned (s.gp rsp) 8
  | .call r => Op.plain r = true ∧ (∀ a, r = .mem a → a.seg = .none) ∧ cfg.callFunction = none ∧
    Aligned (s.gp rsp) 8
  | .ret _ => cfg.callFunction = none ∧ Aligned (s.gp rsp) 8
  | .push z r => Op.plain r = true ∧ Aligned (s.gp rsp) z.bytes
  | .pop z d => z = .q ∧ Op.plain d = true ∧ Aligned (s.gp rsp) 8
  | .pushf z => Aligned (s.gp rsp) z.bytes
  | .popf z => z = .q ∧ Aligned (s.gp rsp) 8
  | .leave => Aligned (s.gp rbp) 8
  | .lahf => (∃ b, s.fl .df = some b) ∧ ∃ b, s.fl .of = some b
  | .str k z _ a32 seg => a32 = false ∧ seg = .none ∧ (∃ df, s.fl .df = some df) ∧ StrAligned s k z
  | .sse i => SseOk (s.nx len) i
  | _ => True

/-- The architectural state after the instruction, without the flags that the lifter leaves undefined
(shifts by zero, rotates, double shifts, calls and returns with `clobberFlags`) or gets wrong (ADC and SBB,
`adcBad`). -/
def after (cfg : Cfg) (len : Nat) (s s' : S) : Instr → S
  | .arith k z _ _ r => s'.forget (adcBad (s.nx len) k z r)
  | .shift _ z _ c => match (s.nx len).read .b c with
    | some cv => if count z cv = 0 then s'.forget status else s'
    | none => s'
  | .shiftd _ z _ _ c => match (s.nx len).read .b c with
    | some cv => s'.forget (if count z cv = 0 then status else cfof)
    | none => s'
  | .rotate .. => s'.forget cfof
  | .callRel _ | .call _ | .ret _ => callFl cfg s'
  | _ => s'

theorem Simulates.forget {i : Instr} (h : Simulates cfg slide i len s s') (P : Flag → Bool) :
    Simulates cfg slide i len s (s'.forget P) := by
  intro start m hm hip
  obtain ⟨m', e, hr⟩ := h start m hm hip
  refine ⟨m', e, hr.mono rfl rfl rfl rfl rfl ?_⟩
  intro f b hb
  simp only [S.forget] at hb
  split at hb
  · cases hb
  · exact hb

/-- Every specified general-purpose and SSE instruction, with the exceptions collected in `Supported` and `after`. -/
theorem X86_instruction_partial (i : Instr) (hsup : Supported cfg len s i) (hs : step i len s = some s') :
    Simulates cfg slide i len s (after cfg len s s' i) := by
  cases i with
  | nop => cases hs; exact sim_nop
  | mov z sz d r => exact C45_mov z sz d r hsup.1 hsup.2 hs
  | movzx z sz d r => exact C45_movzx z sz hsup.1 d r hsup.2.1 hsup.2.2 hs
  | movbe z d r => exact C45_movbe z d r hsup.1 hsup.2 hs
  | bswap z d => exact C45_bswap z d hsup hs
  | arith k z lock d r =>
    obtain ⟨h1, h2, h3⟩ := hsup
    cases k with
    | xadd => exact (C26_xadd_partial z lock d r h1 h2 h3 hs).forget _
    | add => exact (C18_add_sub_cmp .add (.inl rfl) z lock d r h1 h3.1 h2 (by simp) hs).forget _
    | sub => exact (C18_add_sub_cmp .sub (.inr (.inl rfl)) z lock d r h1 h3.1 h2 (by simp) hs).forget _
    | cmp => exact (C18_add_sub_cmp .cmp (.inr (.inr rfl)) z lock d r h1 h3.1 h2 h3.2 hs).forget _
    | adc => exact C19_adc_sbb_partial .adc (.inl rfl) z lock d r h1 h3.1 h2 hs
    | sbb => exact C19_adc_sbb_partial .sbb (.inr rfl) z lock d r h1 h3.1 h2 hs
  | cmpxchg z lock d r => exact C26_cmpxchg_partial z lock d r hsup.1 hsup.2.1 hsup.2.2.1 hsup.2.2.2 hs
  | xchg z d r => exact C26_xchg z d r hsup.1 hsup.2.1 hsup.2.2 hs
  | logic k z lock d r => exact C18_logic k z lock d r hsup.1 hsup.2.1 hsup.2.2.1 hsup.2.2.2 hs
  | not z lock d => exact C18_not z lock d hsup.1 hsup.2 hs
  | neg z lock d =>
    obtain ⟨rfl, h⟩ := hsup
    exact C18_neg z d h hs
  | incdec dec z lock d => exact C18_inc_dec dec z lock d hsup.1 hsup.2 hs
  | shift k z d c =>
    obtain ⟨h1, h2⟩ := hsup
    have h3 : stepShift (s.nx len) k z d c = some s' := hs
    simp only [stepShift, Option.bind_eq_bind, Option.bind_eq_some_iff] at h3
    obtain ⟨_, _, cv, h4, _⟩ := h3
    simp only [after, h4]
    exact C22_shift_partial k z d c h1 h2 cv h4 hs
  | shiftd left z d r c =>
    obtain ⟨h1, h2, h3, h4, cv, h5, h6, h7⟩ := hsup
    simp only [after, h5]
    exact C22_shiftd_partial left z d r c h1 h2 h3 cv h5 h4 h6 h7 hs
  | rotate left z d c =>
    obtain ⟨h1, h2⟩ := hsup
    have h3 : stepRotate (s.nx len) left z d c = some s' := hs
    simp only [stepRotate, Option.bind_eq_bind, Option.bind_eq_some_iff] at h3
    obtain ⟨_, _, cv, h4, _⟩ := h3
    exact C22_rotate_partial left z d c h1 h2 cv h4 hs
  | mul1 signed z r => exact C23_mul signed z r hsup hs
  | imul2 z d r t => exact C23_imul z d r t hsup.1 hsup.2.1 hsup.2.2 hs
  | div signed z r high => exact C23_div_partial signed z r high hsup.1 hsup.2 hs
  | lea z d o => exact C41_lea_partial z d o hsup.1 hsup.2 hs
  | xlat a32 seg =>
    obtain ⟨rfl, rfl⟩ := hsup
    exact C45_xlat hs
  | cmov c z d r => exact C20_cmovcc c z d r hsup.1 hsup.2 hs
  | setcc c d => exact C20_setcc c d hsup hs
  | cext z => exact C45_cext z hs
  | csep z => exact C45_csep z hs
  | bitscan trailing cnt z d r =>
    obtain ⟨rfl, ⟨x, rfl⟩, h⟩ := hsup
    exact C45_bitscan_partial trailing z x r h hs
  | popcnt z d r => exact C45_popcnt z d r hsup.1 hsup.2 hs
  | bittest k z lock d r => exact C45_bittest k z lock d r hsup hs
  | jmpRel off => exact sim_jmpRel off hs
  | jmp r => exact sim_jmp r hsup.1 hsup.2 hs
  | jcc c off => exact sim_jcc c off hs
  | jcxz a32 off => exact sim_jcxz a32 off hs
  | loop k a32 off => exact sim_loop k a32 off hs
  | callRel off => exact sim_callRel off hsup.1 hsup.2 hs
  | call r => exact sim_call r hsup.1 hsup.2.1 hsup.2.2.1 hsup.2.2.2 hs
  | ret pop =>
    intro start m hr hip
    obtain ⟨m', e, h⟩ := sim_ret (cfg := cfg) pop hsup.2 hs start m hr
    rw [hsup.1] at e
    exact ⟨m', e, h⟩
  | push z r => exact sim_push z r hsup.1 hsup.2 hs
  | pop z d =>
    obtain ⟨rfl, h1, h2⟩ := hsup
    exact sim_pop d h1 h2 hs
  | pushf z => exact sim_pushf z hsup hs
  | popf z =>
    obtain ⟨rfl, h⟩ := hsup
    exact sim_popf h hs
  | leave => exact sim_leave hsup hs
  | lahf => exact sim_lahf hsup.1 hsup.2 hs
  | sahf => exact sim_sahf hs
  | clc => exact sim_clc hs
  | stc => exact sim_stc hs
  | cmc => exact sim_cmc hs
  | cld => exact sim_cld hs
  | std => exact sim_std hs
  | str k z rep a32 seg =>
    obtain ⟨rfl, rfl, h1, h2⟩ := hsup
    exact sim_str k z rep h1 h2 hs
  | sse i => exact .of_body (fun m => i.lift slide m) (fun _ _ => rfl) (fun _ h => sim_sse_body h i hsup hs)
  | cpuid => cases hs
  | rdtsc => cases hs
  | ctl k o => cases hs
  | syscall => cases hs
  | unknown => cases hs

-- a state and an instruction with several side conditions
example : Supported {} 4 s0 (.cmpxchg .q true (.mem { base := .reg 6 }) (.reg 3)) :=
  ⟨rfl, rfl, fun _ => ⟨_, rfl, by decide +kernel⟩, ⟨by simp, by simp⟩⟩

end Verif.X86.Spec
