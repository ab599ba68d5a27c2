import Verif.X86.Dispatch
import Verif.X86.SseExact

/-!
C68: the code of every x86-64 mnemonic is the code of the operation that the mnemonic names.
-/

namespace Verif.X86

open Verif.IR

/-- **C68.**  Every mnemonic with a row in the switch is a name of the manual, and for all operands of its forms, of which
there are some, the lifter emits the code of the operation that the manual names: everything that is proved about the code
of that operation holds for the mnemonic. -/
theorem C68_mnemonics (mn : Mn) (h : mn ≠ .other) :
    ∃ f, Manual.names.lookup mn.name = some f ∧ (∃ o i, f o = some i) ∧
      ∀ o i, f o = some i → ∀ cfg slide start len m, mn.lift cfg slide o start len m = X86.lift cfg slide i start len m := by
  obtain ⟨f, e, hm, o, -, ho⟩ := means_all mn h
  refine ⟨f, e, ⟨o, Option.isSome_iff_exists.mp ho⟩, fun o i hi cfg slide start len m => ?_⟩
  obtain ⟨j, hj, hc⟩ := hm o i hi
  rw [Mn.lift, hj]
  exact hc cfg slide start len m

/-- A mnemonic without a row is not lifted: the code leaves the instruction pointer at the instruction. -/
theorem C68_other (cfg : Cfg) (slide : BitVec 64) (o : Operands) (start : BitVec 64) (len : Nat) (m : St) :
    Mn.other.lift cfg slide o start len m = some { st := { m with pc := .value (some start) }, lifted := false } := rfl

namespace Spec

/-- The code for the mnemonic `mn` takes every representation of the state `s` to a representation of `s'`. -/
def MnSimulates (cfg : Cfg) (slide : BitVec 64) (mn : Mn) (o : Operands) (len : Nat) (s s' : S) : Prop :=
  ∀ (start : BitVec 64) (m : St), Rel slide m s → s.ip = start + slide →
    ∃ m', mn.lift cfg slide o start len m = some { st := m' } ∧ Rel slide m' s'

/-- **C68.**  The code for a mnemonic does what the manual says for the operation that it names exactly if the conditions
of the exactness theorems hold. -/
theorem C68_exact {cfg : Cfg} {slide : BitVec 64} {len : Nat} {s s' : S} (mn : Mn) (h : mn ≠ .other) {f : Form}
    (hf : Manual.names.lookup mn.name = some f) {o : Operands} {i : Instr} (hi : f o = some i)
    (hg : general i = true ∨ ∃ j, i = .sse j) (hw : WellFormed s i) (hx : ∀ j, i = .sse j → SseWf j)
    (hc : cfg.callFunction = none) (hs : step i len s = some s') :
    MnSimulates cfg slide mn o len s (after cfg len s s' i) ↔ ExactAll len s i := by
  rw [← X86_exact_all i hg hw hx hc hs]
  obtain ⟨f', e, -, hm⟩ := C68_mnemonics mn h
  obtain rfl : f = f' := Option.some.inj (hf.symm.trans e)
  exact forall_congr' fun start => forall_congr' fun m => by rw [hm o i hi]

set_option maxRecDepth 20000 in
/-- PMINUD with two registers is right in every state. -/
example (cfg : Cfg) (hc : cfg.callFunction = none) (slide : BitVec 64) (s : S) (o : Operands) (h0 : o.x0 = .x 1) (h1 : o.x1 = .inl (.x 2)) :
    ∃ s', step (.sse (.pminmax false false .d 1 (.x 2))) 5 s = some s' ∧ MnSimulates cfg slide .SSE_PMINUD o 5 s s' := by
  obtain ⟨s', hs⟩ : ∃ s', step (.sse (.pminmax false false .d 1 (.x 2))) 5 s = some s' := ⟨_, rfl⟩
  refine ⟨s', hs, ?_⟩
  have hf : Manual.names.lookup Mn.SSE_PMINUD.name = some (Form.xx (.pminmax false false .d)) := by
    rfl
  have := (C68_exact (slide := slide) .SSE_PMINUD (by decide) hf (o := o) (i := .sse (.pminmax false false .d 1 (.x 2)))
    (by simp only [Form.xx, h0, h1]) (.inr ⟨_, rfl⟩) trivial (fun j hj => by cases hj; trivial) hc hs).2 (by trivial)
  exact this

end Spec

end Verif.X86
