import Verif.A64.Props

/-! Properties of the A64 lifter: FPCR and FPSR (C54). -/

namespace Verif.A64.Spec

open Verif.IR

variable {cfg : Cfg} {slide : BitVec 64} {len : Nat} {s s' : S}

/-- The floating-point control and status registers. -/
structure Fpcs where
  fpcr : BitVec 64
  fpsr : BitVec 64
  deriving DecidableEq

/-- In a fresh process both are 0: round to nearest, no exception seen. -/
def Fpcs.fresh : Fpcs := ⟨0, 0⟩

/-- MSR and MRS of FPCR and FPSR; `w` tells MSR. -/
def fpctl (w : Bool) (sys : Sys) (rt : Reg) (len : Nat) (s : S) (f : Fpcs) : Option (S × Fpcs) :=
  let next (s' : S) : S := { s' with pc := s.pc + BitVec.ofNat 64 len }
  match w, sys with
  | true, .fpcr => some (next s, { f with fpcr := s.reg 64 rt })
  | true, .fpsr => some (next s, { f with fpsr := s.reg 64 rt })
  | false, .fpcr => some (next (s.setReg rt f.fpcr), f)
  | false, .fpsr => some (next (s.setReg rt f.fpsr), f)
  | _, _ => none

/-- Accesses to FPCR and FPSR that leave them at their initial value 0 are right.

Missing: writes of other values (`C54_a64_counterexample`), which are ignored, and exception flags, which
are not recorded. -/
theorem C54_a64_fpctl_partial (w : Bool) (sys : Sys) (rt : Reg)
    (hs : fpctl w sys rt len s .fresh = some (s', .fresh)) :
    Simulates cfg slide (if w then .msr sys rt else .mrs sys rt) len s s' := by
  cases w <;> cases sys <;> simp only [fpctl, Option.some.injEq, Prod.mk.injEq, reduceCtorEq] at hs <;>
    obtain ⟨rfl, -⟩ := hs
  · have := plain_sim (cfg := cfg) (slide := slide) (i := .mrs .fpcr rt) (len := len) (s := s) (s1 := s.setReg rt 0#64)
      (fun m => liftMrs m .fpcr rt) (fun _ _ => rfl) fun _ _ hr _ _ => ⟨_, rfl, hr.set rt 0#64⟩
    exact this
  · have := plain_sim (cfg := cfg) (slide := slide) (i := .mrs .fpsr rt) (len := len) (s := s) (s1 := s.setReg rt 0#64)
      (fun m => liftMrs m .fpsr rt) (fun _ _ => rfl) fun _ _ hr _ _ => ⟨_, rfl, hr.set rt 0#64⟩
    exact this
  · exact plain_sim (fun m => liftMsr m .fpcr rt) (fun _ _ => rfl) fun _ m hr _ _ => ⟨m, rfl, hr⟩
  · exact plain_sim (fun m => liftMsr m .fpsr rt) (fun _ _ => rfl) fun _ m hr _ _ => ⟨m, rfl, hr⟩

-- `mrs x0, fpcr` and `msr fpsr, xzr`
example : ∃ s', fpctl false .fpcr (.x 0) 4 s0 .fresh = some (s', .fresh) ∧ s'.x 0 = 0 := ⟨_, rfl, by decide⟩
example : ∃ s', fpctl true .fpsr .zr 4 s0 .fresh = some (s', .fresh) := ⟨_, rfl⟩

/-- **C54 is false** for written values: after `msr fpcr, x0` with `x0 = 5`, `mrs x7, fpcr` must give 5; the lifted
code gives 0. -/
theorem C54_a64_counterexample :
    ∃ s1 f1 s2, fpctl true .fpcr (.x 0) 4 s0 .fresh = some (s1, f1) ∧
      fpctl false .fpcr (.x 7) 4 s1 f1 = some (s2, f1) ∧ s2.x 7 = 5 ∧
      ∀ m, lift {} 0 (.msr .fpcr (.x 0)) 0x400000 4 (s0.rep 0) = some m →
        (lift {} 0 (.mrs .fpcr (.x 7)) 0x400004 4 m.st).map (fun o => o.st.gp 7) = some (some 0) := by
  refine ⟨_, _, _, rfl, rfl, by decide +kernel, fun m hm => ?_⟩
  cases hm
  decide +kernel

end Verif.A64.Spec
