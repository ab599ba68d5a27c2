import Verif.Config.Props

/-! C40, the configuration that `ll_config_new` returns. -/

namespace Verif.Config

/-- The calls that ask for nothing: no option, no function, no base, address space 0. -/
inductive Nothing : Call → Prop where
  | sptrAddrspace : Nothing (.setSptrAddrspace 0)
  | overflowIntrinsics : Nothing (.enableOverflowIntrinsics false)
  | fastMath : Nothing (.enableFastMath false)
  | verifyIr : Nothing (.enableVerifyIr false)
  | pic : Nothing (.setPositionIndependentCode false)
  | globalBase : Nothing (.setGlobalBase 0 .null)
  | pcBase : Nothing (.setPcBase 0 .null)
  | tailFunc : Nothing (.setTailFunc .null)
  | callFunc : Nothing (.setCallFunc .null)
  | cpuinfoFunc : Nothing (.setCpuinfoFunc .null)
  | instrMarker : Nothing (.setInstrMarker .null)
  | clobberFlags : Nothing (.setCallRetClobberFlags false)
  | nativeSegment : Nothing (.setUseNativeSegmentBase false)
  | fullFacets (v : Bool) : Nothing (.enableFullFacets v)

/-- C40: a new configuration is one in which nothing has been asked for; any number of calls that ask for nothing leaves it as it is. -/
theorem C40_defaults (b : Build) (ks : List Call) (h : ∀ k ∈ ks, Nothing k) : runCalls b (Cfg.new b) ks = some (Cfg.new b) := by
  induction ks with
  | nil => rfl
  | cons k ks ih =>
    have hk := h k List.mem_cons_self
    have : apply b (Cfg.new b) k = some (Cfg.new b, true) := by cases hk <;> rfl
    unfold runCalls
    rw [this]
    exact ih fun k hk => h k (List.mem_cons_of_mem _ hk)

/-- C40: and, if there is support for it, the architecture of a new configuration is x86-64, as if it had been selected.  No instruction
and no system call has an implementation of the user. -/
theorem C40_default_architecture (b : Build) (hb : b.x86 = true) : runCalls b (Cfg.new b) [.setArchitecture "x86_64"] = some (Cfg.new b) ∧
    (∀ t, (Cfg.new b).overrides t = none) ∧ (Cfg.new b).syscallImpl = .null := by
  refine ⟨?_, fun _ => rfl, rfl⟩
  simp [runCalls, apply, setArchitecture, hb, Cfg.new, Arch.default]

example : runCalls ⟨true, false, false⟩ (Cfg.new ⟨true, false, false⟩) [.setPositionIndependentCode true] ≠
    some (Cfg.new ⟨true, false, false⟩) := by
  intro h
  have := congrArg (fun c => c.map (·.pic)) h
  cases this

end Verif.Config
