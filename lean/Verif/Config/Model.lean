import Verif.IR.Attr

/-!
Model of the configuration API (/repo/src/rellume.cc, /repo/src/config.h) and of the calling convention
descriptor (/repo/src/callconv.cc).
-/

namespace Verif.Config

/-- Architectures enabled at build time (`RELLUME_WITH_*`, /repo/meson.build). -/
structure Build where
  x86 : Bool
  rv64 : Bool
  a64 : Bool

/-- /repo/src/arch.h:33-53 -/
inductive Arch where
  | invalid | x86_64 | rv64 | aarch64
  deriving DecidableEq, Repr

/-- `DEFAULT`, /repo/src/arch.h:47-51 -/
def Arch.default (b : Build) : Arch := if b.x86 then .x86_64 else .invalid

/-- `CallConv::Value`, /repo/src/callconv.h:49-51 -/
inductive CallConv where
  | invalid | x86Sptr | rvSptr | a64Sptr
  deriving DecidableEq, Repr

/-- An `LLVMValueRef`: null, a function, or some other value. -/
inductive Ref where
  | null
  | fn (id : Nat)
  | other (id : Nat)
  deriving DecidableEq, Repr

/-- `llvm::unwrap<llvm::Function>`, i.e. `llvm::cast`: the argument must be a function (`none` is the
failing assertion of `llvm::cast`). -/
def Ref.cast : Ref → Option Ref
  | .fn i => some (.fn i)
  | _ => none

/-- `llvm::cast_or_null<llvm::Function>` -/
def Ref.castOrNull : Ref → Option Ref
  | .null => some .null
  | .fn i => some (.fn i)
  | .other _ => none

/-- `LLConfig`, /repo/src/config.h:41-106.  The map of overridden instructions is a partial function. -/
structure Cfg where
  overflowIntrinsics : Bool
  fastMath : Bool
  clobberFlags : Bool
  nativeSegment : Bool
  verifyIr : Bool
  pic : Bool
  arch : Arch
  callconv : CallConv
  sptrAddrspace : BitVec 32
  globalBaseAddr : BitVec 64
  globalBase : Ref
  pcBaseAddr : BitVec 64
  pcBase : Ref
  overrides : BitVec 32 → Option Ref
  tailFunc : Ref
  callFunc : Ref
  syscallImpl : Ref
  cpuinfoFunc : Ref
  instrMarker : Ref

/-- `ll_config_new`, /repo/src/rellume.cc:48-50, with the initialisers of /repo/src/config.h. -/
def Cfg.new (b : Build) : Cfg where
  overflowIntrinsics := false
  fastMath := false
  clobberFlags := false
  nativeSegment := false
  verifyIr := false
  pic := false
  arch := .default b
  callconv := .x86Sptr
  sptrAddrspace := 0
  globalBaseAddr := 0
  globalBase := .null
  pcBaseAddr := 0
  pcBase := .null
  overrides := fun _ => none
  tailFunc := .null
  callFunc := .null
  syscallImpl := .null
  cpuinfoFunc := .null
  instrMarker := .null

/-- The calls of the configuration API, /repo/include/rellume/rellume.h:46-70. -/
inductive Call where
  | setSptrAddrspace (n : BitVec 32)
  | enableOverflowIntrinsics (v : Bool)
  | enableFastMath (v : Bool)
  | enableVerifyIr (v : Bool)
  | setPositionIndependentCode (v : Bool)
  | setGlobalBase (a : BitVec 64) (v : Ref)
  | setPcBase (a : BitVec 64) (v : Ref)
  | setInstrImpl (type : BitVec 32) (v : Ref)
  | setTailFunc (v : Ref)
  | setCallFunc (v : Ref)
  | setSyscallImpl (v : Ref)
  | setCpuinfoFunc (v : Ref)
  | setInstrMarker (v : Ref)
  | setCallRetClobberFlags (v : Bool)
  | setUseNativeSegmentBase (v : Bool)
  | enableFullFacets (v : Bool)
  | setArchitecture (name : String)

/-- `ll_config_set_architecture`, /repo/src/rellume.cc:110-130: new configuration and return value. -/
def setArchitecture (b : Build) (c : Cfg) (s : String) : Cfg × Bool :=
  if s = "x86-64" ∨ s = "x86_64" then
    if b.x86 then ({ c with arch := .x86_64, callconv := .x86Sptr }, true) else (c, false)
  else if s = "rv64" then
    if b.rv64 then ({ c with arch := .rv64, callconv := .rvSptr }, true) else (c, false)
  else if s = "aarch64" then
    if b.a64 then ({ c with arch := .aarch64, callconv := .a64Sptr }, true) else (c, false)
  else (c, false)

/-- Effect of a call, /repo/src/rellume.cc:52-130.  `none`: a failing `llvm::cast`.  The second component
is the return value (true for functions returning nothing). -/
def apply (b : Build) (c : Cfg) : Call → Option (Cfg × Bool)
  | .setSptrAddrspace n => some ({ c with sptrAddrspace := n }, true)
  | .enableOverflowIntrinsics v => some ({ c with overflowIntrinsics := v }, true)
  | .enableFastMath v => some ({ c with fastMath := v }, true)
  | .enableVerifyIr v => some ({ c with verifyIr := v }, true)
  | .setPositionIndependentCode v => some ({ c with pic := v }, true)
  | .setGlobalBase a v => some ({ c with globalBaseAddr := a, globalBase := v }, true)
  | .setPcBase a v => some ({ c with pcBaseAddr := a, pcBase := v }, true)
  | .setInstrImpl t v =>
    v.cast.map (fun v => ({ c with overrides := fun x => if x = t then some v else c.overrides x }, true))
  | .setTailFunc v => v.castOrNull.map (fun v => ({ c with tailFunc := v }, true))
  | .setCallFunc v => v.castOrNull.map (fun v => ({ c with callFunc := v }, true))
  | .setSyscallImpl v => v.cast.map (fun v => ({ c with syscallImpl := v }, true))
  | .setCpuinfoFunc v => v.castOrNull.map (fun v => ({ c with cpuinfoFunc := v }, true))
  | .setInstrMarker v =>
    if v = .null then some ({ c with instrMarker := .null }, true)
    else v.cast.map (fun v => ({ c with instrMarker := v }, true))
  | .setCallRetClobberFlags v => some ({ c with clobberFlags := v }, true)
  | .setUseNativeSegmentBase v => some ({ c with nativeSegment := v }, true)
  | .enableFullFacets _ => some (c, true)
  | .setArchitecture s => some (setArchitecture b c s)

/-- A sequence of calls. -/
def runCalls (b : Build) : Cfg → List Call → Option Cfg
  | c, [] => some c
  | c, k :: ks => match apply b c k with
    | none => none
    | some (c', _) => runCalls b c' ks

/-! ### Calling convention -/

/-- `CallConv::ToArch`, /repo/src/callconv.cc:106-113 -/
def CallConv.toArch : CallConv → Arch
  | .invalid => .invalid
  | .x86Sptr => .x86_64
  | .rvSptr => .rv64
  | .a64Sptr => .aarch64

/-- Types of parameters and results, as far as they matter. -/
inductive Ty where
  | void
  | ptr (addrspace : BitVec 32)
  | other (id : Nat)
  deriving DecidableEq

/-- Type and calling convention of an LLVM function (0 is the C convention). -/
structure Sig where
  cconv : Nat
  params : List Ty
  ret : Ty
  vararg : Bool
  deriving DecidableEq

/-- `CallConv::FnType`, /repo/src/callconv.cc:73-86; `none` is the null pointer. -/
def CallConv.fnType (cc : CallConv) (addrspace : BitVec 32) : Option (List Ty × Ty × Bool) :=
  match cc with
  | .invalid => none
  | _ => some ([.ptr addrspace], .void, false)

/-- `CallConv::FnCallConv`, /repo/src/callconv.cc:88-95 -/
def CallConv.fnCallConv (_ : CallConv) : Nat := 0

/-- `CallConv::CpuStructParamIdx`, /repo/src/callconv.cc:97-104 -/
def CallConv.paramIdx (_ : CallConv) : Nat := 0

/-- `CallConv::FromFunction`, /repo/src/callconv.cc:40-71 -/
def fromFunction (b : Build) (s : Sig) (arch : Arch) : CallConv :=
  let hunch : CallConv := match arch with
    | .x86_64 => if b.x86 then .x86Sptr else .invalid
    | .rv64 => if b.rv64 then .rvSptr else .invalid
    | .aarch64 => if b.a64 then .a64Sptr else .invalid
    | .invalid => .invalid
  if hunch = .invalid then .invalid
  else if hunch.fnCallConv ≠ s.cconv then .invalid
  else match s.params[hunch.paramIdx]? with
    | some (.ptr as) => if some (s.params, s.ret, s.vararg) = hunch.fnType as then hunch else .invalid
    | _ => .invalid

/-- Signature of the lifted function, /repo/src/function.cc:120-122; `none` if the function type is
null. -/
def liftedSig (c : Cfg) : Option Sig :=
  (c.callconv.fnType c.sptrAddrspace).map (fun t => ⟨c.callconv.fnCallConv, t.1, t.2.1, t.2.2⟩)

end Verif.Config
