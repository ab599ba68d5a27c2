import Verif.Conc.Lemmas
import Verif.A64.Model

/-!
The accesses to shared memory that the code of AArch64 instructions makes.  Line numbers without file refer to /repo/src/a64/main.cc.
The functions have the structure of those in `Verif.A64.Model`; the memory component of the state is not used.
-/

namespace Verif.Conc.A64

open Verif.IR Verif.A64

variable (slide : BitVec 64)

/-- `Ordering` of loads, 1110-1119; the model of the instructions does not distinguish LDAR, LDLAR and LDAPR, which get the same. -/
def loadOrd (mo : Bool) : Ord := if mo then .acquire else .notAtomic

/-- `Ordering` of stores. -/
def storeOrd (mo : Bool) : Ord := if mo then .release else .notAtomic

/-- A load; a poison address is undefined behaviour. -/
def cLoad (a : Val 64) (n align : Nat) (o : Ord) (k : Val (8 * n) → Code St) : Code St :=
  match a with
  | none => .ub
  | some a => .acc { n, addr := a, align, ord := o, upd := none } k

/-- A store. -/
def cStore (a : Val 64) (n align : Nat) (o : Ord) (v : Val (8 * n)) (c : Code St) : Code St :=
  match a with
  | none => .ub
  | some a => .acc { n, addr := a, align, ord := o, upd := some fun _ => v, reads := false } fun _ => c

/-- Computations without an access. -/
def pure' {α : Type} (x : Option α) (k : α → Code St) : Code St :=
  match x with
  | none => .ub
  | some v => k v

/-- `Load` into a general-purpose register, 1306-1316. -/
def cLoadGp (m : St) (rt : Reg) (w : Nat) (e : Ext) (mo : Bool) (a : Val 64) (fin : St → Code St) : Code St :=
  cLoad a e.bytes (alignOf e.bytes mo) (loadOrd mo) fun v => pure' (extend v w e 0) fun v => fin (m.set rt v)

/-- `Store` of a general-purpose register, 1329-1338. -/
def cStoreGp (m : St) (rt : Reg) (w : Nat) (e : Ext) (mo : Bool) (a : Val 64) (fin : Code St) : Code St :=
  if 8 * e.bytes ≤ w then
    cStore a e.bytes (alignOf e.bytes mo) (storeOrd mo) (trunc (8 * e.bytes) (m.get w rt)) fin
  else .ub

/-- DMB, 249-260. -/
def dmbOrd (crm : Nat) : Option Ord :=
  match crm % 4 with
  | 3 => some .seqCst
  | 2 => some .release
  | 1 => some .acquire
  | _ => none

/-- `LiftLoadStore`, 1341-1398, and fences; LDXR and STXR are an ordinary load and an ordinary store (677-692). -/
def memCode (i : Instr) (m : St) (fin : St → Code St) : Option (Code St) :=
  match i with
  | .ldr w32 e mode mo rt rn =>
    let a := addr slide m e.bytes rn mode
    some (cLoadGp a.2 rt (W w32) e mo a.1 fin)
  | .ldp w32 e mode mo rt rt2 rn =>
    let a := addr slide m e.bytes rn mode
    some (cLoadGp a.2 rt2 (W w32) e mo (second a.1 e.bytes) fun m => cLoadGp m rt (W w32) e mo a.1 fin)
  | .str w32 e mode mo excl rt rn =>
    let a := addr slide m e.bytes rn mode
    some (cStoreGp a.2 rt (W w32) e mo a.1 (fin (setStatus a.2 (W w32) excl)))
  | .stp w32 e mode mo excl rt rt2 rn =>
    let a := addr slide m e.bytes rn mode
    some (cStoreGp a.2 rt2 (W w32) e mo (second a.1 e.bytes)
      (cStoreGp a.2 rt (W w32) e mo a.1 (fin (setStatus a.2 (W w32) excl))))
  | .ldrFp sz mode rt rn =>
    let a := addr slide m sz.bytes rn mode
    some (cLoad a.1 sz.bytes 1 .notAtomic fun v => fin (a.2.setV rt v))
  | .ldpFp sz mode rt rt2 rn =>
    let a := addr slide m sz.bytes rn mode
    some (cLoad (second a.1 sz.bytes) sz.bytes 1 .notAtomic fun v2 =>
      cLoad a.1 sz.bytes 1 .notAtomic fun v => fin ((a.2.setV rt2 v2).setV rt v))
  | .strFp sz mode rt rn =>
    let a := addr slide m sz.bytes rn mode
    some (cStore a.1 sz.bytes 1 .notAtomic (a.2.getV rt (8 * sz.bytes)) (fin a.2))
  | .stpFp sz mode rt rt2 rn =>
    let a := addr slide m sz.bytes rn mode
    some (cStore (second a.1 sz.bytes) sz.bytes 1 .notAtomic (a.2.getV rt2 (8 * sz.bytes))
      (cStore a.1 sz.bytes 1 .notAtomic (a.2.getV rt (8 * sz.bytes)) (fin a.2)))
  | .dmb crm => some (pure' (dmbOrd crm) fun o => .fence o (fin m))
  | _ => none

/-- Instructions whose accesses are not modelled: DC ZVA, the SIMD loads and stores of `LiftSIMD`, and calls of functions. -/
def other : Instr → Bool
  | .dczva _ | .svc => true
  | .simd (.ld1 ..) | .simd (.ldN ..) | .simd (.ldSingle ..) | .simd (.ldR ..) | .simd (.st1 ..) | .simd (.stN ..)
  | .simd (.stSingle ..) => true
  | _ => false

/-- The code of an instruction, `Lifter::Lift`, 51-910, as accesses to shared memory. -/
def aCode (cfg : Cfg) (i : Instr) (start : BitVec 64) (len : Nat) (m : St) : Code St :=
  match memCode slide i { m with pc := .const start } fun s => .done { s with pc := .const (start + BitVec.ofNat 64 len) } with
  | some c => c
  | none => if other i then .ub else pure' (lift cfg slide i start len m) fun o => .done o.st

/-- A thread that executes lifted code, one instruction after the other.  The flag says that a load is LDXR or LDAXR; it makes no
difference for the lifter. -/
def aProg (cfg : Cfg) (fetch : BitVec 64 → Option (Instr × Nat × Bool)) (m : St) : Code St :=
  match m.pc.val slide with
  | none => .ub
  | some pc =>
    match fetch pc with
    | none => .ub
    | some (i, len, _) => aCode slide cfg i (pc - slide) len m

/-- Number of memory accesses and fences in the code of an instruction. -/
def accesses : Instr → Nat
  | .ldp .. | .stp .. | .ldpFp .. | .stpFp .. => 2
  | .ldr .. | .str .. | .ldrFp .. | .strFp .. | .dmb _ => 1
  | _ => 0

end Verif.Conc.A64
