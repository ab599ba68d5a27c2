import Verif.Conc.Model
import Verif.RV64.Exact

/-!
The accesses that the code of RV64 instructions makes, and harts that share memory.
-/

namespace Verif.Conc.RV64

open Verif.IR Verif.RV64

/-- A load instruction; a poison address is undefined behaviour. -/
def loadCode (a : Val 64) (n : Nat) (o : Ord) (k : Val (8 * n) → Code St) : Code St :=
  match a with
  | none => .ub
  | some a => .acc { n, addr := a, align := n, ord := o, upd := none } k

/-- A store instruction. -/
def storeCode (a : Val 64) (n : Nat) (o : Ord) (v : Val (8 * n)) (c : Code St) : Code St :=
  match a with
  | none => .ub
  | some a => .acc { n, addr := a, align := n, ord := o, upd := some fun _ => v, reads := false } fun _ => c

/-- An `atomicrmw` instruction. -/
def rmwCode (a : Val 64) (n : Nat) (o : Ord) (f : Val (8 * n) → Val (8 * n)) (k : Val (8 * n) → Code St) : Code St :=
  match a with
  | none => .ub
  | some a => .acc { n, addr := a, align := n, ord := o, upd := some f } k

/-- `Ordering` of `LiftAmo`, /repo/src/rv64/lifter.cc:175-182; the assertion fails for other values. -/
def amoOrd (imm : Nat) : Option Ord :=
  match amoOrdering imm with
  | some .monotonic => some .monotonic
  | some .release => some .release
  | some .acquire => some .acquire
  | some .seqCst => some .seqCst
  | none => none

/-- `LiftAmo`, /repo/src/rv64/lifter.cc:174-188: one `atomicrmw`. -/
def amoCode (s : St) (i : Frv) (n : Nat) (op : RmwOp) (fin : St → Code St) : Code St :=
  match amoOrd i.imm.toNat with
  | none => .ub
  | some o =>
    rmwCode (loadGp s i.rs1 64) n o (fun old => op.eval old (loadGp s i.rs2 (8 * n))) fun old => fin (storeGp s i.rd old)

/-- `LiftLoad`, /repo/src/rv64/lifter.cc:107-111. -/
def ldCode (s : St) (i : Frv) (n : Nat) (ext : Val (8 * n) → Val 64) (fin : St → Code St) : Code St :=
  loadCode (addr s i) n .notAtomic fun v => fin (storeGp s i.rd (ext v))

/-- `LiftStore`, /repo/src/rv64/lifter.cc:116-118. -/
def stCode (s : St) (i : Frv) (n : Nat) (fin : St → Code St) : Code St :=
  storeCode (addr s i) n .notAtomic (loadGp s i.rs2 (8 * n)) (fin s)

/-- The cases of the `switch` with a memory access, /repo/src/rv64/lifter.cc:434-444, 509-540, 568-569; `LR` and `SC` are an
ordinary load and an ordinary store. -/
def memCode (i : Frv) (s : St) (fin : St → Code St) : Option (Code St) :=
  match i.mnem with
  | .lb => some (ldCode s i 1 (sext 64) fin)
  | .lbu => some (ldCode s i 1 (zext 64) fin)
  | .lh => some (ldCode s i 2 (sext 64) fin)
  | .lhu => some (ldCode s i 2 (zext 64) fin)
  | .lw => some (ldCode s i 4 (sext 64) fin)
  | .lwu => some (ldCode s i 4 (zext 64) fin)
  | .ld => some (ldCode s i 8 (sext 64) fin)
  | .sb => some (stCode s i 1 fin)
  | .sh => some (stCode s i 2 fin)
  | .sw => some (stCode s i 4 fin)
  | .sd => some (stCode s i 8 fin)
  | .lrw => some (loadCode (loadGp s i.rs1 64) 4 .notAtomic fun v => fin (storeGp s i.rd v))
  | .lrd => some (loadCode (loadGp s i.rs1 64) 8 .notAtomic fun v => fin (storeGp s i.rd v))
  | .scw =>
    let s := storeGp s i.rd (some 0#32)
    some (storeCode (loadGp s i.rs1 64) 4 .notAtomic (loadGp s i.rs2 32) (fin s))
  | .scd =>
    let s := storeGp s i.rd (some 0#32)
    some (storeCode (loadGp s i.rs1 64) 8 .notAtomic (loadGp s i.rs2 64) (fin s))
  | .amoswapw => some (amoCode s i 4 .xchg fin)
  | .amoswapd => some (amoCode s i 8 .xchg fin)
  | .amoaddw => some (amoCode s i 4 .add fin)
  | .amoaddd => some (amoCode s i 8 .add fin)
  | .amoandw => some (amoCode s i 4 .and fin)
  | .amoandd => some (amoCode s i 8 .and fin)
  | .amoorw => some (amoCode s i 4 .or fin)
  | .amoord => some (amoCode s i 8 .or fin)
  | .amoxorw => some (amoCode s i 4 .xor fin)
  | .amoxord => some (amoCode s i 8 .xor fin)
  | .amomaxw => some (amoCode s i 4 .max fin)
  | .amomaxd => some (amoCode s i 8 .max fin)
  | .amomaxuw => some (amoCode s i 4 .umax fin)
  | .amomaxud => some (amoCode s i 8 .umax fin)
  | .amominw => some (amoCode s i 4 .min fin)
  | .amomind => some (amoCode s i 8 .min fin)
  | .amominuw => some (amoCode s i 4 .umin fin)
  | .amominud => some (amoCode s i 8 .umin fin)
  | .flw => some (loadCode (addr s i) 4 .notAtomic fun v => fin (storeFp s i.rd v))
  | .fld => some (loadCode (addr s i) 8 .notAtomic fun v => fin (storeFp s i.rd v))
  | .fsw => some (storeCode (addr s i) 4 .notAtomic (loadFp s i.rs2 32) (fin s))
  | .fsd => some (storeCode (addr s i) 8 .notAtomic (loadFp s i.rs2 64) (fin s))
  | _ => none

/-- The code of an instruction as accesses to shared memory, `Lifter::Lift`, /repo/src/rv64/lifter.cc:363-650; the memory
component of `m` is not used.  `FENCE` emits nothing (line 514). -/
def code (slide : BitVec 64) (i : Frv) (start : BitVec 64) (len : Nat) (m : St) : Code St :=
  match memCode i { m with pc := .const start } (fun s => .done { s with pc := .const (start + BitVec.ofNat 64 len) }) with
  | some c => c
  | none =>
    match lift {} slide i start len m with
    | none => .ub
    | some o => .done o.st

/-- A thread that executes lifted code, one instruction after the other (how they are chained is C09).  Simplification: code of
an instruction is looked up by its address, not by position in the function. -/
def prog (fetch : BitVec 64 → Option (Frv × Nat)) (slide : BitVec 64) (m : St) : Code St :=
  match m.pc.val slide with
  | none => .ub
  | some pc =>
    match fetch pc with
    | none => .ub
    | some (i, len) => code slide i (pc - slide) len m

end Verif.Conc.RV64
