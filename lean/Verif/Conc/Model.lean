import Verif.IR.Mem

/-!
Threads that share memory.  The code emitted for an instruction is a sequence of memory accesses with computations in
between (`Code`); threads are interleaved at the accesses, in any order (`System.run`).

Simplification: interleavings are sequentially consistent.  LLVM guarantees this for executions without data races whose atomic
accesses are sequentially consistent (`C63_race_free_interleaving`); `Verif.Conc.Weak` has other executions.
-/

namespace Verif.Conc

open Verif.IR

/-- `llvm::AtomicOrdering`, as used in /repo/src/rv64/lifter.cc:174-188, /repo/src/x86-64/lifter-gp.cc:75, 100, 125, 152,
171, 200, 564, /repo/src/a64/main.cc:249-258, 1110-1119. -/
inductive Ord where
  | notAtomic | monotonic | acquire | release | seqCst
  deriving DecidableEq, Repr

/-- One `load`, `store`, `atomicrmw` or `cmpxchg`: `n` bytes at `addr`, undefined if not aligned to `align`; `upd` gives the
value written from the value read, `none` for loads; `reads` is false for stores, which do not read. -/
structure Acc where
  n : Nat
  addr : Addr
  align : Nat
  ord : Ord
  upd : Option (Val (8 * n) → Val (8 * n))
  reads : Bool := true

/-- The access in one step. -/
def Acc.perform (e : Acc) (mem : VMem) : Option (Val (8 * e.n) × VMem) :=
  if e.addr.toNat % e.align = 0 then
    let old := mem.read e.addr e.n
    some (old, match e.upd with
      | none => mem
      | some f => mem.write e.addr e.n (f old))
  else none

/-- Emitted code that ends in a state of the registers. -/
inductive Code (σ : Type) where
  | done (s : σ)
  | ub
  | acc (e : Acc) (k : Val (8 * e.n) → Code σ)
  | fence (o : Ord) (k : Code σ)

variable {σ ι : Type}

/-- Execution without other threads. -/
def Code.run : Code σ → VMem → Option (σ × VMem)
  | .done s, mem => some (s, mem)
  | .ub, _ => none
  | .acc e k, mem => (e.perform mem).bind fun (v, mem) => (k v).run mem
  | .fence _ k, mem => k.run mem

/-- Threads `ι` with their remaining code, and the memory they share. -/
structure System (ι σ : Type) where
  threads : ι → Code σ
  mem : VMem

variable [DecidableEq ι]

/-- Thread `t` goes on: it starts the code of its next instruction, or performs its next access; `none` is undefined
behaviour. -/
def System.step (prog : ι → σ → Code σ) (t : ι) (y : System ι σ) : Option (System ι σ) :=
  let set (c : Code σ) (mem : VMem) : System ι σ := { threads := fun u => if u = t then c else y.threads u, mem }
  match y.threads t with
  | .done s => some (set (prog t s) y.mem)
  | .ub => none
  | .acc e k => (e.perform y.mem).map fun (v, mem) => set (k v) mem
  | .fence _ k => some (set k y.mem)

/-- Any interleaving: the list says whose turn it is. -/
def System.run (prog : ι → σ → Code σ) : List ι → System ι σ → Option (System ι σ)
  | [], y => some y
  | t :: ts, y => (y.step prog t).bind (System.run prog ts)

/-- A machine whose threads make whole instructions at a time. -/
def runG {Γ : Type} (gstep : ι → Γ → Option Γ) : List ι → Γ → Option Γ
  | [], g => some g
  | t :: ts, g => (gstep t g).bind (runG gstep ts)

end Verif.Conc
