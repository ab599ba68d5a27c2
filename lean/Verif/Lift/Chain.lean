import Verif.Lift.Drop

/-!
C59: running a program with lifted functions.  A dispatcher looks up a function lifted from the address in
the program counter of the CPU struct, calls it, and goes on in the same way when it returns; or the lifted
functions call the dispatcher themselves as tail function.
-/

namespace Verif.Lift

open Verif.Decode Verif.IR

variable {P R V M MS : Type} [DecidableEq R]

/-! ### Model -/

/-- A lifted function that can be called. -/
structure Compiled (P R V M : Type) where
  lifter : Lifter P R V M
  graph : Graph P
  plan : Plan R

/-- Where execution stands: in the dispatcher, in a lifted function, or finished. -/
inductive ChainCfg (P R V M : Type) where
  | out (c : CPU R V M)
  | run (u : Compiled P R V M) (x : SCfg R V M)
  | stop (c : CPU R V M)

/-- One step: the dispatcher calls the function for the program counter (taken back by `slide`) or
finishes if it has none; a lifted function executes one block; and when it is left, the dispatcher goes on
or not, depending on whether the function was left through the exit block (`again`).

With the dispatcher as tail function (`again = id`) the exit block ends in a call of the dispatcher and a
return (/repo/src/function.cc:211-217, /repo/src/callconv.cc:231-258); the call is a `musttail` call, so
nothing happens between the dispatcher's return and that of the lifted function.  The code of a returning
instruction does not call the tail function (`ForceReturn`, /repo/src/lifter-base.h:132-134).  Without tail
function a loop around the calls goes on in both cases (`again = fun _ => true`). -/
def stepChain (T : Addr → Option (Compiled P R V M)) (again : Bool → Bool) (drop : R → V → Bool)
    (slide : BitVec 64) (out0 : CPU R V M → Id → R → V) :
    ChainCfg P R V M → Option (ChainCfg P R V M)
  | .stop c => some (.stop c)
  | .out c =>
    match c.pc with
    | none => none
    | some pc =>
      match T (pc - slide) with
      | none => some (.stop c)
      | some u => some (.run u (ssaStart (out0 c) c))
  | .run _ (.done v c) => some (if again v then .out c else .stop c)
  | .run u (.at q b e) =>
    (stepSsa u.lifter u.plan drop slide u.graph (.at q b e)).map (.run u)

/-- `K` steps. -/
def runChain (T : Addr → Option (Compiled P R V M)) (again : Bool → Bool) (drop : R → V → Bool)
    (slide : BitVec 64) (out0 : CPU R V M → Id → R → V) :
    Nat → ChainCfg P R V M → Option (ChainCfg P R V M)
  | 0, x => some x
  | K + 1, x => (runChain T again drop slide out0 K x).bind (stepChain T again drop slide out0)

/-! ### Specification -/

/-- What the C60 theorems say about a single function lifted from the entry address `a`: in step with the
guest machine, and determined by its state. -/
def Compiled.InSync (u : Compiled P R V M) (G : Guest P MS) (code : Decoder P) (slide : BitVec 64)
    (rel : MS → (R → V) → M → Prop) (drop : R → V → Bool) (a : Addr) : Prop :=
  ∀ (m : MS) (c c' : CPU R V M) (out0 out0' : Id → R → V) (k : Nat), G.pc m = a + slide →
    rel m c.slot c.mem → c.pc = some (G.pc m) → rel m c'.slot c'.mem → c'.pc = some (G.pc m) →
    (∃ k' < k, ∃ n m1 q q' b e e', G.run code slide n m = some m1 ∧
      Walk u.lifter.toSLifter slide u.graph G m k' n (.at (.at b)) m1 ∧
      runSsa u.lifter u.plan drop slide u.graph k' (ssaStart out0 c) = some (.at q (.at b) e) ∧
      runSsa u.lifter u.plan drop slide u.graph k' (ssaStart out0' c') = some (.at q' (.at b) e') ∧
      InStep u.graph G slide rel m1 (.at q (.at b) e) ∧
      InStep u.graph G slide rel m1 (.at q' (.at b) e') ∧
      ∃ bb, u.graph (.at b) = some bb ∧ G.StuckIn code slide bb.body m1) ∨
    ∃ n m1 x x', G.run code slide n m = some m1 ∧
      runSsa u.lifter u.plan drop slide u.graph k (ssaStart out0 c) = some x ∧
      runSsa u.lifter u.plan drop slide u.graph k (ssaStart out0' c') = some x' ∧
      InStep u.graph G slide rel m1 x ∧ InStep u.graph G slide rel m1 x' ∧ x.loc = x'.loc ∧
      Walk u.lifter.toSLifter slide u.graph G m k n x.loc m1 ∧ Progress k n x

/-- The state of the guest machine: in the CPU struct, or in the registers of a lifted function. -/
def ChainSync (G : Guest P MS) (slide : BitVec 64) (rel : MS → (R → V) → M → Prop) (m : MS) :
    ChainCfg P R V M → Prop
  | .out c => rel m c.slot c.mem ∧ c.pc = some (G.pc m)
  | .stop c => rel m c.slot c.mem ∧ c.pc = some (G.pc m)
  | .run u x => InStep u.graph G slide rel m x

/-- The guest machine, in step with the lifted code, is about to execute instructions of the block that
the lifted code is at, and gets stuck there: the architecture does not define the result of one of them. -/
def ChainStuck (G : Guest P MS) (code : Decoder P) (slide : BitVec 64)
    (rel : MS → (R → V) → M → Prop) (m : MS) (x : ChainCfg P R V M) : Prop :=
  ∃ u q b e bb, x = .run u (.at q (.at b) e) ∧ InStep u.graph G slide rel m (.at q (.at b) e) ∧
    u.graph (.at b) = some bb ∧ G.StuckIn code slide bb.body m

/-! ### Proofs -/

section
variable {T : Addr → Option (Compiled P R V M)} {again : Bool → Bool} {drop : R → V → Bool}
  {slide : BitVec 64} {out0 : CPU R V M → Id → R → V}
  {G : Guest P MS} {code : Decoder P} {rel : MS → (R → V) → M → Prop}

theorem runSsa_succ' {L : Lifter P R V M} {plan : Plan R} {g : Graph P} (k : Nat) :
    ∀ x : SCfg R V M, runSsa L plan drop slide g (k + 1) x
      = (runSsa L plan drop slide g k x).bind (stepSsa L plan drop slide g) := by
  induction k with
  | zero => intro x; simp only [runSsa, Option.bind_some]; cases stepSsa L plan drop slide g x <;> rfl
  | succ k ih =>
    intro x
    rw [runSsa]
    conv => rhs; rw [runSsa]
    cases stepSsa L plan drop slide g x with
    | none => rfl
    | some y => simp only [Option.bind_some]; exact ih y

theorem run_trans {n n' : Nat} {m m1 m2 : MS} (h1 : G.run code slide n m = some m1)
    (h2 : G.run code slide n' m1 = some m2) : G.run code slide (n + n') m = some m2 := by
  rw [run_add, h1]; exact h2

/-- What the C09 theorems say. -/
theorem Compiled.InSync.single {u : Compiled P R V M} {a : Addr} (H : u.InSync G code slide rel drop a)
    (m : MS) (c : CPU R V M) (out0 : Id → R → V) (k : Nat) (hm : G.pc m = a + slide)
    (hc : rel m c.slot c.mem) (hcpc : c.pc = some (G.pc m)) :
    (∃ k' < k, ∃ n m1 q b e, G.run code slide n m = some m1 ∧
      runSsa u.lifter u.plan drop slide u.graph k' (ssaStart out0 c) = some (.at q (.at b) e) ∧
      InStep u.graph G slide rel m1 (.at q (.at b) e) ∧
      ∃ bb, u.graph (.at b) = some bb ∧ G.StuckIn code slide bb.body m1) ∨
    ∃ n m1 x, G.run code slide n m = some m1 ∧
      runSsa u.lifter u.plan drop slide u.graph k (ssaStart out0 c) = some x ∧
      InStep u.graph G slide rel m1 x ∧ Progress k n x := by
  rcases H m c c out0 out0 k hm hc hcpc hc hcpc with
    ⟨k', hk, n, m1, q, -, a, e, -, h1, -, h2, -, h3, -, h4⟩ | ⟨n, m1, x, -, h1, h2, -, h3, -, -, -, h4⟩
  · exact .inl ⟨k', hk, n, m1, q, a, e, h1, h2, h3, h4⟩
  · exact .inr ⟨n, m1, x, h1, h2, h3, h4⟩

/-- How the execution got to the configuration after `K` steps. -/
def Reach (T : Addr → Option (Compiled P R V M)) (again : Bool → Bool) (drop : R → V → Bool)
    (slide : BitVec 64) (out0 : CPU R V M → Id → R → V) (G : Guest P MS) (code : Decoder P)
    (rel : MS → (R → V) → M → Prop) (m : MS) (c : CPU R V M) (N K : Nat) : ChainCfg P R V M → Prop
  | .out c1 => ∃ n m1, N ≤ n ∧ G.run code slide n m = some m1 ∧ rel m1 c1.slot c1.mem ∧
      c1.pc = some (G.pc m1)
  | .stop c1 => ∃ n m1, N ≤ n ∧ G.run code slide n m = some m1 ∧ rel m1 c1.slot c1.mem ∧
      c1.pc = some (G.pc m1) ∧ (again false = true → again true = true → T (G.pc m1 - slide) = none)
  | .run u x => ∃ K0 k a n0 m0 c0, K = K0 + 1 + k ∧ T a = some u ∧ N ≤ n0 ∧
      G.run code slide n0 m = some m0 ∧
      G.pc m0 = a + slide ∧ rel m0 c0.slot c0.mem ∧ c0.pc = some (G.pc m0) ∧
      runSsa u.lifter u.plan drop slide u.graph k (ssaStart (out0 c0) c0) = some x ∧
      ∀ k' ≤ k, ∃ y, runSsa u.lifter u.plan drop slide u.graph k' (ssaStart (out0 c0) c0) = some y ∧
        runChain T again drop slide out0 (K0 + 1 + k') (.out c) = some (.run u y)

theorem reach_sync (hT : ∀ a u, T a = some u → u.InSync G code slide rel drop a) {m : MS} {c : CPU R V M}
    {N K : Nat} {x : ChainCfg P R V M} (h : Reach T again drop slide out0 G code rel m c N K x) :
    (∃ K' < K, ∃ n m1 x', G.run code slide n m = some m1 ∧
      runChain T again drop slide out0 K' (.out c) = some x' ∧ ChainStuck G code slide rel m1 x') ∨
    ∃ n m1, N ≤ n ∧ G.run code slide n m = some m1 ∧ ChainSync G slide rel m1 x := by
  cases x with
  | out c1 =>
    obtain ⟨n, m1, h1, h2, h3, h4⟩ := h
    exact .inr ⟨n, m1, h1, h2, h3, h4⟩
  | stop c1 =>
    obtain ⟨n, m1, h1, h2, h3, h4, -⟩ := h
    exact .inr ⟨n, m1, h1, h2, h3, h4⟩
  | run u x =>
    obtain ⟨K0, k, a, n0, m0, c0, rfl, hu, hN, hn0, hpc, hrel, hcpc, hx, hk⟩ := h
    rcases (hT a u hu).single m0 c0 (out0 c0) k hpc hrel hcpc with
      ⟨k', hk', n, m1, q, b, e, h1, h2, h3, bb, h4, h5⟩ | ⟨n, m1, x', h1, h2, h3, -⟩
    · obtain ⟨y, hy, hc⟩ := hk k' (by omega)
      rw [h2] at hy; cases hy
      exact .inl ⟨K0 + 1 + k', by omega, n0 + n, m1, _, run_trans hn0 h1, hc, u, q, b, e, bb, rfl, h3, h4, h5⟩
    · rw [hx] at h2; cases h2
      exact .inr ⟨n0 + n, m1, by omega, run_trans hn0 h1, h3⟩

/-- One step keeps the invariant; when a lifted function returns, the guest machine has executed at least
one more instruction. -/
theorem reach_step (hT : ∀ a u, T a = some u → u.InSync G code slide rel drop a) {m : MS} {c : CPU R V M}
    {N K : Nat} {x : ChainCfg P R V M} (hx : runChain T again drop slide out0 K (.out c) = some x)
    (h : Reach T again drop slide out0 G code rel m c N K x) :
    (∃ K' < K + 1, ∃ n m1 x', G.run code slide n m = some m1 ∧
      runChain T again drop slide out0 K' (.out c) = some x' ∧ ChainStuck G code slide rel m1 x') ∨
    ∃ x', runChain T again drop slide out0 (K + 1) (.out c) = some x' ∧
      Reach T again drop slide out0 G code rel m c
        (match x with | .run _ (.done _ _) => N + 1 | _ => N) (K + 1) x' := by
  have hstep : runChain T again drop slide out0 (K + 1) (.out c) = stepChain T again drop slide out0 x := by
    simp only [runChain, hx, Option.bind_some]
  cases x with
  | stop c1 =>
    obtain ⟨n, m1, h⟩ := h
    exact .inr ⟨.stop c1, hstep, n, m1, h⟩
  | out c1 =>
    obtain ⟨n, m1, h1, h2, h3, h4⟩ := h
    right
    cases ht : T (G.pc m1 - slide) with
    | none =>
      refine ⟨.stop c1, by rw [hstep]; simp only [stepChain, h4, ht], n, m1, h1, h2, h3, h4, fun _ _ => ht⟩
    | some u =>
      have hs : runChain T again drop slide out0 (K + 1) (.out c)
          = some (.run u (ssaStart (out0 c1) c1)) := by
        rw [hstep]; simp only [stepChain, h4, ht]
      refine ⟨_, hs, K, 0, G.pc m1 - slide, n, m1, c1, by omega, ht, h1, h2, ?_, h3, h4, rfl, ?_⟩
      · rw [BitVec.sub_add_cancel]
      · intro k' hk'
        obtain rfl : k' = 0 := by omega
        exact ⟨_, rfl, hs⟩
  | run u x =>
    obtain ⟨K0, k, a, n0, m0, c0, rfl, hu, hN, hn0, hpc, hrel, hcpc, hxs, hk⟩ := h
    cases x with
    | done v c1 =>
      rcases (hT a u hu).single m0 c0 (out0 c0) k hpc hrel hcpc with
        ⟨k', hk', n, m1, q, b, e, h1, h2, h3, bb, h4, h5⟩ | ⟨n, m1, x', h1, h2, h3, h4⟩
      · obtain ⟨y, hy, hc⟩ := hk k' (by omega)
        rw [h2] at hy; cases hy
        exact .inl ⟨K0 + 1 + k', by omega, n0 + n, m1, _, run_trans hn0 h1, hc, u, q, b, e, bb, rfl, h3, h4, h5⟩
      · rw [hxs] at h2; cases h2
        right
        have h4 : 1 ≤ n := h4
        by_cases hv : again v = true
        · refine ⟨.out c1, by rw [hstep]; simp only [stepChain, hv, if_true], ?_⟩
          exact ⟨n0 + n, m1, by simp only; omega, run_trans hn0 h1, h3.1, h3.2⟩
        · refine ⟨.stop c1, by rw [hstep]; simp only [stepChain, hv]; rfl, ?_⟩
          refine ⟨n0 + n, m1, by simp only; omega, run_trans hn0 h1, h3.1, h3.2, fun h1 h2 => ?_⟩
          cases v
          · exact absurd h1 hv
          · exact absurd h2 hv
    | «at» q b e =>
      rcases (hT a u hu).single m0 c0 (out0 c0) (k + 1) hpc hrel hcpc with
        ⟨k', hk', n, m1, q', b', e', h1, h2, h3, bb, h4, h5⟩ | ⟨n, m1, x', h1, h2, h3, h4⟩
      · obtain ⟨y, hy, hc⟩ := hk k' (by omega)
        rw [h2] at hy; cases hy
        exact .inl ⟨K0 + 1 + k', by omega, n0 + n, m1, _, run_trans hn0 h1, hc, u, q', b', e', bb, rfl, h3, h4, h5⟩
      · right
        have hs : stepSsa u.lifter u.plan drop slide u.graph (.at q b e) = some x' := by
          rw [runSsa_succ', hxs] at h2; exact h2
        have hs' : runChain T again drop slide out0 (K0 + 1 + k + 1) (.out c) = some (.run u x') := by
          rw [hstep]; simp only [stepChain, hs, Option.map_some]
        refine ⟨_, hs', K0, k + 1, a, n0, m0, c0, by omega, hu, hN, hn0, hpc, hrel, hcpc, h2, ?_⟩
        intro k' hk'
        by_cases h : k' ≤ k
        · exact hk k' h
        · obtain rfl : k' = k + 1 := by omega
          exact ⟨x', h2, hs'⟩

theorem reach_mono {m : MS} {c : CPU R V M} {N N' K : Nat} (hN : N' ≤ N) {x : ChainCfg P R V M}
    (h : Reach T again drop slide out0 G code rel m c N K x) :
    Reach T again drop slide out0 G code rel m c N' K x := by
  cases x with
  | out c1 =>
    obtain ⟨n, m1, h1, h⟩ := h
    exact ⟨n, m1, by omega, h⟩
  | stop c1 =>
    obtain ⟨n, m1, h1, h⟩ := h
    exact ⟨n, m1, by omega, h⟩
  | run u x =>
    obtain ⟨K0, k, a, n0, m0, c0, h1, h2, h3, h⟩ := h
    exact ⟨K0, k, a, n0, m0, c0, h1, h2, by omega, h⟩

theorem reach_all (hT : ∀ a u, T a = some u → u.InSync G code slide rel drop a) {m : MS} {c : CPU R V M}
    (hc : rel m c.slot c.mem) (hcpc : c.pc = some (G.pc m)) (K : Nat) :
    (∃ K' < K, ∃ n m1 x', G.run code slide n m = some m1 ∧
      runChain T again drop slide out0 K' (.out c) = some x' ∧ ChainStuck G code slide rel m1 x') ∨
    ∃ x, runChain T again drop slide out0 K (.out c) = some x ∧
      Reach T again drop slide out0 G code rel m c 0 K x := by
  induction K with
  | zero => exact .inr ⟨.out c, rfl, 0, m, Nat.le_refl _, rfl, hc, hcpc⟩
  | succ K ih =>
    rcases ih with ⟨K', hK, h⟩ | ⟨x, hx, h⟩
    · exact .inl ⟨K', by omega, h⟩
    · rcases reach_step hT hx h with h | ⟨x', hx', h⟩
      · exact .inl h
      · exact .inr ⟨x', hx', reach_mono (Nat.zero_le _) h⟩

/-- C59: the CPU struct holds the state `m` of the guest machine.  After any number `K` of steps of the
dispatcher and the functions it calls, either the guest machine has run into an instruction of a block that
lifted code was executing and whose result the architecture does not define, or there has not been undefined
behaviour, and the guest machine after some number of instructions is in the state that the lifted code or
the CPU struct has. -/
theorem C59_chain_partial (hT : ∀ a u, T a = some u → u.InSync G code slide rel drop a) (m : MS)
    (c : CPU R V M) (hc : rel m c.slot c.mem) (hcpc : c.pc = some (G.pc m)) (K : Nat) :
    (∃ K' < K, ∃ n m1 x, G.run code slide n m = some m1 ∧
      runChain T again drop slide out0 K' (.out c) = some x ∧ ChainStuck G code slide rel m1 x) ∨
    ∃ n m1 x, G.run code slide n m = some m1 ∧ runChain T again drop slide out0 K (.out c) = some x ∧
      ChainSync G slide rel m1 x := by
  rcases reach_all (again := again) (out0 := out0) hT hc hcpc K with h | ⟨x, hx, h⟩
  · exact .inl h
  · rcases reach_sync hT h with h | ⟨n, m1, -, h1, h2⟩
    · exact .inl h
    · exact .inr ⟨n, m1, x, h1, hx, h2⟩

/-- C59: a loop around calls of lifted functions, which ends when there is no function for the program
counter, ends with the state of a guest machine whose program counter has reached such an address. -/
theorem C59_loop_partial (hT : ∀ a u, T a = some u → u.InSync G code slide rel drop a) (m : MS)
    (c : CPU R V M) (hc : rel m c.slot c.mem) (hcpc : c.pc = some (G.pc m)) (K : Nat) (c' : CPU R V M)
    (hend : runChain T (fun _ => true) drop slide out0 K (.out c) = some (.stop c')) :
    (∃ K' < K, ∃ n m1 x, G.run code slide n m = some m1 ∧
      runChain T (fun _ => true) drop slide out0 K' (.out c) = some x ∧
      ChainStuck G code slide rel m1 x) ∨
    ∃ n m1, G.run code slide n m = some m1 ∧ rel m1 c'.slot c'.mem ∧ c'.pc = some (G.pc m1) ∧
      T (G.pc m1 - slide) = none := by
  rcases reach_all (again := fun _ => true) (out0 := out0) hT hc hcpc K with h | ⟨x, hx, h⟩
  · exact .inl h
  · rw [hend] at hx; cases hx
    obtain ⟨n, m1, -, h1, h2, h3, h4⟩ := h
    exact .inr ⟨n, m1, h1, h2, h3, h4 rfl rfl⟩

/-- A lifted function called from the dispatcher returns, or executes blocks forever. -/
theorem unit_run (hT : ∀ a u, T a = some u → u.InSync G code slide rel drop a) {m : MS} {c : CPU R V M}
    (hlive : ∀ K n m1 x, G.run code slide n m = some m1 →
      runChain T again drop slide out0 K (.out c) = some x → ¬ ChainStuck G code slide rel m1 x)
    {K0 : Nat} {c0 : CPU R V M} {a : Addr} {u : Compiled P R V M} {n0 : Nat} {m0 : MS}
    (hK : runChain T again drop slide out0 (K0 + 1) (.out c) = some (.run u (ssaStart (out0 c0) c0)))
    (hu : T a = some u) (hn0 : G.run code slide n0 m = some m0) (hpc : G.pc m0 = a + slide)
    (hrel : rel m0 c0.slot c0.mem) (hcpc : c0.pc = some (G.pc m0)) (k : Nat) :
    (∃ k' v c1, runSsa u.lifter u.plan drop slide u.graph k' (ssaStart (out0 c0) c0) = some (.done v c1) ∧
      runChain T again drop slide out0 (K0 + 1 + k') (.out c) = some (.run u (.done v c1)) ∧
      ∀ j < k', ∃ q b e,
        runSsa u.lifter u.plan drop slide u.graph j (ssaStart (out0 c0) c0) = some (.at q b e) ∧
        runChain T again drop slide out0 (K0 + 1 + j) (.out c) = some (.run u (.at q b e))) ∨
    ∀ k' ≤ k, ∃ q b e,
      runSsa u.lifter u.plan drop slide u.graph k' (ssaStart (out0 c0) c0) = some (.at q b e) ∧
      runChain T again drop slide out0 (K0 + 1 + k') (.out c) = some (.run u (.at q b e)) := by
  induction k with
  | zero =>
    right
    intro k' hk'
    obtain rfl : k' = 0 := by omega
    exact ⟨_, _, _, rfl, hK⟩
  | succ k ih =>
    rcases ih with h | ih
    · exact .inl h
    · obtain ⟨q, b, e, hr, hch⟩ := ih k (Nat.le_refl _)
      rcases (hT a u hu).single m0 c0 (out0 c0) (k + 1) hpc hrel hcpc with
        ⟨k', hk', n, m1, q', b', e', h1, h2, h3, bb, h4, h5⟩ | ⟨n, m1, x', h1, h2, h3, h4⟩
      · obtain ⟨q2, b2, e2, hr2, hch2⟩ := ih k' (by omega)
        rw [h2] at hr2; cases hr2
        exact absurd ⟨u, q', b', e', bb, rfl, h3, h4, h5⟩ (hlive _ _ _ _ (run_trans hn0 h1) hch2)
      · have hs : stepSsa u.lifter u.plan drop slide u.graph (.at q b e) = some x' := by
          rw [runSsa_succ', hr] at h2; exact h2
        have hs' : runChain T again drop slide out0 (K0 + 1 + (k + 1)) (.out c) = some (.run u x') := by
          rw [← Nat.add_assoc, runChain, hch]
          simp only [Option.bind_some, stepChain, hs, Option.map_some]
        cases x' with
        | done v c1 => exact .inl ⟨k + 1, v, c1, h2, hs', fun j hj => ih j (by omega)⟩
        | «at» q1 b1 e1 =>
          right
          intro k' hk'
          by_cases h : k' ≤ k
          · exact ih k' h
          · obtain rfl : k' = k + 1 := by omega
            exact ⟨q1, b1, e1, h2, hs'⟩

/-- C59: if the chain of lifted functions does not end and the guest machine does not get stuck in lifted
code, the lifted code follows the guest machine for any number of instructions. -/
theorem C59_progress_partial (hT : ∀ a u, T a = some u → u.InSync G code slide rel drop a) (m : MS)
    (c : CPU R V M) (hc : rel m c.slot c.mem) (hcpc : c.pc = some (G.pc m))
    (hlive : ∀ K n m1 x, G.run code slide n m = some m1 →
      runChain T again drop slide out0 K (.out c) = some x → ¬ ChainStuck G code slide rel m1 x)
    (hgo : ∀ K c', runChain T again drop slide out0 K (.out c) ≠ some (.stop c')) (N : Nat) :
    ∃ K n m1 x, N ≤ n ∧ G.run code slide n m = some m1 ∧
      runChain T again drop slide out0 K (.out c) = some x ∧ ChainSync G slide rel m1 x := by
  have key : (∃ K c1 n m1, runChain T again drop slide out0 K (.out c) = some (.out c1) ∧ N ≤ n ∧
        G.run code slide n m = some m1 ∧ rel m1 c1.slot c1.mem ∧ c1.pc = some (G.pc m1)) ∨
      ∀ N, ∃ K n m1 x, N ≤ n ∧ G.run code slide n m = some m1 ∧
        runChain T again drop slide out0 K (.out c) = some x ∧ ChainSync G slide rel m1 x := by
    induction N with
    | zero => exact .inl ⟨0, c, 0, m, rfl, Nat.le_refl _, rfl, hc, hcpc⟩
    | succ N ih =>
      rcases ih with ⟨K, c1, n, m1, hK, hN, h1, h2, h3⟩ | h
      · have hdisp : ∃ u, T (G.pc m1 - slide) = some u := by
          cases ht : T (G.pc m1 - slide) with
          | some u => exact ⟨u, rfl⟩
          | none =>
            refine absurd ?_ (hgo (K + 1) c1)
            rw [runChain, hK]; simp only [Option.bind_some, stepChain, h3, ht]
        obtain ⟨u, ht⟩ := hdisp
        have hs : runChain T again drop slide out0 (K + 1) (.out c)
            = some (.run u (ssaStart (out0 c1) c1)) := by
          rw [runChain, hK]; simp only [Option.bind_some, stepChain, h3, ht]
        have hpc : G.pc m1 = G.pc m1 - slide + slide := by rw [BitVec.sub_add_cancel]
        by_cases hdone : ∃ k v c2,
            runSsa u.lifter u.plan drop slide u.graph k (ssaStart (out0 c1) c1) = some (.done v c2) ∧
            runChain T again drop slide out0 (K + 1 + k) (.out c) = some (.run u (.done v c2)) ∧
            ∀ j < k, ∃ q b e,
              runSsa u.lifter u.plan drop slide u.graph j (ssaStart (out0 c1) c1) = some (.at q b e) ∧
              runChain T again drop slide out0 (K + 1 + j) (.out c) = some (.run u (.at q b e))
        · obtain ⟨k, v, c2, hr, hch, hbefore⟩ := hdone
          left
          have hnext : runChain T again drop slide out0 (K + 1 + k + 1) (.out c)
              = some (if again v then .out c2 else .stop c2) := by
            rw [runChain, hch]; rfl
          have hv : again v = true := by
            by_contra hv
            rw [if_neg hv] at hnext
            exact hgo _ _ hnext
          rw [if_pos hv] at hnext
          rcases (hT _ u ht).single m1 c1 (out0 c1) k hpc h2 h3 with
            ⟨k', hk', n2, m2, q', b', e', g1, g2, g3, bb, g4, g5⟩ | ⟨n2, m2, x', g1, g2, g3, g4⟩
          · obtain ⟨q2, b2, e2, hr2, hch2⟩ := hbefore k' hk'
            rw [g2] at hr2; cases hr2
            exact absurd ⟨u, q', b', e', bb, rfl, g3, g4, g5⟩ (hlive _ _ _ _ (run_trans h1 g1) hch2)
          · rw [hr] at g2; cases g2
            have g4 : 1 ≤ n2 := g4
            exact ⟨_, c2, n + n2, m2, hnext, by omega, run_trans h1 g1, g3.1, g3.2⟩
        · right
          intro N'
          rcases unit_run hT hlive hs ht h1 hpc h2 h3 (N' + 2) with h | h
          · exact absurd h hdone
          · obtain ⟨q, b, e, hr, hch⟩ := h (N' + 2) (Nat.le_refl _)
            rcases (hT _ u ht).single m1 c1 (out0 c1) (N' + 2) hpc h2 h3 with
              ⟨k', hk', n2, m2, q', b', e', g1, g2, g3, bb, g4, g5⟩ | ⟨n2, m2, x', g1, g2, g3, g4⟩
            · obtain ⟨q2, b2, e2, hr2, hch2⟩ := h k' (by omega)
              rw [g2] at hr2; cases hr2
              exact absurd ⟨u, q', b', e', bb, rfl, g3, g4, g5⟩ (hlive _ _ _ _ (run_trans h1 g1) hch2)
            · rw [hr] at g2; cases g2
              refine ⟨_, n + n2, m2, _, ?_, run_trans h1 g1, hch, g3⟩
              cases b with
              | entry => have : N' + 2 = 0 := g4; omega
              | exit => have : N' + 2 ≤ n2 + 2 := g4.1; omega
              | «at» a => have : N' + 2 ≤ n2 + 1 := g4; omega
      · exact .inr h
  rcases key with ⟨K, c1, n, m1, hK, h1, h2, h3, h4⟩ | h
  · exact ⟨K, n, m1, _, h1, h2, hK, h3, h4⟩
  · exact h N

end

/-! ### The guest state determines the execution -/

section
variable {T : Addr → Option (Compiled P R V M)} {again : Bool → Bool} {drop : R → V → Bool}
  {slide : BitVec 64} {out0 out0' : CPU R V M → Id → R → V}
  {G : Guest P MS} {code : Decoder P} {rel : MS → (R → V) → M → Prop}

/-- Two executions stand at the same place: both in the dispatcher, both finished, or both at the same
block of the same function. -/
def ChainSame : ChainCfg P R V M → ChainCfg P R V M → Prop
  | .out _, .out _ => True
  | .stop _, .stop _ => True
  | .run u x, .run u' x' => u = u' ∧ x.loc = x'.loc
  | _, _ => False

/-- How two executions got to where they are. -/
def Reach2 (T : Addr → Option (Compiled P R V M)) (again : Bool → Bool) (drop : R → V → Bool)
    (slide : BitVec 64) (out0 out0' : CPU R V M → Id → R → V) (G : Guest P MS) (code : Decoder P)
    (rel : MS → (R → V) → M → Prop) (m : MS) (c c' : CPU R V M) (K : Nat) :
    ChainCfg P R V M → ChainCfg P R V M → Prop
  | .out c1, .out c1' => ∃ n m1, G.run code slide n m = some m1 ∧ rel m1 c1.slot c1.mem ∧
      c1.pc = some (G.pc m1) ∧ rel m1 c1'.slot c1'.mem ∧ c1'.pc = some (G.pc m1)
  | .stop c1, .stop c1' => ∃ n m1, G.run code slide n m = some m1 ∧ rel m1 c1.slot c1.mem ∧
      c1.pc = some (G.pc m1) ∧ rel m1 c1'.slot c1'.mem ∧ c1'.pc = some (G.pc m1)
  | .run u x, .run u' x' => u = u' ∧ ∃ K0 k a n0 m0 c0 c0', K = K0 + 1 + k ∧ T a = some u ∧
      G.run code slide n0 m = some m0 ∧ G.pc m0 = a + slide ∧ rel m0 c0.slot c0.mem ∧
      c0.pc = some (G.pc m0) ∧ rel m0 c0'.slot c0'.mem ∧ c0'.pc = some (G.pc m0) ∧
      runSsa u.lifter u.plan drop slide u.graph k (ssaStart (out0 c0) c0) = some x ∧
      runSsa u.lifter u.plan drop slide u.graph k (ssaStart (out0' c0') c0') = some x' ∧
      ∀ k' ≤ k, ∃ y y', runSsa u.lifter u.plan drop slide u.graph k' (ssaStart (out0 c0) c0) = some y ∧
        runSsa u.lifter u.plan drop slide u.graph k' (ssaStart (out0' c0') c0') = some y' ∧
        runChain T again drop slide out0 (K0 + 1 + k') (.out c) = some (.run u y) ∧
        runChain T again drop slide out0' (K0 + 1 + k') (.out c') = some (.run u y')
  | _, _ => False

/-- Both executions have come to a block in which the guest machine gets stuck. -/
def BothStuck (T : Addr → Option (Compiled P R V M)) (again : Bool → Bool) (drop : R → V → Bool)
    (slide : BitVec 64) (out0 out0' : CPU R V M → Id → R → V) (G : Guest P MS) (code : Decoder P)
    (rel : MS → (R → V) → M → Prop) (m : MS) (c c' : CPU R V M) (K : Nat) : Prop :=
  ∃ K' < K, ∃ n m1 x x', G.run code slide n m = some m1 ∧
    runChain T again drop slide out0 K' (.out c) = some x ∧
    runChain T again drop slide out0' K' (.out c') = some x' ∧ ChainSame x x' ∧
    ChainStuck G code slide rel m1 x ∧ ChainStuck G code slide rel m1 x'

theorem reach2_sync (hT : ∀ a u, T a = some u → u.InSync G code slide rel drop a) {m : MS} {c c' : CPU R V M}
    {K : Nat} {x x' : ChainCfg P R V M}
    (h : Reach2 T again drop slide out0 out0' G code rel m c c' K x x') :
    BothStuck T again drop slide out0 out0' G code rel m c c' K ∨
    ∃ n m1, G.run code slide n m = some m1 ∧ ChainSync G slide rel m1 x ∧ ChainSync G slide rel m1 x' ∧
      ChainSame x x' := by
  cases x with
  | out c1 =>
    cases x' with
    | stop _ => exact h.elim
    | run _ _ => exact h.elim
    | out c1' =>
      obtain ⟨n, m1, h1, h2, h3, h4, h5⟩ := h
      exact .inr ⟨n, m1, h1, ⟨h2, h3⟩, ⟨h4, h5⟩, trivial⟩
  | stop c1 =>
    cases x' with
    | out _ => exact h.elim
    | run _ _ => exact h.elim
    | stop c1' =>
      obtain ⟨n, m1, h1, h2, h3, h4, h5⟩ := h
      exact .inr ⟨n, m1, h1, ⟨h2, h3⟩, ⟨h4, h5⟩, trivial⟩
  | run u x =>
    cases x' with
    | out _ => exact h.elim
    | stop _ => exact h.elim
    | run u' x' =>
      obtain ⟨rfl, K0, k, a, n0, m0, c0, c0', rfl, hu, hn0, hpc, hr, hp, hr', hp', hx, hx', hk⟩ := h
      rcases hT a u hu m0 c0 c0' (out0 c0) (out0' c0') k hpc hr hp hr' hp' with
        ⟨k', hk', n, m1, q, q', b, e, e', h1, -, h2, h2', h3, h3', bb, h4, h5⟩ |
        ⟨n, m1, y, y', h1, h2, h2', h3, h3', h4, -, -⟩
      · obtain ⟨y, y', hy, hy', hc, hc'⟩ := hk k' (by omega)
        rw [h2] at hy; cases hy
        rw [h2'] at hy'; cases hy'
        exact .inl ⟨K0 + 1 + k', by omega, n0 + n, m1, _, _, run_trans hn0 h1, hc, hc', ⟨rfl, rfl⟩,
          ⟨u, q, b, e, bb, rfl, h3, h4, h5⟩, ⟨u, q', b, e', bb, rfl, h3', h4, h5⟩⟩
      · rw [hx] at h2; cases h2
        rw [hx'] at h2'; cases h2'
        exact .inr ⟨n0 + n, m1, run_trans hn0 h1, h3, h3', rfl, h4⟩

theorem reach2_step (hT : ∀ a u, T a = some u → u.InSync G code slide rel drop a) {m : MS} {c c' : CPU R V M}
    {K : Nat} {x x' : ChainCfg P R V M}
    (hx : runChain T again drop slide out0 K (.out c) = some x)
    (hx' : runChain T again drop slide out0' K (.out c') = some x')
    (h : Reach2 T again drop slide out0 out0' G code rel m c c' K x x') :
    BothStuck T again drop slide out0 out0' G code rel m c c' (K + 1) ∨
    ∃ y y', runChain T again drop slide out0 (K + 1) (.out c) = some y ∧
      runChain T again drop slide out0' (K + 1) (.out c') = some y' ∧
      Reach2 T again drop slide out0 out0' G code rel m c c' (K + 1) y y' := by
  have hstep : runChain T again drop slide out0 (K + 1) (.out c) = stepChain T again drop slide out0 x := by
    simp only [runChain, hx, Option.bind_some]
  have hstep' : runChain T again drop slide out0' (K + 1) (.out c')
      = stepChain T again drop slide out0' x' := by
    simp only [runChain, hx', Option.bind_some]
  cases x with
  | stop c1 =>
    cases x' with
    | out _ => exact h.elim
    | run _ _ => exact h.elim
    | stop c1' => exact .inr ⟨.stop c1, .stop c1', hstep, hstep', h⟩
  | out c1 =>
    cases x' with
    | stop _ => exact h.elim
    | run _ _ => exact h.elim
    | out c1' =>
      obtain ⟨n, m1, h1, h2, h3, h4, h5⟩ := h
      right
      cases ht : T (G.pc m1 - slide) with
      | none =>
        exact ⟨.stop c1, .stop c1', by rw [hstep]; simp only [stepChain, h3, ht],
          by rw [hstep']; simp only [stepChain, h5, ht], n, m1, h1, h2, h3, h4, h5⟩
      | some u =>
        have hs : runChain T again drop slide out0 (K + 1) (.out c)
            = some (.run u (ssaStart (out0 c1) c1)) := by
          rw [hstep]; simp only [stepChain, h3, ht]
        have hs' : runChain T again drop slide out0' (K + 1) (.out c')
            = some (.run u (ssaStart (out0' c1') c1')) := by
          rw [hstep']; simp only [stepChain, h5, ht]
        refine ⟨_, _, hs, hs', rfl, K, 0, G.pc m1 - slide, n, m1, c1, c1', by omega, ht, h1, ?_, h2, h3, h4,
          h5, rfl, rfl, ?_⟩
        · rw [BitVec.sub_add_cancel]
        · intro k' hk'
          obtain rfl : k' = 0 := by omega
          exact ⟨_, _, rfl, rfl, hs, hs'⟩
  | run u x =>
    cases x' with
    | out _ => exact h.elim
    | stop _ => exact h.elim
    | run u' x' =>
      rcases reach2_sync hT h with ⟨K', hK, hstk⟩ | ⟨-, -, -, -, -, -, hloc⟩
      · exact .inl ⟨K', by omega, hstk⟩
      obtain ⟨rfl, K0, k, a, n0, m0, c0, c0', rfl, hu, hn0, hpc, hr, hp, hr', hp', hxs, hxs', hk⟩ := h
      cases x with
      | done v c1 =>
        cases x' with
        | «at» _ _ _ => cases hloc
        | done v' c1' =>
          cases hloc
          rcases hT a u hu m0 c0 c0' (out0 c0) (out0' c0') k hpc hr hp hr' hp' with
            ⟨k', hk', n, m1, q, q', b, e, e', h1, -, h2, h2', h3, h3', bb, h4, h5⟩ |
            ⟨n, m1, y, y', h1, h2, h2', h3, h3', h4, -, -⟩
          · obtain ⟨y, y', hy, hy', hc, hc'⟩ := hk k' (by omega)
            rw [h2] at hy; cases hy
            rw [h2'] at hy'; cases hy'
            exact .inl ⟨K0 + 1 + k', by omega, n0 + n, m1, _, _, run_trans hn0 h1, hc, hc', ⟨rfl, rfl⟩,
              ⟨u, q, b, e, bb, rfl, h3, h4, h5⟩, ⟨u, q', b, e', bb, rfl, h3', h4, h5⟩⟩
          · rw [hxs] at h2; cases h2
            rw [hxs'] at h2'; cases h2'
            right
            by_cases hv : again v = true
            · exact ⟨.out c1, .out c1', by rw [hstep]; simp only [stepChain, hv, if_true],
                by rw [hstep']; simp only [stepChain, hv, if_true],
                n0 + n, m1, run_trans hn0 h1, h3.1, h3.2, h3'.1, h3'.2⟩
            · exact ⟨.stop c1, .stop c1', by rw [hstep]; simp only [stepChain, hv]; rfl,
                by rw [hstep']; simp only [stepChain, hv]; rfl,
                n0 + n, m1, run_trans hn0 h1, h3.1, h3.2, h3'.1, h3'.2⟩
      | «at» q b e =>
        cases x' with
        | done _ _ => cases hloc
        | «at» q' b' e' =>
          rcases hT a u hu m0 c0 c0' (out0 c0) (out0' c0') (k + 1) hpc hr hp hr' hp' with
            ⟨k', hk', n, m1, q, q', b, e, e', h1, -, h2, h2', h3, h3', bb, h4, h5⟩ |
            ⟨n, m1, y, y', h1, h2, h2', h3, h3', h4, -, -⟩
          · obtain ⟨y, y', hy, hy', hc, hc'⟩ := hk k' (by omega)
            rw [h2] at hy; cases hy
            rw [h2'] at hy'; cases hy'
            exact .inl ⟨K0 + 1 + k', by omega, n0 + n, m1, _, _, run_trans hn0 h1, hc, hc', ⟨rfl, rfl⟩,
              ⟨u, q, b, e, bb, rfl, h3, h4, h5⟩, ⟨u, q', b, e', bb, rfl, h3', h4, h5⟩⟩
          · right
            have hs : stepSsa u.lifter u.plan drop slide u.graph (.at q b e) = some y := by
              rw [runSsa_succ', hxs] at h2; exact h2
            have hs' : stepSsa u.lifter u.plan drop slide u.graph (.at q' b' e') = some y' := by
              rw [runSsa_succ', hxs'] at h2'; exact h2'
            have hc : runChain T again drop slide out0 (K0 + 1 + k + 1) (.out c) = some (.run u y) := by
              rw [hstep]; simp only [stepChain, hs, Option.map_some]
            have hc' : runChain T again drop slide out0' (K0 + 1 + k + 1) (.out c') = some (.run u y') := by
              rw [hstep']; simp only [stepChain, hs', Option.map_some]
            refine ⟨_, _, hc, hc', rfl, K0, k + 1, a, n0, m0, c0, c0', by omega, hu, hn0, hpc, hr, hp, hr', hp',
              h2, h2', ?_⟩
            intro k' hk'
            by_cases h : k' ≤ k
            · exact hk k' h
            · obtain rfl : k' = k + 1 := by omega
              exact ⟨y, y', h2, h2', hc, hc'⟩

/-- C60: the guest state determines what a chain of lifted functions does.  The CPU structs `c` and `c'` hold the
same guest state.  After any number of steps of the dispatcher and the functions it calls, either the guest
machine has run into an instruction of a block that lifted code was executing in both cases and whose
result the architecture does not define, or there has not been undefined behaviour, both executions stand at
the same place, and both have the state that the guest machine has after the same number of
instructions. -/
theorem C60_chain_partial (hT : ∀ a u, T a = some u → u.InSync G code slide rel drop a) (m : MS)
    (c c' : CPU R V M) (hc : rel m c.slot c.mem) (hcpc : c.pc = some (G.pc m))
    (hc' : rel m c'.slot c'.mem) (hcpc' : c'.pc = some (G.pc m)) (K : Nat) :
    BothStuck T again drop slide out0 out0' G code rel m c c' K ∨
    ∃ n m1 x x', G.run code slide n m = some m1 ∧
      runChain T again drop slide out0 K (.out c) = some x ∧
      runChain T again drop slide out0' K (.out c') = some x' ∧
      ChainSync G slide rel m1 x ∧ ChainSync G slide rel m1 x' ∧ ChainSame x x' := by
  have key : BothStuck T again drop slide out0 out0' G code rel m c c' K ∨
      ∃ x x', runChain T again drop slide out0 K (.out c) = some x ∧
        runChain T again drop slide out0' K (.out c') = some x' ∧
        Reach2 T again drop slide out0 out0' G code rel m c c' K x x' := by
    induction K with
    | zero => exact .inr ⟨.out c, .out c', rfl, rfl, 0, m, rfl, hc, hcpc, hc', hcpc'⟩
    | succ K ih =>
      rcases ih with ⟨K', hK, h⟩ | ⟨x, x', hx, hx', h⟩
      · exact .inl ⟨K', by omega, h⟩
      · exact reach2_step hT hx hx' h
  rcases key with h | ⟨x, x', hx, hx', h⟩
  · exact .inl h
  · rcases reach2_sync hT h with h | ⟨n, m1, h1, h2, h3, h4⟩
    · exact .inl h
    · exact .inr ⟨n, m1, x, x', h1, hx, hx', h2, h3, h4⟩

end

/-! ### Call functions that run guest code -/

/-- The machine `G'` takes shortcuts: each of its steps is what `G` does in one or more steps. -/
structure Shortcut (G' G : Guest P MS) (code : Decoder P) (slide : BitVec 64) : Prop where
  pc : G'.pc = G.pc
  step : ∀ i m m', code i.start = some (i.len, i.payload) → G'.pc m = i.start + slide →
    G'.step i m = some m' → ∃ n, 1 ≤ n ∧ G.run code slide n m = some m'

omit [DecidableEq R] in
theorem Shortcut.run {G' G : Guest P MS} {code : Decoder P} {slide : BitVec 64}
    (H : Shortcut G' G code slide) (n : Nat) : ∀ (m m' : MS), G'.run code slide n m = some m' →
      ∃ n', n ≤ n' ∧ G.run code slide n' m = some m' := by
  induction n with
  | zero => intro m m' h; exact ⟨0, Nat.le_refl _, h⟩
  | succ n ih =>
    intro m m' h
    simp only [Guest.run] at h
    cases hn : G'.next code slide m with
    | none => rw [hn] at h; cases h
    | some m1 =>
      rw [hn] at h
      obtain ⟨n2, h2, h3⟩ := ih m1 m' h
      unfold Guest.next at hn
      cases hc : code (G'.pc m - slide) with
      | none => rw [hc] at hn; cases hn
      | some lp =>
        rw [hc] at hn
        obtain ⟨n1, h4, h5⟩ := H.step _ m m1 hc (by rw [BitVec.sub_add_cancel]) hn
        exact ⟨n1 + n2, by omega, run_trans h5 h3⟩

omit [DecidableEq R] in
theorem Shortcut.inStep {G' G : Guest P MS} {code : Decoder P} {slide : BitVec 64}
    (H : Shortcut G' G code slide) {g : Graph P} {rel : MS → (R → V) → M → Prop} {m : MS} {x : SCfg R V M}
    (h : InStep g G' slide rel m x) : InStep g G slide rel m x := by
  cases x <;> (simp only [InStep, H.pc] at h ⊢; exact h)

omit [DecidableEq R] in
theorem Progress.mono {k n n' : Nat} (hn : n ≤ n') {x : SCfg R V M} (h : Progress k n x) :
    Progress k n' x := by
  cases x with
  | done v c => exact Nat.le_trans h hn
  | «at» q b e =>
    cases b with
    | entry => exact h
    | exit => exact ⟨by have := h.1; omega, by have := h.2; omega⟩
    | «at» a => have h : k ≤ n + 1 := h; show k ≤ n' + 1; omega

/-- C59: a lifted function that is in step with a machine that takes shortcuts is in step with the machine
that executes every instruction.  So a call function may run the guest code of the called function in any
way. -/
theorem C59_shortcut_partial {u : Compiled P R V M} {G' G : Guest P MS} {code : Decoder P}
    {slide : BitVec 64} {rel : MS → (R → V) → M → Prop} {drop : R → V → Bool} {a : Addr}
    (H : Shortcut G' G code slide) (hu : u.InSync G' code slide rel drop a)
    (m : MS) (c : CPU R V M) (out0 : Id → R → V) (k : Nat) (hm : G.pc m = a + slide)
    (hc : rel m c.slot c.mem) (hcpc : c.pc = some (G.pc m)) :
    (∃ k' < k, ∃ n m1 q b e, G.run code slide n m = some m1 ∧
      runSsa u.lifter u.plan drop slide u.graph k' (ssaStart out0 c) = some (.at q (.at b) e) ∧
      InStep u.graph G slide rel m1 (.at q (.at b) e) ∧
      ∃ bb, u.graph (.at b) = some bb ∧ G'.StuckIn code slide bb.body m1) ∨
    ∃ n m1 x, G.run code slide n m = some m1 ∧
      runSsa u.lifter u.plan drop slide u.graph k (ssaStart out0 c) = some x ∧
      InStep u.graph G slide rel m1 x ∧ Progress k n x := by
  rcases hu.single m c out0 k (by rw [H.pc]; exact hm) hc (by rw [H.pc]; exact hcpc) with
    ⟨k', hk, n, m1, q, b, e, h1, h2, h3, h4⟩ | ⟨n, m1, x, h1, h2, h3, h4⟩
  · obtain ⟨n', -, h5⟩ := H.run n m m1 h1
    exact .inl ⟨k', hk, n', m1, q, b, e, h5, h2, H.inStep h3, h4⟩
  · obtain ⟨n', h6, h5⟩ := H.run n m m1 h1
    exact .inr ⟨n', m1, x, h5, h2, H.inStep h3, h4.mono h6⟩

end Verif.Lift
