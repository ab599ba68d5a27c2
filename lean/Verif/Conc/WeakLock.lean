import Verif.Conc.WeakMessage
import Verif.Conc.WeakMessageX86

/-! C63, locks in executions that are not interleavings: of any number of threads that exchange a value that is not 0 with the lock, at
most one finds 0. -/

namespace Verif.Conc

open Verif.IR

variable {ι : Type}

/-- An exchange of 8 bytes. -/
abbrev swap8 (t : ι) (o : Ord) (addr : Addr) (old new : Val 64) : Ev ι :=
  { thread := t, isFence := false, ord := o, addr, n := 8, old, new := some new, reads := true }

/-- C63, mutual exclusion in every execution that LLVM allows: if all accesses are atomic exchanges with the lock, with any orderings, and
none of them writes the first value of the lock, at most one finds this value. -/
theorem Exec.C63_weak_mutex {X : Exec ι} {mem : VMem} (hX : X.Consistent mem) (a : BitVec 64)
    (hall : ∀ k g, X.at? k = some g → ∃ t o old new, o ≠ .notAtomic ∧ new ≠ mem.read a 8 ∧ g = swap8 t o a old new)
    {i j : ι × Nat} {e f : Ev ι} (he : X.at? i = some e) (hf : X.at? j = some f) (hei : ∃ t o new, e = swap8 t o a (mem.read a 8) new)
    (hfj : ∃ t o new, f = swap8 t o a (mem.read a 8) new) : i = j := by
  have hsame : ∀ k l g h, X.at? k = some g → X.at? l = some h → X.same k l := by
    intro k l g h hk hl
    obtain ⟨t, o, old, new, -, -, rfl⟩ := hall k g hk
    obtain ⟨t', o', old', new', -, -, rfl⟩ := hall l h hl
    exact ⟨_, _, hk, hl, rfl, rfl, rfl, rfl⟩
  have hkind : ∀ k g, X.at? k = some g → X.isRead k ∧ X.isWrite k ∧ X.has k Ev.atomic := by
    intro k g hk
    obtain ⟨t, o, old, new, ho, -, rfl⟩ := hall k g hk
    exact ⟨⟨_, hk, rfl, rfl⟩, ⟨_, hk, rfl, rfl⟩, _, hk, rfl, ho⟩
  -- who finds the first value reads from no write
  have hfirst : ∀ k g, X.at? k = some g → (∃ t o new, g = swap8 t o a (mem.read a 8) new) → X.src k = none := by
    rintro k g hk ⟨t, o, new, rfl⟩
    obtain ⟨hr, -, e', he', ha⟩ := hkind k _ hk
    rw [hk] at he'
    cases he'
    have hval := hX.value k _ hk hr (.inl ⟨ha, fun w hw => by
      obtain ⟨g, hg, -⟩ := hw.1
      exact (hkind w g hg).2.2⟩)
    cases hs : X.src k with
    | none => rfl
    | some w =>
      have hsee := hX.sees k hr
      rw [hs] at hsee hval
      obtain ⟨g, hg, -⟩ := hsee.1
      obtain ⟨t', o', old', new', -, hn, rfl⟩ := hall w g hg
      simp only [Exec.value, hg, Option.bind_some] at hval
      exact absurd (Option.some.inj hval) hn
  have hlast : ∀ k l g h, X.at? k = some g → X.at? l = some h → X.src l = none → k ≠ l → ¬ X.mo k l := by
    intro k l g h hk hl hs hne hmo
    obtain ⟨w, hw, -⟩ := (hX.rmw l (hkind l h hl).1 (hkind l h hl).2.1 (hkind l h hl).2.2).2 k (hkind k g hk).2.1 (hsame k l g h hk hl) hmo hne
    rw [hs] at hw
    cases hw
  by_cases hne : i = j
  · exact hne
  · rcases hX.total i j (hkind i e he).2.1 (hkind j f hf).2.1 (hsame i j e f he hf) (hkind i e he).2.2 (hkind j f hf).2.2 with h | h | h
    · exact h
    · exact absurd h (hlast i j e f he hf (hfirst j f hf hfj) hne)
    · exact absurd h (hlast j i f e hf he (hfirst i e he hei) (Ne.symm hne))

/-- The same for threads that make one exchange each: `found t` is what the thread has found, if it is past the exchange. -/
theorem Exec.lock_threads {X : Exec ι} {mem : VMem} (hX : X.Consistent mem) (a : BitVec 64) (hfree : mem.read a 8 = some 0#64)
    (new : ι → BitVec 64) (hnew : ∀ t, new t ≠ 0#64) (past : ι → Val 64 → Prop)
    (hev : ∀ t, ∃ o old, o ≠ .notAtomic ∧ X.ev t <+: [swap8 t o a old (some (new t))] ∧
      ∀ v, past t v → X.ev t = [swap8 t o a v (some (new t))])
    {t u : ι} (ht : past t (some 0#64)) (hu : past u (some 0#64)) : t = u := by
  have hat : ∀ t, past t (some 0#64) → ∃ e, X.at? (t, 0) = some e ∧ ∃ s o n, e = swap8 s o a (mem.read a 8) n := by
    intro t ht
    obtain ⟨o, old, -, -, h⟩ := hev t
    refine ⟨_, by simp only [Exec.at?, h _ ht]; rfl, t, o, some (new t), by rw [hfree]⟩
  obtain ⟨e, he, he'⟩ := hat t ht
  obtain ⟨f, hf, hf'⟩ := hat u hu
  have := Exec.C63_weak_mutex hX a (fun k g hk => by
    obtain ⟨o, old, ho, ⟨tl, h⟩, -⟩ := hev k.1
    have hk' : (X.ev k.1)[k.2]? = some g := hk
    have hm : g ∈ X.ev k.1 := List.mem_of_getElem? hk'
    have : g ∈ X.ev k.1 ++ tl := List.mem_append_left _ hm
    rw [h, List.mem_singleton] at this
    refine ⟨_, _, _, _, ho, ?_, this⟩
    rw [hfree]
    exact fun h => hnew k.1 (Option.some.inj h)) he hf he' hf'
  exact congrArg Prod.fst this

namespace RV64

open Verif.RV64

/-- `amoswap.d x6, x3, (x4)` with the bits `aq` and `rl` in `o`, and then a loop. -/
def lockCode (o : BitVec 32) (pc : BitVec 64) : Option (Frv × Nat) :=
  if pc = 0x1000#64 then some (⟨.amoswapd, 6, 4, 3, o, 0, 0⟩, 4)
  else if pc = 0x1004#64 then some (⟨.jal, 0, regInv, 0, 0#32, 0, 0⟩, 4)
  else none

/-- C63, RV64: of any number of threads that execute the lifted code of `amoswap.d`, with any bits `aq` and `rl`, on the same lock, at most
one finds 0, in every execution that LLVM allows.  The values that are written are not 0; the threads need not all be finished. -/
theorem C63_rv64_mutex (o : BitVec 32) (ho : o.toNat < 4) (slide a : BitVec 64) (new : ι → BitVec 64) (hnew : ∀ t, new t ≠ 0#64)
    (regs : ι → St) (mem : VMem) (hregs : ∀ t, (regs t).gp 3 = some (new t) ∧ (regs t).gp 4 = some a ∧ (regs t).pc.val slide = some 0x1000#64)
    (hfree : mem.read a 8 = some 0#64) (X : Exec ι) (hX : X.Consistent mem) (out : ι → Code St)
    (hrun : ∀ t, Emits (prog (lockCode o) slide) t (.done (regs t)) (X.ev t) (out t))
    (t u : ι) (mt mu : St) (ht : out t = .done mt) (hu : out u = .done mu) (htpc : mt.pc.val slide = some 0x1004#64)
    (hupc : mu.pc.val slide = some 0x1004#64) (ht0 : mt.gp 6 = some 0#64) (hu0 : mu.gp 6 = some 0#64) : t = u := by
  obtain ⟨ord, hord, hat⟩ : ∃ ord, amoOrd o.toNat = some ord ∧ ord ≠ .notAtomic := by
    have : o.toNat = 0 ∨ o.toNat = 1 ∨ o.toNat = 2 ∨ o.toNat = 3 := by omega
    rcases this with h | h | h | h <;> rw [h] <;> exact ⟨_, rfl, by decide⟩
  have hcode : ∀ t, prog (lockCode o) slide (regs t) =
      .acc { n := 8, addr := a, align := 8, ord := ord, upd := some fun old => RmwOp.xchg.eval old (some (new t)) }
        fun v => .done { regs t with gp := upd (regs t).gp 6 (sext 64 v), pc := .const (0x1000#64 - slide + BitVec.ofNat 64 4) } := by
    intro t
    obtain ⟨h3, h4, hpc⟩ := hregs t
    unfold prog
    rw [hpc]
    dsimp only
    rw [show lockCode o 0x1000#64 = some (⟨.amoswapd, 6, 4, 3, o, 0, 0⟩, 4) from rfl]
    dsimp only [code, memCode]
    unfold amoCode
    rw [hord]
    dsimp only
    unfold rmwCode
    rw [show loadGp { regs t with pc := .const (0x1000#64 - slide) } 4 64 = some a from load_some (by decide) h4,
      show loadGp { regs t with pc := .const (0x1000#64 - slide) } 3 (8 * 8) = some (new t) from load_some (by decide) h3]
    rfl
  have hloop : ∀ (gp : Nat → Val 64) (m : St), m.gp = gp ∧ m.pc.val slide = some 0x1004#64 →
      ∃ m', prog (lockCode o) slide m = .done m' ∧ m'.gp = gp ∧ m'.pc.val slide = some 0x1004#64 := by
    intro gp m h
    unfold prog
    rw [h.2]
    dsimp only
    rw [show lockCode o 0x1004#64 = some (⟨.jal, 0, regInv, 0, 0#32, 0, 0⟩, 4) from rfl]
    refine ⟨_, rfl, h.1, ?_⟩
    show (Pc.const (0x1004#64 - slide + (Frv.imm64 ⟨.jal, 0, regInv, 0, 0#32, 0, 0⟩))).val slide = _
    simp only [Pc.val, Pc.get, addrPCBase, Option.some.injEq, show Frv.imm64 ⟨.jal, 0, regInv, 0, 0#32, 0, 0⟩ = 0#64 from rfl]
    bv_omega
  refine Exec.lock_threads hX a hfree new hnew (fun t v => ∃ m, out t = .done m ∧ m.pc.val slide = some 0x1004#64 ∧ m.gp 6 = v) ?_
    ⟨mt, ht, htpc, ht0⟩ ⟨mu, hu, hupc, hu0⟩
  intro t
  rcases emits_acc (hcode t) (hrun t) with ⟨hl, hc⟩ | ⟨v, l, hl, h⟩
  · refine ⟨ord, none, hat, hl ▸ List.nil_prefix, ?_⟩
    rintro v ⟨m, hm, hpc, -⟩
    rcases hc with hc | hc
    · rw [hm] at hc
      cases hc
      rw [(hregs t).2.2] at hpc
      cases hpc
    · rw [hm] at hc
      cases hc
  · obtain ⟨rfl, m2, ⟨hgp, -⟩, hm2⟩ := emits_loop (fun m' => m'.gp = upd (regs t).gp 6 v ∧ m'.pc.val slide = some 0x1004#64)
      (fun m' hm' => hloop _ m' hm') h ⟨_, ⟨by simp only [sext_id], by exact next_pc 0x1000#64⟩, rfl⟩
    refine ⟨ord, v, hat, by rw [hl]; exact List.prefix_rfl, ?_⟩
    rintro w ⟨m, hm, hpc, rfl⟩
    rw [hm] at hm2
    cases hm2
    rw [hl, hgp]
    rfl

/-- Registers for the example: the address of the lock is 128, and 1 is written. -/
def lockRegs (_ : Bool) : St where
  gp r := if r = 3 then some 1#64 else if r = 4 then some 128#64 else none
  fp _ := none
  mem _ := none
  pc := .const 0x1000#64

/-- The hypotheses of `C63_rv64_mutex` are met: of two threads, one finds 0 and the other 1. -/
example : ∃ (X : Exec Bool) (out : Bool → Code St), X.Consistent (Mem.toV fun _ => 0#8) ∧
    (∀ t, Emits (prog (lockCode 0#32) 0) t (.done (lockRegs t)) (X.ev t) (out t)) ∧
    doneWith (out false) = some (some 0x1004#64, some 1#64, none) ∧ doneWith (out true) = some (some 0x1004#64, some 0#64, none) := by
  have h : (System.trace (fun _ => prog (lockCode 0#32) 0) [false, true, true, false]
      { threads := fun t => .done (lockRegs t), mem := Mem.toV fun _ => 0#8 }).map
      (fun p => (uniformShape (p.1.map Ev.shape), decide (doneWith (p.2.threads false) = some (some 0x1004#64, some 1#64, none)),
        decide (doneWith (p.2.threads true) = some (some 0x1004#64, some 0#64, none)))) = some (true, true, true) := by decide +kernel
  obtain ⟨⟨tr, y'⟩, hp, h⟩ := Option.map_eq_some_iff.1 h
  simp only [Prod.mk.injEq, decide_eq_true_eq] at h
  obtain ⟨hu, hd, hd'⟩ := h
  obtain ⟨X, hX, -, -, hem⟩ := C63_interleaving _ _ _ _ _ hp (uniform_of_shape hu)
  exact ⟨X, y'.threads, hX, hem, hd, hd'⟩

end RV64

namespace X86

open Verif.X86

/-- `xchg [rdx], rax`, and then a loop. -/
def lockCode (pc : BitVec 64) : Option (Instr × Nat) :=
  if pc = 0x1000#64 then some (.xchg .q (.mem { base := .reg 2 }) (.reg 0), 4)
  else if pc = 0x1004#64 then some (.jmpRel (-2#64), 2)
  else none

theorem lock_at {slide : BitVec 64} {cfg : Cfg} {m : St} {pc : BitVec 64} {i : Instr} {len : Nat} {c : Code St}
    (hpc : m.pc.val slide = some pc) (hi : lockCode pc = some (i, len)) (hc : xCode slide cfg i (pc - slide) len m = some c) :
    xProg slide cfg lockCode m = c := by
  unfold xProg
  rw [hpc]
  dsimp only
  rw [hi]
  dsimp only
  rw [hc]
  rfl

/-- C63, x86-64: of any number of threads that execute the lifted code of `xchg [rdx], rax` on the same lock, at most one finds 0, in every
execution that LLVM allows.  The values that are written are not 0; the threads need not all be finished. -/
theorem C63_x86_mutex (cfg : Cfg) (slide a : BitVec 64) (new : ι → BitVec 64) (hnew : ∀ t, new t ≠ 0#64)
    (regs : ι → St) (mem : VMem) (hregs : ∀ t, (regs t).gp 0 = some (new t) ∧ (regs t).gp 2 = some a ∧ (regs t).pc.val slide = some 0x1000#64)
    (hfree : mem.read a 8 = some 0#64) (X : Exec ι) (hX : X.Consistent mem) (out : ι → Code St)
    (hrun : ∀ t, Emits (xProg slide cfg lockCode) t (.done (regs t)) (X.ev t) (out t))
    (t u : ι) (mt mu : St) (ht : out t = .done mt) (hu : out u = .done mu) (htpc : mt.pc.val slide = some 0x1004#64)
    (hupc : mu.pc.val slide = some 0x1004#64) (ht0 : mt.gp 0 = some 0#64) (hu0 : mu.gp 0 = some 0#64) : t = u := by
  have hcode : ∀ t, xProg slide cfg lockCode (regs t) =
      .acc { n := 8, addr := a, align := 8, ord := .seqCst, upd := some fun _ => trunc 64 ((regs t).gp 0) }
        fun v => .done (St.setGp { regs t with pc := .const (stopPc (0x1000#64 - slide) 4) } 0 (zext 64 v)) := fun t =>
    lock_at (hregs t).2.2 rfl (xchg_code _ _ 0 (hregs t).2.1)
  have hloop : ∀ (gp : Fin 16 → Val 64) (m : St), m.gp = gp ∧ m.pc.val slide = some 0x1004#64 →
      ∃ m', xProg slide cfg lockCode m = .done m' ∧ m'.gp = gp ∧ m'.pc.val slide = some 0x1004#64 := by
    intro gp m h
    refine ⟨{ m with pc := .const (stopPc (0x1004#64 - slide) 2 + -2#64) }, lock_at h.2 rfl rfl, h.1, ?_⟩
    simp only [Pc.val_const, stopPc, Option.some.injEq]
    bv_omega
  refine Exec.lock_threads hX a hfree new hnew (fun t v => ∃ m, out t = .done m ∧ m.pc.val slide = some 0x1004#64 ∧ m.gp 0 = v) ?_
    ⟨mt, ht, htpc, ht0⟩ ⟨mu, hu, hupc, hu0⟩
  intro t
  have hnewv : trunc 64 ((regs t).gp 0) = some (new t) := by rw [(hregs t).1, trunc_id]
  rcases emits_acc (hcode t) (hrun t) with ⟨hl, hc⟩ | ⟨v, l, hl, h⟩
  · refine ⟨.seqCst, none, by decide, hl ▸ List.nil_prefix, ?_⟩
    rintro v ⟨m, hm, hpc, -⟩
    rcases hc with hc | hc
    · rw [hm] at hc
      cases hc
      rw [(hregs t).2.2] at hpc
      cases hpc
    · rw [hm] at hc
      cases hc
  · obtain ⟨rfl, m2, ⟨hgp, -⟩, hm2⟩ := emits_loop (fun m' => m'.gp = ((regs t).setGp 0 v).gp ∧ m'.pc.val slide = some 0x1004#64)
      (fun m' hm' => hloop _ m' hm') h ⟨_, ⟨by rw [zext_id]; rfl, by exact next_pc 0x1000#64⟩, rfl⟩
    have hl : X.ev t = [swap8 t .seqCst a v (some (new t))] := by
      rw [hl, ← hnewv]
      rfl
    refine ⟨.seqCst, v, by decide, hl ▸ List.prefix_rfl, ?_⟩
    rintro w ⟨m, hm, hpc, rfl⟩
    rw [hm] at hm2
    cases hm2
    rw [hl, hgp]
    rfl

/-- Registers for the example: the address of the lock is 128, and 1 is written. -/
def lockRegs (_ : Bool) : St := { exRegs true with
  gp := fun r => if r = 0 then some 1#64 else if r = 2 then some 128#64 else none
  pc := .const 0x1000#64 }

/-- The hypotheses of `C63_x86_mutex` are met: of two threads, one finds 0 and the other 1. -/
example : ∃ (X : Exec Bool) (out : Bool → Code St), X.Consistent (Mem.toV fun _ => 0#8) ∧
    (∀ t, Emits (xProg 0 {} lockCode) t (.done (lockRegs t)) (X.ev t) (out t)) ∧
    doneWith (out false) = some (some 0x1004#64, some 1#64, none) ∧ doneWith (out true) = some (some 0x1004#64, some 0#64, none) := by
  have h : (System.trace (fun _ => xProg 0 {} lockCode) [false, true, true, false]
      { threads := fun t => .done (lockRegs t), mem := Mem.toV fun _ => 0#8 }).map
      (fun p => (uniformShape (p.1.map Ev.shape), decide (doneWith (p.2.threads false) = some (some 0x1004#64, some 1#64, none)),
        decide (doneWith (p.2.threads true) = some (some 0x1004#64, some 0#64, none)))) = some (true, true, true) := by decide +kernel
  obtain ⟨⟨tr, y'⟩, hp, h⟩ := Option.map_eq_some_iff.1 h
  simp only [Prod.mk.injEq, decide_eq_true_eq] at h
  obtain ⟨hu, hd, hd'⟩ := h
  obtain ⟨X, hX, -, -, hem⟩ := C63_interleaving _ _ _ _ _ hp (uniform_of_shape hu)
  exact ⟨X, y'.threads, hX, hem, hd, hd'⟩

end X86

end Verif.Conc
