import Verif.Conc.WeakLock
import Verif.Conc.WeakArch

/-! C63, two threads that announce themselves and then look at each other, in executions that are not interleavings: with sequentially
consistent exchanges at least one of them sees the other. -/

namespace Verif.Conc

open Verif.IR

/-- C63, in every execution that LLVM allows: two threads each write their own location and then read that of the other, with
sequentially consistent exchanges.  It is not possible that each of them finds something else than what the other writes. -/
theorem Exec.C63_weak_store_buffering {X : Exec Bool} {mem : VMem} (hX : X.Consistent mem) {a : Bool → BitVec 64} (hab : a false ≠ a true)
    {f o found r : Bool → Val 64} (hev : ∀ t, X.ev t = [swap8 t .seqCst (a t) (o t) (f t), swap8 t .seqCst (a !t) (found t) (r t)]) :
    ∃ t, found t = f !t := by
  by_contra hno
  have hne : ∀ t, a t ≠ a !t := by
    intro t
    cases t
    · exact hab
    · exact hab.symm
  have h0 : ∀ t, X.at? (t, 0) = some (swap8 t .seqCst (a t) (o t) (f t)) := fun t => by simp [Exec.at?, hev]
  have h1 : ∀ t, X.at? (t, 1) = some (swap8 t .seqCst (a !t) (found t) (r t)) := fun t => by simp [Exec.at?, hev]
  have hall : ∀ k g, X.at? k = some g → k.2 = 0 ∨ k.2 = 1 := by
    rintro ⟨t, n⟩ g hk
    simp only [Exec.at?, hev] at hk
    obtain ⟨hn, -⟩ := List.getElem?_eq_some_iff.1 hk
    simp only [List.length_cons, List.length_nil] at hn
    dsimp only
    omega
  have hatom : ∀ k g, X.at? k = some g → X.has k Ev.atomic := by
    rintro ⟨t, n⟩ g hk
    rcases hall _ g hk with h | h <;> cases h
    · exact ⟨_, h0 t, rfl, (show Ord.seqCst ≠ .notAtomic by decide)⟩
    · exact ⟨_, h1 t, rfl, (show Ord.seqCst ≠ .notAtomic by decide)⟩
  -- the second exchange reads the first contents of memory
  have hsrc : ∀ t, X.src (t, 1) = none := by
    intro t
    have hr : X.isRead (t, 1) := ⟨_, h1 t, rfl, rfl⟩
    have hval := hX.value (t, 1) _ (h1 t) hr (.inl ⟨⟨rfl, (show Ord.seqCst ≠ .notAtomic by decide)⟩, fun w hw => by
      obtain ⟨g, hg, -⟩ := hw.1
      exact hatom w g hg⟩)
    have hsee := hX.sees (t, 1) hr
    cases hs : X.src (t, 1) with
    | none => rfl
    | some w =>
      rw [hs] at hsee hval
      obtain ⟨-, ⟨e, g, he, hg, -, -, haddr, -⟩, hwne, -⟩ := hsee
      rw [h1 t] at hg
      cases hg
      obtain ⟨u, n⟩ := w
      have hu : u = t ∨ u = !t := by cases u <;> cases t <;> simp
      rcases hall _ e he with h | h <;> cases h
      · rw [h0 u] at he
        cases he
        rcases hu with rfl | rfl
        · exact absurd haddr (hne u)
        · simp only [Exec.value, h0, Option.bind_some] at hval
          exact absurd ⟨t, (Option.some.inj hval).symm⟩ hno
      · rcases hu with rfl | rfl
        · exact absurd rfl hwne
        · rw [h1] at he
          cases he
          rw [Bool.not_not] at haddr
          exact absurd haddr (hne t)
  obtain ⟨rank, hrank⟩ := hX.sc
  have hsc0 : ∀ t, X.has (t, 0) (·.ord = .seqCst) := fun t => ⟨_, h0 t, rfl⟩
  have hsc1 : ∀ t, X.has (t, 1) (·.ord = .seqCst) := fun t => ⟨_, h1 t, rfl⟩
  have hpo : ∀ t, rank (t, 0) < rank (t, 1) := fun t =>
    hrank _ _ (hsc0 t) (hsc1 t) (.inl (.po ⟨rfl, Nat.zero_lt_one, _, h1 t, trivial⟩))
  have hfr : ∀ t, rank (t, 1) < rank (!t, 0) := fun t =>
    hrank _ _ (hsc1 t) (hsc0 !t) (.inr (.fr ⟨⟨_, h1 t, rfl, rfl⟩, ⟨_, h0 !t, rfl, rfl⟩, ⟨_, _, h1 t, h0 !t, rfl, rfl, rfl, rfl⟩,
      (by simp), fun w hw => by rw [hsrc t] at hw; cases hw⟩))
  have a1 := hpo false
  have a2 := hfr false
  have a3 := hpo true
  have a4 := hfr true
  simp only [Bool.not_false, Bool.not_true] at a2 a4
  omega

namespace X86

open Verif.X86

/-- `xchg [rdx], rcx`; `xchg [rsi], rax`; and then a loop. -/
def announceCode (pc : BitVec 64) : Option (Instr × Nat) :=
  if pc = 0x1000#64 then some (.xchg .q (.mem { base := .reg 2 }) (.reg 1), 4)
  else if pc = 0x1004#64 then some (.xchg .q (.mem { base := .reg 6 }) (.reg 0), 4)
  else if pc = 0x1008#64 then some (.jmpRel (-2#64), 2)
  else none

theorem announce_at {slide : BitVec 64} {cfg : Cfg} {m : St} {pc : BitVec 64} {i : Instr} {len : Nat} {c : Code St}
    (hpc : m.pc.val slide = some pc) (hi : announceCode pc = some (i, len)) (hc : xCode slide cfg i (pc - slide) len m = some c) :
    xProg slide cfg announceCode m = c := by
  unfold xProg
  rw [hpc]
  dsimp only
  rw [hi]
  dsimp only
  rw [hc]
  rfl

theorem xchg_rsi {slide a : BitVec 64} {cfg : Cfg} (m : St) (start : BitVec 64) (h6 : m.gp 6 = some a) :
    xCode slide cfg (.xchg .q (.mem { base := .reg 6 }) (.reg 0)) start 4 m =
      some (.acc { n := 8, addr := a, align := 8, ord := .seqCst, upd := some fun _ => trunc 64 (m.gp 0) }
        fun v => .done (St.setGp { m with pc := .const (stopPc start 4) } 0 (zext 64 v))) := by
  have : xCode slide cfg (.xchg .q (.mem { base := .reg 6 }) (.reg 0)) start 4 m =
      some (cRmw (IR.add (IR.add (m.gp 6) (some 0#64)) (some 0#64)) 8 (fun _ => trunc 64 (m.gp 0))
        fun v => .done (St.setGp { m with pc := .const (stopPc start 4) } 0 (zext 64 v))) := rfl
  rw [this, h6, add_zero]
  rfl

/-- C63, x86-64: two threads execute the lifted code of `xchg [rdx], rcx`, which writes their own location, and of `xchg [rsi], rax`, which
reads that of the other.  In every execution that LLVM allows, at least one of them finds what the other has written. -/
theorem C63_x86_store_buffering (cfg : Cfg) (slide : BitVec 64) (a f : Bool → BitVec 64) (hab : a false ≠ a true) (regs : Bool → St) (mem : VMem)
    (hregs : ∀ t, (regs t).gp 1 = some (f t) ∧ (regs t).gp 2 = some (a t) ∧ (regs t).gp 6 = some (a !t))
    (hpc : ∀ t, (regs t).pc.val slide = some 0x1000#64) (X : Exec Bool) (hX : X.Consistent mem) (ends : Bool → St)
    (hem : ∀ t, Emits (xProg slide cfg announceCode) t (.done (regs t)) (X.ev t) (.done (ends t)))
    (hends : ∀ t, (ends t).pc.val slide = some 0x1008#64) : ∃ t, (ends t).gp 0 = some (f !t) := by
  have h : ∀ t, ∃ o r, X.ev t = [swap8 t .seqCst (a t) o (some (f t)), swap8 t .seqCst (a !t) ((ends t).gp 0) r] := by
    intro t
    have hE := hem t
    rcases emits_acc (announce_at (hpc t) rfl (xchg_code _ _ 1 (hregs t).2.1)) hE with ⟨-, hc | hc⟩ | ⟨o, l1, hl, hE1⟩
    · have hc := Code.done.inj hc
      have := hends t
      rw [hc, hpc t] at this
      cases this
    · cases hc
    rcases emits_acc (announce_at (pc := 0x1004#64) (by exact next_pc 0x1000#64) rfl
        (xchg_rsi (a := a !t) _ _ (by exact (hregs t).2.2))) hE1 with ⟨-, hc | hc⟩ | ⟨v, l2, hl2, hE2⟩
    · have hc := Code.done.inj hc
      have h1 := hends t
      rw [hc] at h1
      have h2 : some (0x1000#64 + 4#64) = some 0x1008#64 := (next_pc (slide := slide) 0x1000#64).symm.trans h1
      cases h2
    · cases hc
    obtain ⟨rfl, m2, ⟨hgp, -⟩, hm2⟩ := emits_loop (fun m' => m'.gp 0 = v ∧ m'.pc.val slide = some 0x1008#64)
      (fun m' hm' => ⟨{ m' with pc := .const (stopPc (0x1008#64 - slide) 2 + -2#64) }, announce_at hm'.2 rfl rfl, hm'.1, by
        simp only [Pc.val_const, stopPc, Option.some.injEq]
        bv_omega⟩) hE2 ⟨_, ⟨zext_id v, next_pc (slide := slide) 0x1004#64⟩, rfl⟩
    cases hm2
    have hnewv : trunc 64 ((regs t).gp 1) = some (f t) := by rw [(hregs t).1, trunc_id]
    refine ⟨o, trunc 64 ((regs t).gp 0), ?_⟩
    rw [hl, hl2, hgp, ← hnewv]
    rfl
  choose o r hev using h
  obtain ⟨t, ht⟩ := Exec.C63_weak_store_buffering (f := fun t => some (f t)) (found := fun t => (ends t).gp 0) hX hab hev
  exact ⟨t, ht⟩

/-- Registers for the example: the locations are 64 and 128, and 1 is written. -/
def announceRegs (t : Bool) : St := { exRegs true with
  gp := fun r => if r = 0 then some 0#64 else if r = 1 then some 1#64 else if r = 2 then some (if t then 64#64 else 128#64) else
    if r = 6 then some (if t then 128#64 else 64#64) else none
  pc := .const 0x1000#64 }

/-- The hypotheses of `C63_x86_store_buffering` are met: here only the second thread sees the first. -/
example : ∃ (X : Exec Bool) (ends : Bool → St), X.Consistent (Mem.toV fun _ => 0#8) ∧
    (∀ t, Emits (xProg 0 {} announceCode) t (.done (announceRegs t)) (X.ev t) (.done (ends t))) ∧
    (∀ t, (ends t).pc.val 0 = some 0x1008#64) ∧ (ends false).gp 0 = some 0#64 ∧ (ends true).gp 0 = some 1#64 := by
  have h : (System.trace (fun _ => xProg 0 {} announceCode) [false, false, false, false, true, true, true, true]
      { threads := fun t => .done (announceRegs t), mem := Mem.toV fun _ => 0#8 }).map
      (fun p => (uniformShape (p.1.map Ev.shape), decide (doneWith (p.2.threads false) = some (some 0x1008#64, some 0#64, none)),
        decide (doneWith (p.2.threads true) = some (some 0x1008#64, some 1#64, none)))) = some (true, true, true) := by decide +kernel
  obtain ⟨⟨tr, y'⟩, hp, h⟩ := Option.map_eq_some_iff.1 h
  simp only [Prod.mk.injEq, decide_eq_true_eq] at h
  obtain ⟨hu, hd, hd'⟩ := h
  obtain ⟨X, hX, -, -, hem⟩ := C63_interleaving _ _ _ _ _ hp (uniform_of_shape hu)
  have key : ∀ {c : Code St} {v : Val 64}, doneWith c = some (some 0x1008#64, v, none) →
      ∃ m, c = .done m ∧ m.pc.val 0 = some 0x1008#64 ∧ m.gp 0 = v := by
    intro c v hc
    unfold doneWith at hc
    split at hc
    · simp only [Option.some.injEq, Prod.mk.injEq] at hc
      exact ⟨_, rfl, hc.1, hc.2.1⟩
    · cases hc
  obtain ⟨m0, e0, p0, v0⟩ := key hd
  obtain ⟨m1, e1, p1, v1⟩ := key hd'
  refine ⟨X, fun t => if t then m1 else m0, hX, fun t => ?_, fun t => ?_, v0, v1⟩
  · cases t
    · exact e0 ▸ hem false
    · exact e1 ▸ hem true
  · cases t
    · exact p0
    · exact p1

end X86

namespace RV64

open Verif.RV64

/-- `amoswap.d.aqrl x0, x3, (x4)`; `amoswap.d.aqrl x6, x0, (x2)`; and then a loop. -/
def announceCode (pc : BitVec 64) : Option (Frv × Nat) :=
  if pc = 0x1000#64 then some (⟨.amoswapd, 0, 4, 3, 3#32, 0, 0⟩, 4)
  else if pc = 0x1004#64 then some (⟨.amoswapd, 6, 2, 0, 3#32, 0, 0⟩, 4)
  else if pc = 0x1008#64 then some (⟨.jal, 0, regInv, 0, 0#32, 0, 0⟩, 4)
  else none

variable {slide a b f : BitVec 64}

theorem announce_at {m : St} {pc : BitVec 64} {i : Frv} (hpc : m.pc.val slide = some pc) (hi : announceCode pc = some (i, 4)) :
    prog announceCode slide m = code slide i (pc - slide) 4 m := by
  unfold prog
  rw [hpc]
  dsimp only
  rw [hi]

theorem announce_code (m : St) (start : BitVec 64) (h3 : m.gp 3 = some f) (h4 : m.gp 4 = some b) :
    code slide ⟨.amoswapd, 0, 4, 3, 3#32, 0, 0⟩ start 4 m =
      .acc { n := 8, addr := b, align := 8, ord := .seqCst, upd := some fun old => RmwOp.xchg.eval old (some f) }
        fun _ => .done { m with pc := .const (start + BitVec.ofNat 64 4) } := by
  dsimp only [code, memCode]
  unfold amoCode
  rw [show amoOrd (3#32).toNat = some .seqCst from rfl]
  dsimp only
  unfold rmwCode
  rw [show loadGp { m with pc := .const start } 4 64 = some b from load_some (by decide) h4,
    show loadGp { m with pc := .const start } 3 (8 * 8) = some f from load_some (by decide) h3]
  rfl

theorem look_code (m : St) (start : BitVec 64) (h2 : m.gp 2 = some a) :
    code slide ⟨.amoswapd, 6, 2, 0, 3#32, 0, 0⟩ start 4 m =
      .acc { n := 8, addr := a, align := 8, ord := .seqCst, upd := some fun old => RmwOp.xchg.eval old (some 0#64) }
        fun v => .done { m with gp := upd m.gp 6 (sext 64 v), pc := .const (start + BitVec.ofNat 64 4) } := by
  dsimp only [code, memCode]
  unfold amoCode
  rw [show amoOrd (3#32).toNat = some .seqCst from rfl]
  dsimp only
  unfold rmwCode
  rw [show loadGp { m with pc := .const start } 2 64 = some a from load_some (by decide) h2]
  rfl

/-- C63, RV64: two threads execute the lifted code of `amoswap.d.aqrl x0, x3, (x4)`, which writes their own location, and of
`amoswap.d.aqrl x6, x0, (x2)`, which reads that of the other.  In every execution that LLVM allows, at least one of them finds what the
other has written. -/
theorem C63_rv64_store_buffering (slide : BitVec 64) (a f : Bool → BitVec 64) (hab : a false ≠ a true) (regs : Bool → St) (mem : VMem)
    (hregs : ∀ t, (regs t).gp 3 = some (f t) ∧ (regs t).gp 4 = some (a t) ∧ (regs t).gp 2 = some (a !t))
    (hpc : ∀ t, (regs t).pc.val slide = some 0x1000#64) (X : Exec Bool) (hX : X.Consistent mem) (ends : Bool → St)
    (hem : ∀ t, Emits (prog announceCode slide) t (.done (regs t)) (X.ev t) (.done (ends t)))
    (hends : ∀ t, (ends t).pc.val slide = some 0x1008#64) : ∃ t, (ends t).gp 6 = some (f !t) := by
  have h : ∀ t, ∃ o r, X.ev t = [swap8 t .seqCst (a t) o (some (f t)), swap8 t .seqCst (a !t) ((ends t).gp 6) r] := by
    intro t
    rcases emits_acc ((announce_at (hpc t) rfl).trans (announce_code _ _ (hregs t).1 (hregs t).2.1)) (hem t) with
      ⟨-, hc | hc⟩ | ⟨o, l1, hl, hE1⟩
    · have hc := Code.done.inj hc
      have := hends t
      rw [hc, hpc t] at this
      cases this
    · cases hc
    have hp2 : prog announceCode slide { regs t with pc := .const (0x1000#64 - slide + BitVec.ofNat 64 4) } = _ :=
      (announce_at (pc := 0x1004#64) (by exact next_pc 0x1000#64) rfl).trans (look_code (a := a !t) _ _ (by exact (hregs t).2.2))
    rcases emits_acc hp2 hE1 with ⟨-, hc | hc⟩ | ⟨v, l2, hl2, hE2⟩
    · have hc := Code.done.inj hc
      have h1 := hends t
      rw [hc] at h1
      have h2 : some (0x1000#64 + 4#64) = some 0x1008#64 := (next_pc (slide := slide) 0x1000#64).symm.trans h1
      cases h2
    · cases hc
    obtain ⟨rfl, m2, ⟨hgp, -⟩, hm2⟩ := emits_loop (fun m' => m'.gp 6 = v ∧ m'.pc.val slide = some 0x1008#64)
      (fun m' hm' => by
        rw [announce_at hm'.2 rfl]
        refine ⟨_, rfl, hm'.1, ?_⟩
        show (Pc.const (0x1008#64 - slide + (Frv.imm64 ⟨.jal, 0, regInv, 0, 0#32, 0, 0⟩))).val slide = some 0x1008#64
        simp only [Pc.val, Pc.get, addrPCBase, Option.some.injEq, show Frv.imm64 ⟨.jal, 0, regInv, 0, 0#32, 0, 0⟩ = 0#64 from rfl]
        bv_omega) hE2 ⟨_, ⟨sext_id v, next_pc (slide := slide) 0x1004#64⟩, rfl⟩
    cases hm2
    refine ⟨o, some 0#64, ?_⟩
    rw [hl, hl2, hgp]
    rfl
  choose o r hev using h
  obtain ⟨t, ht⟩ := Exec.C63_weak_store_buffering (f := fun t => some (f t)) (found := fun t => (ends t).gp 6) hX hab hev
  exact ⟨t, ht⟩

/-- Registers for the example: the locations are 64 and 128, and 1 is written. -/
def announceRegs (t : Bool) : St where
  gp r := if r = 3 then some 1#64 else if r = 4 then some (if t then 64#64 else 128#64) else
    if r = 2 then some (if t then 128#64 else 64#64) else none
  fp _ := none
  mem _ := none
  pc := .const 0x1000#64

/-- The hypotheses of `C63_rv64_store_buffering` are met: here only the second thread sees the first. -/
example : ∃ (X : Exec Bool) (ends : Bool → St), X.Consistent (Mem.toV fun _ => 0#8) ∧
    (∀ t, Emits (prog announceCode 0) t (.done (announceRegs t)) (X.ev t) (.done (ends t))) ∧
    (∀ t, (ends t).pc.val 0 = some 0x1008#64) ∧ (ends false).gp 6 = some 0#64 ∧ (ends true).gp 6 = some 1#64 := by
  have h : (System.trace (fun _ => prog announceCode 0) [false, false, false, false, true, true, true, true]
      { threads := fun t => .done (announceRegs t), mem := Mem.toV fun _ => 0#8 }).map
      (fun p => (uniformShape (p.1.map Ev.shape), decide (doneWith (p.2.threads false) = some (some 0x1008#64, some 0#64, none)),
        decide (doneWith (p.2.threads true) = some (some 0x1008#64, some 1#64, none)))) = some (true, true, true) := by decide +kernel
  obtain ⟨⟨tr, y'⟩, hp, h⟩ := Option.map_eq_some_iff.1 h
  simp only [Prod.mk.injEq, decide_eq_true_eq] at h
  obtain ⟨hu, hd, hd'⟩ := h
  obtain ⟨X, hX, -, -, hem⟩ := C63_interleaving _ _ _ _ _ hp (uniform_of_shape hu)
  have key : ∀ {c : Code St} {v : Val 64}, doneWith c = some (some 0x1008#64, v, none) →
      ∃ m, c = .done m ∧ m.pc.val 0 = some 0x1008#64 ∧ m.gp 6 = v := by
    intro c v hc
    unfold doneWith at hc
    split at hc
    · simp only [Option.some.injEq, Prod.mk.injEq] at hc
      exact ⟨_, rfl, hc.1, hc.2.1⟩
    · cases hc
  obtain ⟨m0, e0, p0, v0⟩ := key hd
  obtain ⟨m1, e1, p1, v1⟩ := key hd'
  refine ⟨X, fun t => if t then m1 else m0, hX, fun t => ?_, fun t => ?_, v0, v1⟩
  · cases t
    · exact e0 ▸ hem false
    · exact e1 ▸ hem true
  · cases t
    · exact p0
    · exact p1

end RV64

end Verif.Conc
