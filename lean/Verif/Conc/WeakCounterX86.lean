import Verif.Conc.WeakCounterRV64

/-! C63, x86-64: a counter that is protected by a lock, in executions that are not interleavings. -/

namespace Verif.Conc.X86

open Verif.IR Verif.X86

/-- `mov rax, rcx`; `xchg [rdx], rax`; `test rax, rax`; `jnz` back to the beginning; `mov rbx, [rsi]`; `add rbx, rdi`; `mov [rsi], rbx`;
`xchg [rdx], rax`, where `rax` is now 0; and then a loop. -/
def sectionCode (pc : BitVec 64) : Option (Instr × Nat) :=
  if pc = 0x1000#64 then some (.mov .q .q (.reg 0) (.reg 1), 4)
  else if pc = 0x1004#64 then some (.xchg .q (.mem { base := .reg 2 }) (.reg 0), 4)
  else if pc = 0x1008#64 then some (.logic .test .q false (.reg 0) (.reg 0), 4)
  else if pc = 0x100c#64 then some (.jcc .nz (-0x10#64), 4)
  else if pc = 0x1010#64 then some (.mov .q .q (.reg 3) (.mem { base := .reg 6 }), 4)
  else if pc = 0x1014#64 then some (.arith .add .q false (.reg 3) (.reg 7), 4)
  else if pc = 0x1018#64 then some (.mov .q .q (.mem { base := .reg 6 }) (.reg 3), 4)
  else if pc = 0x101c#64 then some (.xchg .q (.mem { base := .reg 2 }) (.reg 0), 4)
  else if pc = 0x1020#64 then some (.jmpRel (-2#64), 2)
  else none

variable {ι : Type} {slide d f a b : BitVec 64} {cfg : Cfg}

theorem section_at {m : St} {pc : BitVec 64} {i : Instr} {len : Nat} {c : Code St} (hpc : m.pc.val slide = some pc)
    (hi : sectionCode pc = some (i, len)) (hc : xCode slide cfg i (pc - slide) len m = some c) : xProg slide cfg sectionCode m = c := by
  unfold xProg
  rw [hpc]
  dsimp only
  rw [hi]
  dsimp only
  rw [hc]
  rfl

/-- A thread between two instructions: the registers that matter. -/
structure At (slide d f a b : BitVec 64) (pc : BitVec 64) (v0 v3 : Val 64) (m : St) : Prop where
  rdi : m.gp 7 = some d
  rcx : m.gp 1 = some f
  rsi : m.gp 6 = some a
  rdx : m.gp 2 = some b
  rax : m.gp 0 = v0
  rbx : m.gp 3 = v3
  pc : m.pc.val slide = some pc

variable {v0 v3 : Val 64} {m : St}

theorem sec_mov (h : At slide d f a b 0x1000#64 v0 v3 m) :
    ∃ m1, xProg slide cfg sectionCode m = .done m1 ∧ At slide d f a b 0x1004#64 (some f) v3 m1 := by
  refine ⟨St.setGp { m with pc := .const (stopPc (0x1000#64 - slide) 4) } 0 (zext 64 (sext 64 (trunc 64 (m.gp 1)))),
    section_at h.pc rfl rfl, h.rdi, h.rcx, h.rsi, h.rdx, ?_, h.rbx, next_pc 0x1000#64⟩
  show zext 64 (sext 64 (trunc 64 (m.gp 1))) = some f
  rw [trunc_id, sext_id, zext_id, h.rcx]

theorem sec_xchg {pc : BitVec 64} (h : At slide d f a b pc v0 v3 m)
    (hi : sectionCode pc = some (.xchg .q (.mem { base := .reg 2 }) (.reg 0), 4)) :
    ∃ k, xProg slide cfg sectionCode m = .acc { n := 8, addr := b, align := 8, ord := .seqCst, upd := some fun _ => trunc 64 (m.gp 0) } k ∧
      ∀ v, ∃ m1, k v = .done m1 ∧ At slide d f a b (pc + 4#64) v v3 m1 := by
  refine ⟨_, section_at h.pc hi (xchg_code m _ 0 h.rdx), fun v => ⟨_, rfl, h.rdi, h.rcx, h.rsi, h.rdx, ?_, h.rbx, next_pc pc⟩⟩
  exact zext_id v

theorem sec_test (h : At slide d f a b 0x1008#64 v0 v3 m) :
    ∃ m1, xProg slide cfg sectionCode m = .done m1 ∧ At slide d f a b 0x100c#64 v0 v3 m1 ∧ m1.getF .zf = isZero v0 := by
  refine ⟨_, section_at h.pc rfl rfl, ⟨h.rdi, h.rcx, h.rsi, h.rdx, h.rax, h.rbx, next_pc 0x1008#64⟩, ?_⟩
  show isZero (IR.and (trunc 64 (m.gp 0)) (trunc 64 (m.gp 0))) = isZero v0
  rw [trunc_id, h.rax]
  cases v0 with
  | none => rfl
  | some v => simp [IR.and, bin]

theorem sec_jnz (h : At slide d f a b 0x100c#64 v0 v3 m) (hz : m.getF .zf = isZero v0) :
    ∃ m1, xProg slide cfg sectionCode m = .done m1 ∧ (v0 = none ∧ m1.pc.val slide = none ∨
      v0 = some 0#64 ∧ At slide d f a b 0x1010#64 v0 v3 m1 ∨ (∃ v, v0 = some v ∧ v ≠ 0#64) ∧ At slide d f a b 0x1000#64 v0 v3 m1) := by
  refine ⟨{ m with pc := .cond (IR.not (m.getF .zf)) (stopPc (0x100c#64 - slide) 4 + -0x10#64) (stopPc (0x100c#64 - slide) 4) },
    section_at h.pc rfl rfl, ?_⟩
  rw [hz]
  cases v0 with
  | none => exact .inl ⟨rfl, rfl⟩
  | some v =>
    by_cases hv : v = 0#64
    · subst hv
      refine .inr (.inl ⟨rfl, h.rdi, h.rcx, h.rsi, h.rdx, h.rax, h.rbx, ?_⟩)
      dsimp only
      rw [show IR.not (isZero (some 0#64)) = some (BitVec.ofBool false) from rfl, Pc.val_cond]
      simp only [Bool.false_eq_true, if_false, stopPc, Option.some.injEq]
      bv_omega
    · refine .inr (.inr ⟨⟨v, rfl, hv⟩, h.rdi, h.rcx, h.rsi, h.rdx, h.rax, h.rbx, ?_⟩)
      dsimp only
      rw [show IR.not (isZero (some v)) = some (BitVec.ofBool true) by
        simp [isZero, icmp, IR.cmp, Pred.eval, bin, IR.not, un, show (v == 0#64) = false by simpa using hv], Pc.val_cond]
      simp only [if_true, stopPc, Option.some.injEq]
      clear hv
      bv_omega

theorem sec_load (h : At slide d f a b 0x1010#64 v0 v3 m) :
    ∃ k, xProg slide cfg sectionCode m = .acc { n := 8, addr := a, align := 1, ord := .notAtomic, upd := none } k ∧
      ∀ v, ∃ m1, k v = .done m1 ∧ At slide d f a b 0x1014#64 v0 v m1 := by
  refine ⟨_, section_at h.pc rfl (ld_code m _ h.rsi), fun v => ⟨_, rfl, h.rdi, h.rcx, h.rsi, h.rdx, h.rax, ?_, next_pc 0x1010#64⟩⟩
  show zext 64 (sext 64 (v : Val 64)) = v
  rw [sext_id, zext_id]

theorem flagAdd_gp (m : St) (res lhs rhs : Val 64) : (flagAdd cfg m res lhs rhs).gp = m.gp ∧ (flagAdd cfg m res lhs rhs).pc = m.pc := by
  unfold flagAdd
  dsimp only
  constructor <;> (repeat' split) <;> rfl

theorem sec_add (h : At slide d f a b 0x1014#64 v0 v3 m) :
    ∃ m1, xProg slide cfg sectionCode m = .done m1 ∧ At slide d f a b 0x1018#64 v0 (IR.add v3 (some d)) m1 := by
  have hp : xProg slide cfg sectionCode m = .done (flagAdd cfg (St.setGp { m with pc := .const (stopPc (0x1014#64 - slide) 4) } 3
      (zext 64 (IR.add (trunc 64 (m.gp 3)) (trunc 64 (m.gp 7))))) (IR.add (trunc 64 (m.gp 3)) (trunc 64 (m.gp 7))) (trunc 64 (m.gp 3))
      (trunc 64 (m.gp 7))) := section_at h.pc rfl rfl
  refine ⟨_, hp, ?_⟩
  obtain ⟨h1, h2⟩ := flagAdd_gp (cfg := cfg) (St.setGp { m with pc := .const (stopPc (0x1014#64 - slide) 4) } 3
      (zext 64 (IR.add (trunc 64 (m.gp 3)) (trunc 64 (m.gp 7))))) (IR.add (trunc 64 (m.gp 3)) (trunc 64 (m.gp 7))) (trunc 64 (m.gp 3))
      (trunc 64 (m.gp 7))
  refine ⟨by rw [h1]; exact h.rdi, by rw [h1]; exact h.rcx, by rw [h1]; exact h.rsi, by rw [h1]; exact h.rdx, by rw [h1]; exact h.rax, ?_,
    by rw [h2]; exact next_pc 0x1014#64⟩
  rw [h1]
  show zext 64 (IR.add (trunc 64 (m.gp 3)) (trunc 64 (m.gp 7))) = _
  rw [zext_id, trunc_id, trunc_id, h.rbx, h.rdi]

theorem sec_store (h : At slide d f a b 0x1018#64 v0 v3 m) :
    ∃ k, xProg slide cfg sectionCode m =
        .acc { n := 8, addr := a, align := 1, ord := .notAtomic, upd := some fun _ => m.gp 3, reads := false } k ∧
      ∀ v, ∃ m1, k v = .done m1 ∧ At slide d f a b 0x101c#64 v0 v3 m1 := by
  have hc : xCode slide cfg (.mov .q .q (.mem { base := .reg 6 }) (.reg 3)) (0x1018#64 - slide) 4 m =
      some (.acc { n := 8, addr := a, align := 1, ord := .notAtomic, upd := some fun _ => m.gp 3, reads := false }
        fun _ => .done { m with pc := .const (stopPc (0x1018#64 - slide) 4) }) := by
    have : xCode slide cfg (.mov .q .q (.mem { base := .reg 6 }) (.reg 3)) (0x1018#64 - slide) 4 m =
        some (cStore (IR.add (IR.add (m.gp 6) (some 0#64)) (some 0#64)) 8 1 (sext 64 (trunc 64 (m.gp 3)))
          (.done { m with pc := .const (stopPc (0x1018#64 - slide) 4) })) := rfl
    rw [this, h.rsi, add_zero, trunc_id, sext_id]
    rfl
  exact ⟨_, section_at h.pc rfl hc, fun v => ⟨_, rfl, h.rdi, h.rcx, h.rsi, h.rdx, h.rax, h.rbx, next_pc 0x1018#64⟩⟩

theorem sec_jmp (h : m.pc.val slide = some 0x1020#64) :
    ∃ m', xProg slide cfg sectionCode m = .done m' ∧ m'.pc.val slide = some 0x1020#64 := by
  refine ⟨{ m with pc := .const (stopPc (0x1020#64 - slide) 2 + -2#64) }, section_at h rfl rfl, ?_⟩
  simp only [Pc.val_const, stopPc, Option.some.injEq]
  bv_omega

/-- The accesses of a thread that has reached the end. -/
theorem section_emits {t : ι} {m' : St} {l : List (Ev ι)} (h : At slide d f a b 0x1000#64 v0 v3 m)
    (hem : Emits (xProg slide cfg sectionCode) t (.done m) l (.done m')) (hpc' : m'.pc.val slide = some 0x1020#64) :
    ∃ fails v old1 old2, (∀ g ∈ fails, ∃ old, old ≠ some 0#64 ∧ g = swap8 t .seqCst b old (some f)) ∧
      l = fails ++ [swap8 t .seqCst b (some 0#64) (some f), load8 t a v, store8 t a old1 (IR.add v (some d)),
        swap8 t .seqCst b old2 (some 0#64)] := by
  have stuck : ∀ {p : BitVec 64} {m1 : St} {u0 u3 : Val 64}, At slide d f a b p u0 u3 m1 → p ≠ 0x1020#64 → m' ≠ m1 := by
    rintro p m1 u0 u3 h hne rfl
    rw [h.pc] at hpc'
    exact hne (Option.some.inj hpc')
  generalize hN : l.length = N
  induction N using Nat.strongRecOn generalizing l m v0 v3 with
  | ind N ih =>
  subst hN
  obtain ⟨m1, hp1, h1⟩ := sec_mov (cfg := cfg) h
  rcases emits_done hp1 hem with ⟨-, hc⟩ | hE1
  · cases hc
    exact absurd rfl (stuck h (by decide))
  obtain ⟨k, hp2, h2⟩ := sec_xchg (cfg := cfg) h1 rfl
  rcases emits_acc hp2 hE1 with ⟨-, hc | hc⟩ | ⟨v6, l1, rfl, hE2⟩
  · cases hc
    exact absurd rfl (stuck h1 (by decide))
  · cases hc
  have hev : Acc.event { n := 8, addr := b, align := 8, ord := .seqCst, upd := some fun _ => trunc 64 (m1.gp 0) } t v6 =
      swap8 t .seqCst b v6 (some f) := by
    simp only [Acc.event, Option.map_some]
    rw [trunc_id, h1.rax]
  rw [hev]
  obtain ⟨m2, hk, h2⟩ := h2 v6
  rw [hk] at hE2
  obtain ⟨m3, hp3, h3, hz⟩ := sec_test (cfg := cfg) h2
  rcases emits_done hp3 hE2 with ⟨-, hc⟩ | hE3
  · cases hc
    exact absurd rfl (stuck h2 (by decide))
  obtain ⟨m4, hp4, h4⟩ := sec_jnz (cfg := cfg) h3 hz
  rcases emits_done hp4 hE3 with ⟨-, hc⟩ | hE4
  · cases hc
    exact absurd rfl (stuck h3 (by decide))
  rcases h4 with ⟨rfl, hn⟩ | ⟨rfl, h4⟩ | ⟨⟨v, rfl, hv⟩, h4⟩
  · rcases emits_ub (by unfold xProg; rw [hn]) hE4 with hc | hc
    · cases hc
      rw [hn] at hpc'
      cases hpc'
    · cases hc
  · obtain ⟨k, hp5, h5⟩ := sec_load (cfg := cfg) h4
    rcases emits_acc hp5 hE4 with ⟨-, hc | hc⟩ | ⟨v5, l2, rfl, hE5⟩
    · cases hc
      exact absurd rfl (stuck h4 (by decide))
    · cases hc
    obtain ⟨m5, hk, h5⟩ := h5 v5
    rw [hk] at hE5
    obtain ⟨m6, hp6, h6⟩ := sec_add (cfg := cfg) h5
    rcases emits_done hp6 hE5 with ⟨-, hc⟩ | hE6
    · cases hc
      exact absurd rfl (stuck h5 (by decide))
    obtain ⟨k, hp7, h7⟩ := sec_store (cfg := cfg) h6
    rcases emits_acc hp7 hE6 with ⟨-, hc | hc⟩ | ⟨old1, l3, rfl, hE7⟩
    · cases hc
      exact absurd rfl (stuck h6 (by decide))
    · cases hc
    have hev7 : Acc.event { n := 8, addr := a, align := 1, ord := .notAtomic, upd := some fun _ => m6.gp 3, reads := false } t old1 =
        store8 t a old1 (IR.add v5 (some d)) := by
      simp only [Acc.event, Option.map_some]
      rw [h6.rbx]
    rw [hev7]
    obtain ⟨m7, hk, h7⟩ := h7 old1
    rw [hk] at hE7
    obtain ⟨k, hp8, h8⟩ := sec_xchg (cfg := cfg) h7 rfl
    rcases emits_acc hp8 hE7 with ⟨-, hc | hc⟩ | ⟨old2, l4, rfl, hE8⟩
    · cases hc
      exact absurd rfl (stuck h7 (by decide))
    · cases hc
    have hev8 : Acc.event { n := 8, addr := b, align := 8, ord := .seqCst, upd := some fun _ => trunc 64 (m7.gp 0) } t old2 =
        swap8 t .seqCst b old2 (some 0#64) := by
      simp only [Acc.event, Option.map_some]
      rw [trunc_id, h7.rax]
    rw [hev8]
    obtain ⟨m8, hk, h8⟩ := h8 old2
    rw [hk] at hE8
    obtain ⟨rfl, -⟩ := emits_loop (fun m' => m'.pc.val slide = some 0x1020#64) (fun m' hm' => sec_jmp hm') hE8 ⟨_, h8.pc, rfl⟩
    exact ⟨[], v5, old1, old2, fun g hg => (by cases hg), rfl⟩
  · obtain ⟨fails, v', old1, old2, hf, hl⟩ := ih l1.length (by simp) h4 hE4 rfl
    refine ⟨swap8 t .seqCst b (some v) (some f) :: fails, v', old1, old2, fun g hg => ?_, by rw [hl]; rfl⟩
    rcases List.mem_cons.1 hg with rfl | hg
    · exact ⟨_, fun h => hv (Option.some.inj h), rfl⟩
    · exact hf g hg

/-- C63, x86-64: `N` threads add to a counter in a critical section that is protected by a lock, taken and given back with XCHG.  In every
execution of the lifted code that LLVM allows, the counter has a last write, and this writes, not atomically, the first value and the sum
of the values that are added. -/
theorem C63_x86_locked_counter (N : Nat) (cfg : Cfg) (slide a b c : BitVec 64) (hab : a ≠ b) (d f : Fin N → BitVec 64)
    (hf : ∀ t, f t ≠ 0#64) (mem : VMem) (hmem : mem.read a 8 = some c) (regs : Fin N → St)
    (hregs : ∀ t, (regs t).gp 7 = some (d t) ∧ (regs t).gp 1 = some (f t) ∧ (regs t).gp 6 = some a ∧ (regs t).gp 2 = some b)
    (hpc : ∀ t, (regs t).pc.val slide = some 0x1000#64) (X : Exec (Fin N)) (hX : X.Consistent mem) (ends : Fin N → St)
    (hem : ∀ t, Emits (xProg slide cfg sectionCode) t (.done (regs t)) (X.ev t) (.done (ends t)))
    (hends : ∀ t, (ends t).pc.val slide = some 0x1020#64) :
    (0 < N → ∃ w e, X.last w ∧ X.at? w = some e ∧ e.addr = a) ∧
    ∀ w e, X.last w → X.at? w = some e → e.addr = a → ∃ hn : e.n = 8, e.new = some (some ((c + ∑ t, d t).cast (by rw [hn]))) := by
  have h : ∀ t, ∃ n v, X.Adds a b t n v (d t) := by
    intro t
    obtain ⟨fails, v, old1, old2, hfails, hl⟩ := section_emits ⟨(hregs t).1, (hregs t).2.1, (hregs t).2.2.1, (hregs t).2.2.2, rfl, rfl, hpc t⟩
      (hem t) (hends t)
    exact ⟨fails.length, v, Exec.adds_of_list (oa := .seqCst) (og := .seqCst) (by decide) trivial (by decide) trivial (hf t) hfails hl⟩
  choose n v hA using h
  exact Exec.C63_weak_locked_counter hX hA hab hmem

/-- Registers for the example: the counter is at 64, the lock at 128; 5 and 6 are added. -/
def sectionRegs (t : Fin 2) : St := { exRegs true with
  gp := fun r => if r = 7 then some (if t = 0 then 5#64 else 6#64) else if r = 1 then some 1#64 else if r = 6 then some 64#64 else
    if r = 2 then some 128#64 else none
  pc := .const 0x1000#64 }

/-- The hypotheses of `C63_x86_locked_counter` are met, by an execution in which the second thread has to wait. -/
example : ∃ (X : Exec (Fin 2)) (ends : Fin 2 → St), X.Consistent (Mem.toV fun _ => 0#8) ∧
    (∀ t, Emits (xProg 0 {} sectionCode) t (.done (sectionRegs t)) (X.ev t) (.done (ends t))) ∧
    (∀ t, (ends t).pc.val 0 = some 0x1020#64) ∧ (X.ev 0).length = 4 ∧ (X.ev 1).length = 5 := by
  have h : (System.trace (fun _ => xProg 0 {} sectionCode) ([0, 0, 0, 1, 1, 1, 1, 1, 0, 0, 0, 0, 0, 0, 0, 0, 0] ++
        [1, 1, 1, 1, 1, 1, 1, 1, 1, 1, 1, 1])
      { threads := fun t => .done (sectionRegs t), mem := Mem.toV fun _ => 0#8 }).map
      (fun p => (uniformShape (p.1.map Ev.shape), decide (∀ t, doneAt (p.2.threads t) = some 0x1020#64),
        (p.1.filter (·.thread = (0 : Fin 2))).length, (p.1.filter (·.thread = (1 : Fin 2))).length)) = some (true, true, 4, 5) := by
    decide +kernel
  obtain ⟨⟨tr, y'⟩, hp, h⟩ := Option.map_eq_some_iff.1 h
  simp only [Prod.mk.injEq, decide_eq_true_eq] at h
  obtain ⟨hu, hdone, h0, h1⟩ := h
  obtain ⟨X, hX, -, hev, hem⟩ := C63_interleaving _ _ _ _ _ hp (uniform_of_shape hu)
  have hends : ∀ t, ∃ m, y'.threads t = .done m ∧ m.pc.val 0 = some 0x1020#64 := by
    intro t
    have := hdone t
    unfold doneAt at this
    split at this
    · rename_i m hm
      exact ⟨m, hm, this⟩
    · cases this
  choose ends hends hpc using hends
  exact ⟨X, ends, hX, fun t => hends t ▸ hem t, hpc, by rw [hev]; exact h0, by rw [hev]; exact h1⟩

end Verif.Conc.X86
