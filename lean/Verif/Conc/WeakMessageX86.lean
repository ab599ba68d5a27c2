import Verif.Conc.WeakMessage
import Verif.Conc.X86

/-! C63, messages of x86-64 code in executions that are not interleavings: the flag is exchanged with XCHG. -/

namespace Verif.Conc.X86

open Verif.IR Verif.X86

variable {slide d f a b : BitVec 64} {cfg : Cfg}

/-- One processor stores the data with `mov [rsi], rax` and the flag with `xchg [rdx], rcx`, the other takes the flag with
`xchg [rdx], rax` and reads the data with `mov rbx, [rsi]`; both then loop. -/
def msgCode (pc : BitVec 64) : Option (Instr × Nat) :=
  if pc = 0x1000#64 then some (.mov .q .q (.mem { base := .reg 6 }) (.reg 0), 4)
  else if pc = 0x1004#64 then some (.xchg .q (.mem { base := .reg 2 }) (.reg 1), 4)
  else if pc = 0x1008#64 then some (.jmpRel (-2#64), 2)
  else if pc = 0x2000#64 then some (.xchg .q (.mem { base := .reg 2 }) (.reg 0), 4)
  else if pc = 0x2004#64 then some (.mov .q .q (.reg 3) (.mem { base := .reg 6 }), 4)
  else if pc = 0x2008#64 then some (.jmpRel (-2#64), 2)
  else none

theorem prog_at {m : St} {pc : BitVec 64} {i : Instr} {len : Nat} {c : Code St} (hpc : m.pc.val slide = some pc)
    (hi : msgCode pc = some (i, len)) (hc : xCode slide cfg i (pc - slide) len m = some c) : xProg slide cfg msgCode m = c := by
  unfold xProg
  rw [hpc]
  dsimp only
  rw [hi]
  dsimp only
  rw [hc]
  rfl

theorem sext_id (v : Val 64) : sext 64 v = v := by
  cases v <;> simp [sext, un]

theorem zext_id (v : Val 64) : zext 64 v = v := by
  cases v <;> simp [zext, un]

theorem trunc_id (v : Val 64) : trunc 64 v = v := by
  cases v <;> simp [trunc, un]

theorem add_zero (v : BitVec 64) : IR.add (IR.add (some v) (some 0#64)) (some 0#64) = some v := by
  simp [IR.add, bin]

theorem next_pc (pc : BitVec 64) : (Pc.const (stopPc (pc - slide) 4)).val slide = some (pc + 4#64) := by
  simp only [Pc.val_const, stopPc, Option.some.injEq]
  bv_omega

theorem st_code (m : St) (start : BitVec 64) (h0 : m.gp 0 = some d) (h6 : m.gp 6 = some a) :
    xCode slide cfg (.mov .q .q (.mem { base := .reg 6 }) (.reg 0)) start 4 m =
      some (.acc { n := 8, addr := a, align := 1, ord := .notAtomic, upd := some fun _ => some d, reads := false }
        fun _ => .done { m with pc := .const (stopPc start 4) }) := by
  have : xCode slide cfg (.mov .q .q (.mem { base := .reg 6 }) (.reg 0)) start 4 m =
      some (cStore (IR.add (IR.add (m.gp 6) (some 0#64)) (some 0#64)) 8 1 (sext 64 (trunc 64 (m.gp 0)))
        (.done { m with pc := .const (stopPc start 4) })) := rfl
  rw [this, h6, add_zero, h0, trunc_id, sext_id]
  rfl

theorem ld_code (m : St) (start : BitVec 64) (h6 : m.gp 6 = some a) :
    xCode slide cfg (.mov .q .q (.reg 3) (.mem { base := .reg 6 })) start 4 m =
      some (.acc { n := 8, addr := a, align := 1, ord := .notAtomic, upd := none }
        fun v => .done (St.setGp { m with pc := .const (stopPc start 4) } 3 (zext 64 (sext 64 v)))) := by
  have : xCode slide cfg (.mov .q .q (.reg 3) (.mem { base := .reg 6 })) start 4 m =
      some (cLoad (IR.add (IR.add (m.gp 6) (some 0#64)) (some 0#64)) 8 1
        fun v => .done (St.setGp { m with pc := .const (stopPc start 4) } 3 (zext 64 (sext 64 v)))) := rfl
  rw [this, h6, add_zero]
  rfl

theorem xchg_code (m : St) (start : BitVec 64) (r : Fin 16) (h2 : m.gp 2 = some b) :
    xCode slide cfg (.xchg .q (.mem { base := .reg 2 }) (.reg r)) start 4 m =
      some (.acc { n := 8, addr := b, align := 8, ord := .seqCst, upd := some fun _ => trunc 64 (m.gp r) }
        fun v => .done (St.setGp { m with pc := .const (stopPc start 4) } r (zext 64 v))) := by
  have : xCode slide cfg (.xchg .q (.mem { base := .reg 2 }) (.reg r)) start 4 m =
      some (cRmw (IR.add (IR.add (m.gp 2) (some 0#64)) (some 0#64)) 8 (fun _ => trunc 64 (m.gp r))
        fun v => .done (St.setGp { m with pc := .const (stopPc start 4) } r (zext 64 v))) := rfl
  rw [this, h2, add_zero]
  rfl

/-- The loop at the end. -/
theorem jmp_loop (gp : Fin 16 → Val 64) (pc : BitVec 64) (hi : msgCode pc = some (.jmpRel (-2#64), 2)) (m : St)
    (h : m.gp = gp ∧ m.pc.val slide = some pc) :
    ∃ m', xProg slide cfg msgCode m = .done m' ∧ m'.gp = gp ∧ m'.pc.val slide = some pc := by
  refine ⟨{ m with pc := .const (stopPc (pc - slide) 2 + -2#64) }, prog_at h.2 hi rfl, h.1, ?_⟩
  simp only [Pc.val_const, stopPc, Option.some.injEq]
  bv_omega

theorem writer_emits {m : St} {l : List (Ev Bool)} {c : Code St} (hpc : m.pc.val slide = some 0x1000#64) (h0 : m.gp 0 = some d)
    (h6 : m.gp 6 = some a) (h1 : m.gp 1 = some f) (h2 : m.gp 2 = some b) (h : Emits (xProg slide cfg msgCode) false (.done m) l c) :
    ∃ v0 v1, l <+: [acc8 false .notAtomic a v0 (some (some d)) false, acc8 false .seqCst b v1 (some (some f)) true] := by
  rcases emits_acc (prog_at hpc rfl (st_code m _ h0 h6)) h with ⟨rfl, -⟩ | ⟨v0, l1, rfl, ha⟩
  · exact ⟨none, none, List.nil_prefix⟩
  · rcases emits_acc (prog_at (m := { m with pc := .const (stopPc (0x1000#64 - slide) 4) }) (next_pc 0x1000#64) rfl
      (xchg_code _ _ 1 h2)) ha with ⟨rfl, -⟩ | ⟨v1, l2, rfl, hb⟩
    · exact ⟨v0, none, List.cons_prefix_cons.2 ⟨rfl, List.nil_prefix⟩⟩
    · obtain ⟨rfl, -⟩ := emits_loop (fun m' => m'.gp = (m.setGp 1 (zext 64 v1)).gp ∧ m'.pc.val slide = some 0x1008#64)
        (fun m' hm' => jmp_loop _ _ rfl m' hm') hb ⟨_, ⟨rfl, by exact next_pc 0x1004#64⟩, rfl⟩
      refine ⟨v0, v1, List.cons_prefix_cons.2 ⟨rfl, List.cons_prefix_cons.2 ⟨?_, List.nil_prefix⟩⟩⟩
      simp only [Acc.event, Option.map_some]
      rw [h1, trunc_id]

theorem reader_emits {m m' : St} {l : List (Ev Bool)} (hpc : m.pc.val slide = some 0x2000#64) (h6 : m.gp 6 = some a)
    (h2 : m.gp 2 = some b) (h : Emits (xProg slide cfg msgCode) true (.done m) l (.done m')) (hpc' : m'.pc.val slide = some 0x2008#64) :
    ∃ new, l = [acc8 true .seqCst b (m'.gp 0) new true, acc8 true .notAtomic a (m'.gp 3) none true] := by
  rcases emits_acc (prog_at hpc rfl (xchg_code m _ 0 h2)) h with ⟨rfl, hc | hc⟩ | ⟨v6, l1, rfl, ha⟩
  · cases hc
    rw [hpc] at hpc'
    cases hpc'
  · cases hc
  · rcases emits_acc (prog_at (m := St.setGp { m with pc := .const (stopPc (0x2000#64 - slide) 4) } 0 (zext 64 v6)) (next_pc 0x2000#64) rfl
      (ld_code _ _ h6)) ha with ⟨rfl, hc | hc⟩ | ⟨v5, l2, rfl, hb⟩
    · cases hc
      rw [show (St.pc _).val slide = _ from next_pc 0x2000#64] at hpc'
      cases hpc'
    · cases hc
    · obtain ⟨rfl, m2, ⟨hgp, -⟩, hm2⟩ := emits_loop
        (fun m' => m'.gp = ((m.setGp 0 v6).setGp 3 v5).gp ∧ m'.pc.val slide = some 0x2008#64)
        (fun m' hm' => jmp_loop _ _ rfl m' hm') hb ⟨_, ⟨by rw [zext_id, zext_id, sext_id]; rfl, by exact next_pc 0x2004#64⟩, rfl⟩
      cases hm2
      rw [hgp]
      exact ⟨_, rfl⟩

/-- C63, x86-64: a message whose flag is written and read with XCHG arrives, in every execution of the lifted code that LLVM allows, also
in those that are not interleavings (with MOV for the flag it does not: `C63_x86_message_counterexample`).  For all values, addresses and
other contents of memory and registers: if the reader has seen a flag that is not 0, it has read `d`. -/
theorem C63_x86_weak_message (cfg : Cfg) (slide d f a b : BitVec 64) (hab : a ≠ b) (regs : Bool → St) (mem : VMem)
    (hw : (regs false).gp 0 = some d ∧ (regs false).gp 6 = some a ∧ (regs false).gp 1 = some f ∧ (regs false).gp 2 = some b)
    (hwpc : (regs false).pc.val slide = some 0x1000#64) (hr : (regs true).gp 6 = some a ∧ (regs true).gp 2 = some b)
    (hrpc : (regs true).pc.val slide = some 0x2000#64) (hflag : mem.read b 8 = some 0#64)
    (X : Exec Bool) (hX : X.Consistent mem) (out : Bool → Code St)
    (hrun : ∀ t, Emits (xProg slide cfg msgCode) t (.done (regs t)) (X.ev t) (out t))
    (m : St) (hm : out true = .done m) (hpc : m.pc.val slide = some 0x2008#64) (hseen : m.gp 0 ≠ some 0#64) : m.gp 3 = some d := by
  obtain ⟨v0, v1, hwl⟩ := writer_emits hwpc hw.1 hw.2.1 hw.2.2.1 hw.2.2.2 (hrun false)
  obtain ⟨new, hrl⟩ := reader_emits hrpc hr.1 hr.2 (hm ▸ hrun true) hpc
  exact Exec.C63_weak_message (o1 := .seqCst) (o2 := .seqCst) hX hab trivial (by decide) trivial (by decide) hwl hrl (hflag ▸ hseen)

/-- The hypotheses of `C63_x86_weak_message` are met, by an execution in which the flag is seen. -/
def exRegs (t : Bool) : St where
  gp r := if r = 0 then (if t then some 0#64 else some 42#64) else if r = 1 then some 1#64 else if r = 2 then some 128#64
    else if r = 6 then some 64#64 else none
  fl _ := none
  pf := none
  vec _ := none
  fs := none
  gs := none
  mem _ := none
  pc := .const (if t then 0x2000#64 else 0x1000#64)

/-- Where a thread is, and what is in RAX and RBX. -/
def doneWith : Code St → Option (Val 64 × Val 64 × Val 64)
  | .done m => some (m.pc.val 0, m.gp 0, m.gp 3)
  | _ => none

example : ∃ (X : Exec Bool) (out : Bool → Code St) (m : St), X.Consistent (Mem.toV fun _ => 0#8) ∧
    (∀ t, Emits (xProg 0 {} msgCode) t (.done (exRegs t)) (X.ev t) (out t)) ∧ out true = .done m ∧ m.pc.val 0 = some 0x2008#64 ∧
    m.gp 0 = some 1#64 := by
  have h : (System.trace (fun _ => xProg 0 {} msgCode) [false, false, false, false, true, true, true, true]
      { threads := fun t => .done (exRegs t), mem := Mem.toV fun _ => 0#8 }).map
      (fun p => (uniformShape (p.1.map Ev.shape), doneWith (p.2.threads true))) =
      some (true, some (some 0x2008#64, some 1#64, some 42#64)) := by decide +kernel
  obtain ⟨⟨tr, y'⟩, hp, h⟩ := Option.map_eq_some_iff.1 h
  simp only [Prod.mk.injEq] at h
  obtain ⟨hu, hd⟩ := h
  obtain ⟨X, hX, -, -, hem⟩ := C63_interleaving _ _ _ _ _ hp (uniform_of_shape hu)
  unfold doneWith at hd
  split at hd
  · rename_i m hm
    simp only [Option.some.injEq, Prod.mk.injEq] at hd
    exact ⟨X, y'.threads, m, hX, hem, hm, hd.1, hd.2.1⟩
  · cases hd

end Verif.Conc.X86
