import Verif.Conc.WeakCounter

/-! C63, RV64: a counter that is protected by a lock, in executions that are not interleavings. -/

namespace Verif.Conc

open Verif.IR

variable {σ ι : Type}

/-- An instruction without accesses. -/
theorem emits_done {prog : σ → Code σ} {t : ι} {m m1 : σ} (hp : prog m = .done m1) {l : List (Ev ι)} {c : Code σ}
    (h : Emits prog t (.done m) l c) : l = [] ∧ c = .done m ∨ Emits prog t (.done m1) l c := by
  cases h with
  | nil => exact .inl ⟨rfl, rfl⟩
  | next h => exact .inr (hp ▸ h)

/-- Undefined behaviour. -/
theorem emits_ub {prog : σ → Code σ} {t : ι} {m : σ} (hp : prog m = .ub) {l : List (Ev ι)} {c : Code σ}
    (h : Emits prog t (.done m) l c) : c = .done m ∨ c = .ub := by
  cases h with
  | nil => exact .inl rfl
  | next h =>
    rw [hp] at h
    cases h
    exact .inr rfl

/-- The accesses of a thread that takes the lock, adds to the counter, and gives the lock back. -/
theorem Exec.adds_of_list {X : Exec ι} {a b d : BitVec 64} {t : ι} {fails : List (Ev ι)} {oa og : Ord} {f : BitVec 64} {v old1 old2 : Val 64}
    (hoa : oa ≠ .notAtomic) (hoa' : oa.acq) (hog : og ≠ .notAtomic) (hog' : og.rel) (hf : f ≠ 0#64)
    (hfails : ∀ g ∈ fails, ∃ old, old ≠ some 0#64 ∧ g = swap8 t oa b old (some f))
    (hev : X.ev t = fails ++ [swap8 t oa b (some 0#64) (some f), load8 t a v, store8 t a old1 (IR.add v (some d)),
      swap8 t og b old2 (some 0#64)]) : X.Adds a b t fails.length v d := by
  have hf' : (some f : Val 64) ≠ some 0#64 := fun h => hf (Option.some.inj h)
  have hat : ∀ k, X.at? (t, fails.length + k) = [swap8 t oa b (some 0#64) (some f), load8 t a v, store8 t a old1 (IR.add v (some d)),
      swap8 t og b old2 (some 0#64)][k]? := by
    intro k
    simp only [Exec.at?, hev]
    rw [List.getElem?_append_right (by omega), Nat.add_sub_cancel_left]
  refine ⟨fun m hm => ?_, ⟨oa, some f, hoa, hoa', hf', hat 0⟩, hat 1, ⟨old1, hat 2⟩, ⟨og, old2, hog, hog', hat 3⟩, hat 4⟩
  obtain ⟨old, h1, h2⟩ := hfails fails[m] (List.getElem_mem hm)
  refine ⟨oa, old, some f, hoa, h1, hf', ?_⟩
  simp only [Exec.at?, hev]
  rw [List.getElem?_append_left hm, List.getElem?_eq_getElem hm, h2]

namespace RV64

open Verif.RV64

/-- `amoswap.d.aq x6, x3, (x4)`; `bne x6, x0` back to it; `ld x5, 0(x2)`; `add x5, x5, x1`; `sd x5, 0(x2)`; `amoswap.d.rl x0, x0, (x4)`;
and then a loop. -/
def sectionCode (pc : BitVec 64) : Option (Frv × Nat) :=
  if pc = 0x1000#64 then some (⟨.amoswapd, 6, 4, 3, 2#32, 0, 0⟩, 4)
  else if pc = 0x1004#64 then some (⟨.bne, regInv, 6, 0, -4#32, 0, 0⟩, 4)
  else if pc = 0x1008#64 then some (⟨.ld, 5, 2, 0, 0#32, 0, 0⟩, 4)
  else if pc = 0x100c#64 then some (⟨.add, 5, 5, 1, 0#32, 0, 0⟩, 4)
  else if pc = 0x1010#64 then some (⟨.sd, 0, 2, 5, 0#32, 0, 0⟩, 4)
  else if pc = 0x1014#64 then some (⟨.amoswapd, 0, 4, 0, 1#32, 0, 0⟩, 4)
  else if pc = 0x1018#64 then some (⟨.jal, 0, regInv, 0, 0#32, 0, 0⟩, 4)
  else none

variable {slide d f a b : BitVec 64}

theorem section_at {m : St} {pc : BitVec 64} {i : Frv} (hpc : m.pc.val slide = some pc) (hi : sectionCode pc = some (i, 4)) :
    prog sectionCode slide m = code slide i (pc - slide) 4 m := by
  unfold prog
  rw [hpc]
  dsimp only
  rw [hi]

theorem load_id {m : St} {r : Nat} (hr : r ≠ 0) : loadGp m r 64 = m.gp r := by
  unfold loadGp
  rw [if_neg hr]
  cases m.gp r <;> simp [trunc, un]

theorem take_code (m : St) (start : BitVec 64) (h3 : m.gp 3 = some f) (h4 : m.gp 4 = some b) :
    code slide ⟨.amoswapd, 6, 4, 3, 2#32, 0, 0⟩ start 4 m =
      .acc { n := 8, addr := b, align := 8, ord := .acquire, upd := some fun old => RmwOp.xchg.eval old (some f) }
        fun v => .done { m with gp := upd m.gp 6 (sext 64 v), pc := .const (start + BitVec.ofNat 64 4) } := by
  dsimp only [code, memCode]
  unfold amoCode
  rw [show amoOrd (2#32).toNat = some .acquire from rfl]
  dsimp only
  unfold rmwCode
  rw [show loadGp { m with pc := .const start } 4 64 = some b from load_some (by decide) h4,
    show loadGp { m with pc := .const start } 3 (8 * 8) = some f from load_some (by decide) h3]
  rfl

theorem give_code (m : St) (start : BitVec 64) (h4 : m.gp 4 = some b) :
    code slide ⟨.amoswapd, 0, 4, 0, 1#32, 0, 0⟩ start 4 m =
      .acc { n := 8, addr := b, align := 8, ord := .release, upd := some fun old => RmwOp.xchg.eval old (some 0#64) }
        fun _ => .done { m with pc := .const (start + BitVec.ofNat 64 4) } := by
  dsimp only [code, memCode]
  unfold amoCode
  rw [show amoOrd (1#32).toNat = some .release from rfl]
  dsimp only
  unfold rmwCode
  rw [show loadGp { m with pc := .const start } 4 64 = some b from load_some (by decide) h4]
  rfl

theorem sd5_code (m : St) (start : BitVec 64) (h2 : m.gp 2 = some a) :
    code slide ⟨.sd, 0, 2, 5, 0#32, 0, 0⟩ start 4 m =
      .acc { n := 8, addr := a, align := 8, ord := .notAtomic, upd := some fun _ => m.gp 5, reads := false }
        fun _ => .done { m with pc := .const (start + BitVec.ofNat 64 4) } := by
  dsimp only [code, memCode]
  unfold stCode storeCode addr
  rw [show loadGp { m with pc := .const start } 2 64 = some a from load_some (by decide) h2,
    show loadGp { m with pc := .const start } 5 (8 * 8) = m.gp 5 from load_id (m := { m with pc := .const start }) (by decide),
    show IR.add (some a) (some (Frv.imm64 ⟨.sd, 0, 2, 5, 0#32, 0, 0⟩)) = some a by simp [IR.add, bin, Frv.imm64]]

theorem add_code (m : St) (start : BitVec 64) (h1 : m.gp 1 = some d) :
    code slide ⟨.add, 5, 5, 1, 0#32, 0, 0⟩ start 4 m =
      .done { m with gp := upd m.gp 5 (IR.add (m.gp 5) (some d)), pc := .const (start + BitVec.ofNat 64 4) } := by
  have : code slide ⟨.add, 5, 5, 1, 0#32, 0, 0⟩ start 4 m =
      .done { m with gp := upd m.gp 5 (sext 64 (IR.add (loadGp { m with pc := .const start } 5 64) (loadGp { m with pc := .const start } 1 64))),
                     pc := .const (start + BitVec.ofNat 64 4) } := rfl
  rw [this, sext_id, load_id (by decide), load_id (by decide)]
  dsimp only
  rw [h1]

theorem bne_code (m : St) (start : BitVec 64) :
    code slide ⟨.bne, regInv, 6, 0, -4#32, 0, 0⟩ start 4 m =
      .done { m with pc := .cond (icmp .ne (m.gp 6) (some 0#64)) (start + -4#64) (start + BitVec.ofNat 64 4) } := by
  have : code slide ⟨.bne, regInv, 6, 0, -4#32, 0, 0⟩ start 4 m =
      .done (St.mk m.gp m.fp m.mem (.cond (icmp .ne (loadGp { m with pc := .const start } 6 64) (loadGp { m with pc := .const start } 0 64))
        (start + Frv.imm64 ⟨.bne, regInv, 6, 0, -4#32, 0, 0⟩) (start + BitVec.ofNat 64 4))) := rfl
  rw [this, load_id (by decide), show Frv.imm64 ⟨.bne, regInv, 6, 0, -4#32, 0, 0⟩ = -4#64 from rfl]
  rfl

theorem bne_taken (v : BitVec 64) (hv : v ≠ 0#64) :
    (Pc.cond (icmp .ne (some v) (some 0#64)) (0x1000#64 + 4#64 - slide + -4#64) (0x1000#64 + 4#64 - slide + BitVec.ofNat 64 4)).val slide =
      some 0x1000#64 := by
  rw [show icmp .ne (some v) (some 0#64) = some (BitVec.ofBool true) by simp [icmp, IR.cmp, Pred.eval, bin, show (v != 0#64) = true by simpa using hv], Pc.val_cond]
  simp only [if_true, Option.some.injEq]
  clear hv
  bv_omega

/-- The accesses of a thread that has reached the end. -/
theorem section_emits {t : ι} {m m' : St} {l : List (Ev ι)} (hpc : m.pc.val slide = some 0x1000#64) (h1 : m.gp 1 = some d)
    (h2 : m.gp 2 = some a) (h3 : m.gp 3 = some f) (h4 : m.gp 4 = some b)
    (h : Emits (prog sectionCode slide) t (.done m) l (.done m')) (hpc' : m'.pc.val slide = some 0x1018#64) :
    ∃ fails v old1 old2, (∀ g ∈ fails, ∃ old, old ≠ some 0#64 ∧ g = swap8 t .acquire b old (some f)) ∧
      l = fails ++ [swap8 t .acquire b (some 0#64) (some f), load8 t a v, store8 t a old1 (IR.add v (some d)),
        swap8 t .release b old2 (some 0#64)] := by
  generalize hN : l.length = N
  induction N using Nat.strongRecOn generalizing l m with
  | ind N ih =>
  subst hN
  rcases emits_acc ((section_at hpc rfl).trans (take_code m _ h3 h4)) h with ⟨-, hc | hc⟩ | ⟨v6, l1, rfl, hE1⟩
  · cases hc
    rw [hpc] at hpc'
    cases hpc'
  · cases hc
  have hpc1 := next_pc (slide := slide) 0x1000#64
  rcases emits_done ((section_at (m := { m with gp := upd m.gp 6 (sext 64 v6), pc := .const (0x1000#64 - slide + BitVec.ofNat 64 4) })
    hpc1 rfl).trans (bne_code _ _)) hE1 with ⟨-, hc⟩ | hE2
  · cases hc
    rw [show (St.pc _).val slide = _ from hpc1] at hpc'
    cases hpc'
  simp only [sext_id, show upd m.gp 6 v6 6 = v6 from if_pos rfl] at hE2
  cases v6 with
  | none =>
    have hn : (Pc.cond (icmp .ne (none : Val 64) (some 0#64)) (0x1000#64 + 4#64 - slide + -4#64) (0x1000#64 + 4#64 - slide + BitVec.ofNat 64 4)).val slide = none := rfl
    rcases emits_ub (by unfold prog; rw [hn]) hE2 with hc | hc
    · cases hc
      rw [hn] at hpc'
      cases hpc'
    · cases hc
  | some v6 =>
  by_cases hv : v6 = 0#64
  · subst hv
    have hpc2 : (Pc.cond (icmp .ne (some 0#64) (some 0#64)) (0x1000#64 + 4#64 - slide + -4#64) (0x1000#64 + 4#64 - slide + BitVec.ofNat 64 4)).val slide =
        some 0x1008#64 := by
      rw [show icmp .ne (some 0#64) (some 0#64) = some (BitVec.ofBool false) from rfl, Pc.val_cond]
      simp only [Bool.false_eq_true, if_false, Option.some.injEq]
      bv_omega
    rcases emits_acc ((section_at (m := ⟨upd m.gp 6 (some 0#64), m.fp, m.mem, _⟩) hpc2 rfl).trans (ld_code _ _ h2)) hE2 with ⟨-, hc | hc⟩ | ⟨v5, l2, rfl, hE3⟩
    · cases hc
      rw [hpc2] at hpc'
      cases hpc'
    · cases hc
    have hpc3 := next_pc (slide := slide) 0x1008#64
    rcases emits_done ((section_at (m := ⟨upd (upd m.gp 6 (some 0#64)) 5 (sext 64 (sext 64 v5)), m.fp, m.mem, _⟩) hpc3 rfl).trans (add_code _ _ h1)) hE3 with ⟨-, hc⟩ | hE4
    · cases hc
      rw [show (St.pc _).val slide = _ from hpc3] at hpc'
      cases hpc'
    have hpc4 := next_pc (slide := slide) 0x100c#64
    rcases emits_acc ((section_at (m := ⟨upd (upd (upd m.gp 6 (some 0#64)) 5 (sext 64 (sext 64 v5))) 5 (IR.add (sext 64 (sext 64 v5)) (some d)), m.fp, m.mem, _⟩) hpc4 rfl).trans (sd5_code _ _ h2)) hE4 with ⟨-, hc | hc⟩ | ⟨old1, l3, rfl, hE5⟩
    · cases hc
      rw [show (St.pc _).val slide = _ from hpc4] at hpc'
      cases hpc'
    · cases hc
    have hpc5 := next_pc (slide := slide) 0x1010#64
    rcases emits_acc ((section_at (m := ⟨upd (upd (upd m.gp 6 (some 0#64)) 5 (sext 64 (sext 64 v5))) 5 (IR.add (sext 64 (sext 64 v5)) (some d)), m.fp, m.mem, _⟩) hpc5 rfl).trans (give_code _ _ h4)) hE5 with ⟨-, hc | hc⟩ | ⟨old2, l4, rfl, hE6⟩
    · cases hc
      rw [show (St.pc _).val slide = _ from hpc5] at hpc'
      cases hpc'
    · cases hc
    obtain ⟨rfl, -⟩ := emits_loop (fun m' => m'.pc.val slide = some 0x1018#64) (fun m' hm' => by
      rw [section_at hm' rfl]
      refine ⟨_, rfl, ?_⟩
      show (Pc.const (0x1018#64 - slide + (Frv.imm64 ⟨.jal, 0, regInv, 0, 0#32, 0, 0⟩))).val slide = _
      simp only [Pc.val, Pc.get, addrPCBase, Option.some.injEq, show Frv.imm64 ⟨.jal, 0, regInv, 0, 0#32, 0, 0⟩ = 0#64 from rfl]
      bv_omega) hE6 ⟨_, by exact next_pc 0x1014#64, rfl⟩
    refine ⟨[], v5, old1, old2, fun g hg => (by cases hg), ?_⟩
    have h5 : sext 64 (sext 64 (v5 : Val 64)) = v5 := by rw [sext_id, sext_id]
    exact congrArg (fun x => [swap8 t .acquire b (some 0#64) (some f), load8 t a v5, store8 t a old1 (IR.add x (some d)),
      swap8 t .release b old2 (some 0#64)]) h5
  · have hpc2 := bne_taken (slide := slide) v6 hv
    obtain ⟨fails, v, old1, old2, hf, hl⟩ := @ih l1.length (by simp) ⟨upd m.gp 6 (some v6), m.fp, m.mem, _⟩ l1 hpc2 h1 h2 h3 h4 hE2 rfl
    refine ⟨swap8 t .acquire b (some v6) (some f) :: fails, v, old1, old2, fun g hg => ?_, by rw [hl]; rfl⟩
    rcases List.mem_cons.1 hg with rfl | hg
    · exact ⟨_, fun h => hv (Option.some.inj h), rfl⟩
    · exact hf g hg

/-- C63, RV64: `N` threads add to a counter in a critical section that is protected by a lock, taken with `amoswap.d.aq` and given back
with `amoswap.d.rl` (the example of the RISC-V manual).  In every execution of the lifted code that LLVM allows, the last write of the
counter, which is not atomic, is its first value and the sum of the values that are added. -/
theorem C63_rv64_locked_counter (N : Nat) (slide a b c : BitVec 64) (hab : a ≠ b) (d f : Fin N → BitVec 64) (hf : ∀ t, f t ≠ 0#64)
    (mem : VMem) (hmem : mem.read a 8 = some c) (regs : Fin N → St)
    (hregs : ∀ t, (regs t).gp 1 = some (d t) ∧ (regs t).gp 2 = some a ∧ (regs t).gp 3 = some (f t) ∧ (regs t).gp 4 = some b)
    (hpc : ∀ t, (regs t).pc.val slide = some 0x1000#64) (X : Exec (Fin N)) (hX : X.Consistent mem) (ends : Fin N → St)
    (hem : ∀ t, Emits (prog sectionCode slide) t (.done (regs t)) (X.ev t) (.done (ends t)))
    (hends : ∀ t, (ends t).pc.val slide = some 0x1018#64) :
    (0 < N → ∃ w e, X.last w ∧ X.at? w = some e ∧ e.addr = a) ∧
    ∀ w e, X.last w → X.at? w = some e → e.addr = a → ∃ hn : e.n = 8, e.new = some (some ((c + ∑ t, d t).cast (by rw [hn]))) := by
  have h : ∀ t, ∃ n v, X.Adds a b t n v (d t) := by
    intro t
    obtain ⟨fails, v, old1, old2, hfails, hl⟩ := section_emits (hpc t) (hregs t).1 (hregs t).2.1 (hregs t).2.2.1 (hregs t).2.2.2 (hem t) (hends t)
    exact ⟨fails.length, v, Exec.adds_of_list (oa := .acquire) (og := .release) (by decide) trivial (by decide) trivial (hf t) hfails hl⟩
  choose n v hA using h
  exact Exec.C63_weak_locked_counter hX hA hab hmem

/-- Registers for the example: the counter is at 64, the lock at 128; 5 and 6 are added. -/
def sectionRegs (t : Fin 2) : St where
  gp r := if r = 1 then some (if t = 0 then 5#64 else 6#64) else if r = 2 then some 64#64 else if r = 3 then some 1#64 else
    if r = 4 then some 128#64 else none
  fp _ := none
  mem _ := none
  pc := .const 0x1000#64

/-- The hypotheses of `C63_rv64_locked_counter` are met, by an execution in which the second thread has to wait. -/
example : ∃ (X : Exec (Fin 2)) (ends : Fin 2 → St), X.Consistent (Mem.toV fun _ => 0#8) ∧
    (∀ t, Emits (prog sectionCode 0) t (.done (sectionRegs t)) (X.ev t) (.done (ends t))) ∧
    (∀ t, (ends t).pc.val 0 = some 0x1018#64) ∧ (X.ev 0).length = 4 ∧ (X.ev 1).length = 5 := by
  have h : (System.trace (fun _ => prog sectionCode 0) ([0, 0, 1, 1, 1, 0, 0, 0, 0, 0, 0, 0, 0] ++ [1, 1, 1, 1, 1, 1, 1, 1, 1, 1])
      { threads := fun t => .done (sectionRegs t), mem := Mem.toV fun _ => 0#8 }).map
      (fun p => (uniformShape (p.1.map Ev.shape), decide (∀ t, doneAt (p.2.threads t) = some 0x1018#64),
        (p.1.filter (·.thread = (0 : Fin 2))).length, (p.1.filter (·.thread = (1 : Fin 2))).length)) = some (true, true, 4, 5) := by
    decide +kernel
  obtain ⟨⟨tr, y'⟩, hp, h⟩ := Option.map_eq_some_iff.1 h
  simp only [Prod.mk.injEq, decide_eq_true_eq] at h
  obtain ⟨hu, hdone, h0, h1⟩ := h
  obtain ⟨X, hX, -, hev, hem⟩ := C63_interleaving _ _ _ _ _ hp (uniform_of_shape hu)
  have hends : ∀ t, ∃ m, y'.threads t = .done m ∧ m.pc.val 0 = some 0x1018#64 := by
    intro t
    have := hdone t
    unfold doneAt at this
    split at this
    · rename_i m hm
      exact ⟨m, hm, this⟩
    · cases this
  choose ends hends hpc using hends
  exact ⟨X, ends, hX, fun t => hends t ▸ hem t, hpc, by rw [hev]; exact h0, by rw [hev]; exact h1⟩

end RV64

end Verif.Conc
