import Verif.Conc.WeakRun
import Verif.Conc.RV64

/-! C63, messages in executions that are not interleavings: a flag that is written with release and read with acquire ordering, and RV64
code that does so with AMO instructions. -/

namespace Verif.Conc

open Verif.IR

variable {σ ι : Type}

/-- An access of 8 bytes by one of two threads. -/
abbrev acc8 (t : Bool) (o : Ord) (addr : Addr) (old : Val 64) (new : Option (Val 64)) (reads : Bool) : Ev Bool :=
  { thread := t, isFence := false, ord := o, addr, n := 8, old, new, reads }

/-- C63, a message arrives in every execution that LLVM allows: one thread writes data and then, with release ordering, a flag; the other
reads the flag with acquire ordering, perhaps with an atomic read-modify-write, and then the data.  If it has not found the first value
of the flag, it has found the data. -/
theorem Exec.C63_weak_message {X : Exec Bool} {mem : VMem} (hX : X.Consistent mem) {a b d : BitVec 64} (hne : a ≠ b)
    {o0 o1 o2 o3 : Ord} {v0 v1 f v6 v5 : Val 64} {r1 : Bool} {n6 : Option (Val 64)} (ho1 : o1.rel) (ho1' : o1 ≠ .notAtomic)
    (ho2 : o2.acq) (ho2' : o2 ≠ .notAtomic)
    (hwl : X.ev false <+: [acc8 false o0 a v0 (some (some d)) false, acc8 false o1 b v1 (some f) r1])
    (hrl : X.ev true = [acc8 true o2 b v6 n6 true, acc8 true o3 a v5 none true]) (hseen : v6 ≠ mem.read b 8) : v5 = some d := by
  have hev : ∀ w e, X.at? w = some e → w = (false, 0) ∧ e = acc8 false o0 a v0 (some (some d)) false ∨
      w = (false, 1) ∧ e = acc8 false o1 b v1 (some f) r1 ∨ w = (true, 0) ∧ e = acc8 true o2 b v6 n6 true ∨
      w = (true, 1) ∧ e = acc8 true o3 a v5 none true := by
    rintro ⟨t, k⟩ e h
    simp only [Exec.at?] at h
    cases t with
    | true =>
      rw [hrl] at h
      match k with
      | 0 => cases h; exact .inr (.inr (.inl ⟨rfl, rfl⟩))
      | 1 => cases h; exact .inr (.inr (.inr ⟨rfl, rfl⟩))
      | k + 2 => simp at h
    | false =>
      obtain ⟨tl, htl⟩ := hwl
      have h : (X.ev false ++ tl)[k]? = some e := by
        rw [List.getElem?_append_left (List.getElem?_eq_some_iff.1 h).1]
        exact h
      rw [htl] at h
      match k with
      | 0 => cases h; exact .inl ⟨rfl, rfl⟩
      | 1 => cases h; exact .inr (.inl ⟨rfl, rfl⟩)
      | k + 2 => simp at h
  have hR0 : X.at? (true, 0) = some (acc8 true o2 b v6 n6 true) := by simp only [Exec.at?, hrl]; rfl
  have hR1 : X.at? (true, 1) = some (acc8 true o3 a v5 none true) := by simp only [Exec.at?, hrl]; rfl
  have hflags : ∀ w, X.isWrite w → X.same w (true, 0) → w = (false, 1) ∨ w = (true, 0) := by
    rintro w ⟨e, he, -, hn⟩ ⟨e', g, he', hg, -, -, hadr, -⟩
    rw [he] at he'
    rw [hR0] at hg
    cases he'
    cases hg
    rcases hev w e he with ⟨rfl, rfl⟩ | ⟨rfl, rfl⟩ | ⟨rfl, rfl⟩ | ⟨rfl, rfl⟩
    · exact absurd hadr hne
    · exact .inl rfl
    · exact .inr rfl
    · cases hn
  have hdata : ∀ w, X.isWrite w → X.same w (true, 1) → w = (false, 0) := by
    rintro w ⟨e, he, -, hn⟩ ⟨e', g, he', hg, -, -, hadr, -⟩
    rw [he] at he'
    rw [hR1] at hg
    cases he'
    cases hg
    rcases hev w e he with ⟨rfl, rfl⟩ | ⟨rfl, rfl⟩ | ⟨rfl, rfl⟩ | ⟨rfl, rfl⟩
    · rfl
    · exact absurd hadr.symm hne
    · exact absurd hadr.symm hne
    · cases hn
  have hW1 : ∀ e, X.at? (false, 1) = some e → e = acc8 false o1 b v1 (some f) r1 := by
    intro e he
    rcases hev _ e he with ⟨h, -⟩ | ⟨-, h⟩ | ⟨h, -⟩ | ⟨h, -⟩
    · cases h
    · exact h
    · cases h
    · cases h
  have hrd0 : X.isRead (true, 0) := ⟨_, hR0, rfl, rfl⟩
  have hrd1 : X.isRead (true, 1) := ⟨_, hR1, rfl, rfl⟩
  have hsee := hX.sees _ hrd0
  have hval := hX.value _ _ hR0 hrd0 (.inl ⟨⟨rfl, ho2'⟩, fun w hw => by
    rcases hflags w hw.1 hw.2.1 with rfl | rfl
    · obtain ⟨e, he, -⟩ := hw.1
      exact ⟨e, he, by rw [hW1 e he]; exact ⟨rfl, ho1'⟩⟩
    · exact ⟨_, hR0, rfl, ho2'⟩⟩)
  cases hsrc : X.src (true, 0) with
  | none =>
    rw [hsrc] at hval
    simp only [Exec.value, Option.some.injEq] at hval
    exact absurd hval.symm hseen
  | some w =>
    rw [hsrc] at hsee
    rcases hflags w hsee.1 hsee.2.1 with rfl | rfl
    · obtain ⟨e, he, -⟩ := hsee.1
      obtain rfl := hW1 e he
      have hW0 : X.at? (false, 0) = some (acc8 false o0 a v0 (some (some d)) false) := by
        simp only [Exec.at?] at he
        have hlen : 1 < (X.ev false).length := (List.getElem?_eq_some_iff.1 he).1
        have h0 : X.at? (false, 0) = some (X.ev false)[0] := List.getElem?_eq_getElem (show 0 < (X.ev false).length by omega)
        rcases hev _ _ h0 with ⟨-, h⟩ | ⟨h, -⟩ | ⟨h, -⟩ | ⟨h, -⟩
        · rw [h0, h]
        · cases h
        · cases h
        · cases h
      have hb : X.hb (false, 0) (true, 1) :=
        Exec.C63_weak_release_acquire (x := (false, 1)) (z := (false, 1)) (y := (true, 0)) (.inr ⟨rfl, by decide, _, he, trivial⟩) .head
          ⟨hrd0, hsrc⟩ (.inr ⟨rfl, by decide, _, hR1, trivial⟩) ⟨_, he, ⟨rfl, ho1'⟩, ho1⟩ ⟨_, hR0, ⟨rfl, ho2'⟩, ho2⟩
      obtain ⟨-, hv⟩ := Exec.C63_weak_read hX ⟨_, hW0, rfl, rfl⟩ ⟨_, _, hW0, hR1, rfl, rfl, rfl, rfl⟩ hdata hrd1 hb hR1
      simp only [Exec.value, hW0, Option.bind_some] at hv
      exact (Option.some.inj hv).symm
    · exact absurd rfl hsee.2.2.1

/-- What a thread does that is at an instruction with one access. -/
theorem emits_acc {prog : σ → Code σ} {t : ι} {m : σ} {e : Acc} {k : Val (8 * e.n) → Code σ} (hp : prog m = .acc e k) {l : List (Ev ι)}
    {c : Code σ} (h : Emits prog t (.done m) l c) :
    l = [] ∧ (c = .done m ∨ c = .acc e k) ∨ ∃ v l', l = e.event t v :: l' ∧ Emits prog t (k v) l' c := by
  cases h with
  | nil => exact .inl ⟨rfl, .inl rfl⟩
  | next h =>
    rw [hp] at h
    cases h with
    | nil => exact .inl ⟨rfl, .inr rfl⟩
    | acc v _ h => exact .inr ⟨v, _, rfl, h⟩

/-- A thread in a loop without accesses. -/
theorem emits_loop {prog : σ → Code σ} {t : ι} (I : σ → Prop) (hI : ∀ m, I m → ∃ m', prog m = .done m' ∧ I m') {l : List (Ev ι)}
    {c c' : Code σ} (h : Emits prog t c l c') (hc : ∃ m, I m ∧ c = .done m) : l = [] ∧ ∃ m, I m ∧ c' = .done m := by
  induction h with
  | nil => exact ⟨rfl, hc⟩
  | next _ ih =>
    obtain ⟨m, hm, hc⟩ := hc
    cases hc
    obtain ⟨m', h1, h2⟩ := hI _ hm
    exact ih ⟨m', h2, h1⟩
  | acc _ _ _ _ =>
    obtain ⟨m, -, hc⟩ := hc
    cases hc
  | fence _ _ =>
    obtain ⟨m, -, hc⟩ := hc
    cases hc

namespace RV64

open Verif.RV64

variable {slide d f a b : BitVec 64}

/-- One hart stores the data with `sd x1, 0(x2)` and the flag with `amoswap.d.rl x0, x3, (x4)`, the other reads the flag with
`amoor.d.aq x6, x0, (x4)` and the data with `ld x5, 0(x2)`; both then loop. -/
def msgCode (pc : BitVec 64) : Option (Frv × Nat) :=
  if pc = 0x1000#64 then some (⟨.sd, 0, 2, 1, 0#32, 0, 0⟩, 4)
  else if pc = 0x1004#64 then some (⟨.amoswapd, 0, 4, 3, 1#32, 0, 0⟩, 4)
  else if pc = 0x1008#64 then some (⟨.jal, 0, regInv, 0, 0#32, 0, 0⟩, 4)
  else if pc = 0x2000#64 then some (⟨.amoord, 6, 4, 0, 2#32, 0, 0⟩, 4)
  else if pc = 0x2004#64 then some (⟨.ld, 5, 2, 0, 0#32, 0, 0⟩, 4)
  else if pc = 0x2008#64 then some (⟨.jal, 0, regInv, 0, 0#32, 0, 0⟩, 4)
  else none

theorem prog_at {m : St} {pc : BitVec 64} {i : Frv} (hpc : m.pc.val slide = some pc) (hi : msgCode pc = some (i, 4)) :
    prog msgCode slide m = code slide i (pc - slide) 4 m := by
  unfold prog
  rw [hpc]
  dsimp only
  rw [hi]

theorem load_some {m : St} {r : Nat} {v : BitVec 64} (hr : r ≠ 0) (h : m.gp r = some v) : loadGp m r 64 = some v := by
  unfold loadGp
  rw [if_neg hr, h]
  simp [trunc, un]

theorem sext_id (v : Val 64) : sext 64 v = v := by
  cases v <;> simp [sext, un]

theorem next_pc (pc : BitVec 64) : (Pc.const (pc - slide + BitVec.ofNat 64 4)).val slide = some (pc + 4#64) := by
  simp only [Pc.val, Pc.get, addrPCBase, Option.some.injEq]
  bv_omega

theorem sd_code (m : St) (start : BitVec 64) (h1 : m.gp 1 = some d) (h2 : m.gp 2 = some a) :
    code slide ⟨.sd, 0, 2, 1, 0#32, 0, 0⟩ start 4 m =
      .acc { n := 8, addr := a, align := 8, ord := .notAtomic, upd := some fun _ => some d, reads := false }
        fun _ => .done { m with pc := .const (start + BitVec.ofNat 64 4) } := by
  dsimp only [code, memCode]
  unfold stCode storeCode addr
  rw [show loadGp { m with pc := .const start } 2 64 = some a from load_some (by decide) h2,
    show loadGp { m with pc := .const start } 1 (8 * 8) = some d from load_some (by decide) h1,
    show IR.add (some a) (some (Frv.imm64 ⟨.sd, 0, 2, 1, 0#32, 0, 0⟩)) = some a by simp [IR.add, bin, Frv.imm64]]

theorem ld_code (m : St) (start : BitVec 64) (h2 : m.gp 2 = some a) :
    code slide ⟨.ld, 5, 2, 0, 0#32, 0, 0⟩ start 4 m =
      .acc { n := 8, addr := a, align := 8, ord := .notAtomic, upd := none }
        fun v => .done { m with gp := upd m.gp 5 (sext 64 (sext 64 v)), pc := .const (start + BitVec.ofNat 64 4) } := by
  dsimp only [code, memCode]
  unfold ldCode loadCode addr
  rw [show loadGp { m with pc := .const start } 2 64 = some a from load_some (by decide) h2,
    show IR.add (some a) (some (Frv.imm64 ⟨.ld, 5, 2, 0, 0#32, 0, 0⟩)) = some a by simp [IR.add, bin, Frv.imm64]]
  rfl

theorem swap_code (m : St) (start : BitVec 64) (h3 : m.gp 3 = some f) (h4 : m.gp 4 = some b) :
    code slide ⟨.amoswapd, 0, 4, 3, 1#32, 0, 0⟩ start 4 m =
      .acc { n := 8, addr := b, align := 8, ord := .release, upd := some fun old => RmwOp.xchg.eval old (some f) }
        fun _ => .done { m with pc := .const (start + BitVec.ofNat 64 4) } := by
  dsimp only [code, memCode]
  unfold amoCode
  rw [show amoOrd (1#32).toNat = some .release from rfl]
  dsimp only
  unfold rmwCode
  rw [show loadGp { m with pc := .const start } 4 64 = some b from load_some (by decide) h4,
    show loadGp { m with pc := .const start } 3 (8 * 8) = some f from load_some (by decide) h3]
  rfl

theorem or_code (m : St) (start : BitVec 64) (h4 : m.gp 4 = some b) :
    code slide ⟨.amoord, 6, 4, 0, 2#32, 0, 0⟩ start 4 m =
      .acc { n := 8, addr := b, align := 8, ord := .acquire, upd := some fun old => RmwOp.or.eval old (some 0#64) }
        fun v => .done { m with gp := upd m.gp 6 (sext 64 v), pc := .const (start + BitVec.ofNat 64 4) } := by
  dsimp only [code, memCode]
  unfold amoCode
  rw [show amoOrd (2#32).toNat = some .acquire from rfl]
  dsimp only
  unfold rmwCode
  rw [show loadGp { m with pc := .const start } 4 64 = some b from load_some (by decide) h4]
  rfl

/-- The loop at the end. -/
theorem jal_loop (gp : Nat → Val 64) (pc : BitVec 64) (hi : msgCode pc = some (⟨.jal, 0, regInv, 0, 0#32, 0, 0⟩, 4)) (m : St)
    (h : m.gp = gp ∧ m.pc.val slide = some pc) :
    ∃ m', prog msgCode slide m = .done m' ∧ m'.gp = gp ∧ m'.pc.val slide = some pc := by
  rw [prog_at h.2 hi]
  refine ⟨_, rfl, h.1, ?_⟩
  show (Pc.const (pc - slide + (Frv.imm64 ⟨.jal, 0, regInv, 0, 0#32, 0, 0⟩))).val slide = some pc
  simp only [Pc.val, Pc.get, addrPCBase, Option.some.injEq, show Frv.imm64 ⟨.jal, 0, regInv, 0, 0#32, 0, 0⟩ = 0#64 from rfl]
  bv_omega

theorem writer_emits {m : St} {l : List (Ev Bool)} {c : Code St} (hpc : m.pc.val slide = some 0x1000#64) (h1 : m.gp 1 = some d)
    (h2 : m.gp 2 = some a) (h3 : m.gp 3 = some f) (h4 : m.gp 4 = some b) (h : Emits (prog msgCode slide) false (.done m) l c) :
    ∃ v0 v1, l <+: [acc8 false .notAtomic a v0 (some (some d)) false, acc8 false .release b v1 (some (some f)) true] := by
  rcases emits_acc ((prog_at hpc rfl).trans (sd_code m _ h1 h2)) h with ⟨rfl, -⟩ | ⟨v0, l1, rfl, ha⟩
  · exact ⟨none, none, List.nil_prefix⟩
  · rcases emits_acc ((prog_at (m := { m with pc := .const (0x1000#64 - slide + BitVec.ofNat 64 4) }) (next_pc 0x1000#64) rfl).trans
        (swap_code _ _ h3 h4)) ha with
      ⟨rfl, -⟩ | ⟨v1, l2, rfl, hb⟩
    · exact ⟨v0, none, List.cons_prefix_cons.2 ⟨rfl, List.nil_prefix⟩⟩
    · obtain ⟨rfl, -⟩ := emits_loop (fun m' => m'.gp = m.gp ∧ m'.pc.val slide = some 0x1008#64) (fun m' hm' => jal_loop _ _ rfl m' hm') hb
        ⟨_, ⟨rfl, by exact next_pc 0x1004#64⟩, rfl⟩
      exact ⟨v0, v1, List.cons_prefix_cons.2 ⟨rfl, List.cons_prefix_cons.2 ⟨rfl, List.nil_prefix⟩⟩⟩

theorem reader_emits {m m' : St} {l : List (Ev Bool)} (hpc : m.pc.val slide = some 0x2000#64) (h2 : m.gp 2 = some a)
    (h4 : m.gp 4 = some b) (h : Emits (prog msgCode slide) true (.done m) l (.done m')) (hpc' : m'.pc.val slide = some 0x2008#64) :
    ∃ new, l = [acc8 true .acquire b (m'.gp 6) new true, acc8 true .notAtomic a (m'.gp 5) none true] := by
  rcases emits_acc ((prog_at hpc rfl).trans (or_code m _ h4)) h with ⟨rfl, hc | hc⟩ | ⟨v6, l1, rfl, ha⟩
  · cases hc
    rw [hpc] at hpc'
    cases hpc'
  · cases hc
  · rcases emits_acc ((prog_at (m := { m with gp := upd m.gp 6 (sext 64 v6), pc := .const (0x2000#64 - slide + BitVec.ofNat 64 4) })
        (next_pc 0x2000#64) rfl).trans (ld_code _ _ h2)) ha with ⟨rfl, hc | hc⟩ | ⟨v5, l2, rfl, hb⟩
    · cases hc
      rw [show (St.pc _).val slide = _ from next_pc 0x2000#64] at hpc'
      cases hpc'
    · cases hc
    · obtain ⟨rfl, m2, ⟨hgp, -⟩, hm2⟩ := emits_loop (fun m' => m'.gp = upd (upd m.gp 6 v6) 5 v5 ∧ m'.pc.val slide = some 0x2008#64)
        (fun m' hm' => jal_loop _ _ rfl m' hm') hb ⟨_, ⟨by simp only [sext_id], by exact next_pc 0x2004#64⟩, rfl⟩
      cases hm2
      rw [hgp]
      exact ⟨_, rfl⟩

/-- C63, RV64: a message that is sent with `amoswap.d.rl` and received with `amoor.d.aq` arrives, in every execution of the lifted code
that LLVM allows, also in those that are not interleavings.  For all values, addresses and other contents of memory and registers: if the
reader has seen a flag that is not 0, it has read `d`. -/
theorem C63_rv64_weak_message (slide d f a b : BitVec 64) (hab : a ≠ b) (regs : Bool → St) (mem : VMem)
    (hw : (regs false).gp 1 = some d ∧ (regs false).gp 2 = some a ∧ (regs false).gp 3 = some f ∧ (regs false).gp 4 = some b)
    (hwpc : (regs false).pc.val slide = some 0x1000#64) (hr : (regs true).gp 2 = some a ∧ (regs true).gp 4 = some b)
    (hrpc : (regs true).pc.val slide = some 0x2000#64) (hflag : mem.read b 8 = some 0#64)
    (X : Exec Bool) (hX : X.Consistent mem) (out : Bool → Code St)
    (hrun : ∀ t, Emits (prog msgCode slide) t (.done (regs t)) (X.ev t) (out t))
    (m : St) (hm : out true = .done m) (hpc : m.pc.val slide = some 0x2008#64) (hseen : m.gp 6 ≠ some 0#64) : m.gp 5 = some d := by
  obtain ⟨v0, v1, hwl⟩ := writer_emits hwpc hw.1 hw.2.1 hw.2.2.1 hw.2.2.2 (hrun false)
  obtain ⟨new, hrl⟩ := reader_emits hrpc hr.1 hr.2 (hm ▸ hrun true) hpc
  exact Exec.C63_weak_message (o1 := .release) (o2 := .acquire) hX hab trivial (by decide) trivial (by decide) hwl hrl (hflag ▸ hseen)

/-- The hypotheses of `C63_rv64_weak_message` are met, by an execution in which the flag is seen. -/
def exRegs (t : Bool) : St where
  gp r := if r = 1 then some 42#64 else if r = 2 then some 64#64 else if r = 3 then some 1#64 else if r = 4 then some 128#64 else none
  fp _ := none
  mem _ := none
  pc := .const (if t then 0x2000#64 else 0x1000#64)

/-- Where a thread is, and what is in `x6` and `x5`. -/
def doneWith : Code St → Option (Val 64 × Val 64 × Val 64)
  | .done m => some (m.pc.val 0, m.gp 6, m.gp 5)
  | _ => none

example : ∃ (X : Exec Bool) (out : Bool → Code St) (m : St), X.Consistent (Mem.toV fun _ => 0#8) ∧
    (∀ t, Emits (prog msgCode 0) t (.done (exRegs t)) (X.ev t) (out t)) ∧ out true = .done m ∧ m.pc.val 0 = some 0x2008#64 ∧
    m.gp 6 = some 1#64 := by
  have h : (System.trace (fun _ => prog msgCode 0) [false, false, false, false, true, true, true, true]
      { threads := fun t => .done (exRegs t), mem := Mem.toV fun _ => 0#8 }).map
      (fun p => (uniformShape (p.1.map Ev.shape), doneWith (p.2.threads true))) =
      some (true, some (some 0x2008#64, some 1#64, some 42#64)) := by decide +kernel
  obtain ⟨⟨tr, y'⟩, hp, h⟩ := Option.map_eq_some_iff.1 h
  simp only [Prod.mk.injEq] at h
  obtain ⟨hu, hd⟩ := h
  obtain ⟨X, hX, -, -, hem⟩ := C63_interleaving _ _ _ _ _ hp (uniform_of_shape hu)
  unfold doneWith at hd
  split at hd
  · rename_i m hm
    simp only [Option.some.injEq, Prod.mk.injEq] at hd
    exact ⟨X, y'.threads, m, hX, hem, hm, hd.1, hd.2.1⟩
  · cases hd

end RV64

end Verif.Conc
