import Verif.X86.Misc

/-! Flag images, control transfers and stack instructions against the specification. -/

set_option linter.unusedSimpArgs false
set_option linter.constructorNameAsVariable false

namespace Verif.X86.Spec

open Verif.IR

variable {slide : BitVec 64} {m : St} {s s' : S}

/-! ### RFLAGS images -/

theorem rflags_bits : ∀ cf pf af zf sf df of : Bool,
    (((((((0x202#64 ||| (BitVec.ofBool cf).setWidth 64 <<< (BitVec.ofNat 64 0).toNat)
      ||| (BitVec.ofBool pf).setWidth 64 <<< (BitVec.ofNat 64 2).toNat)
      ||| (BitVec.ofBool af).setWidth 64 <<< (BitVec.ofNat 64 4).toNat)
      ||| (BitVec.ofBool zf).setWidth 64 <<< (BitVec.ofNat 64 6).toNat)
      ||| (BitVec.ofBool sf).setWidth 64 <<< (BitVec.ofNat 64 7).toNat)
      ||| (BitVec.ofBool df).setWidth 64 <<< (BitVec.ofNat 64 10).toNat)
      ||| (BitVec.ofBool of).setWidth 64 <<< (BitVec.ofNat 64 11).toNat) =
    (BitVec.ofBool of ++ BitVec.ofBool df ++ 1#1 ++ 0#1 ++ BitVec.ofBool sf ++ BitVec.ofBool zf
      ++ 0#1 ++ BitVec.ofBool af ++ 0#1 ++ BitVec.ofBool pf ++ 1#1 ++ BitVec.ofBool cf).setWidth 64 := by
  decide

theorem Rel.flagAsReg (h : Rel slide m s) (z : Sz) (v : BitVec 64) (hv : s.rflags = some v) :
    X86.flagAsReg m z = some (v.setWidth z.bits) := by
  simp only [S.rflags, Option.bind_eq_bind, Option.bind_eq_some_iff, Option.pure_def,
    Option.some.injEq] at hv
  obtain ⟨cf, h1, pf, h2, af, h3, zf, h4, sf, h5, df, h6, of, h7, rfl⟩ := hv
  simp only [X86.flagAsReg, rflagsIndices, List.foldl, h.getFl h1, h.getFl h2, h.getFl h3, h.getFl h4,
    h.getFl h5, h.getFl h6, h.getFl h7, zext_some, shl_some]
  have e : ∀ k, k < 64 → (BitVec.ofNat 64 k).toNat < 64 := by
    intro k hk; rw [ofNat_toNat_lt (by omega)]; exact hk
  rw [if_pos (e 0 (by decide)), if_pos (e 2 (by decide)), if_pos (e 4 (by decide)),
    if_pos (e 6 (by decide)), if_pos (e 7 (by decide)), if_pos (e 10 (by decide)), if_pos (e 11 (by decide))]
  simp only [or_some, trunc_some]
  rw [rflags_bits]

theorem bit_of {w : Nat} (v : BitVec w) (k : Nat) (hk : k < w) :
    trunc 1 (IR.lshr (some v) (some (BitVec.ofNat w k))) = some (BitVec.ofBool (v.getLsbD k)) := by
  have : (BitVec.ofNat w k).toNat = k := ofNat_toNat_lt (lt_two_pow (by omega))
  rw [lshr_some, this, if_pos hk, trunc_some, setWidth_one, BitVec.getLsbD_ushiftRight, Nat.add_zero]

theorem pf_set (b : Bool) :
    IR.not (trunc 1 (ctpop (zext 8 (IR.not (some (BitVec.ofBool b)))))) = some (BitVec.ofBool b) := by
  cases b <;> rfl

theorem Rel.flagFromReg (h : Rel slide m s) (v : BitVec 64) :
    Rel slide (X86.flagFromReg m (some v)) (s.setRflags v) := by
  have hb := fun k hk => bit_of v k hk
  simp only [X86.flagFromReg, rflagsIndices, List.foldl,
    if_neg (by decide : ¬ 64 ≤ 0), if_neg (by decide : ¬ 64 ≤ 2), if_neg (by decide : ¬ 64 ≤ 4),
    if_neg (by decide : ¬ 64 ≤ 6), if_neg (by decide : ¬ 64 ≤ 7), if_neg (by decide : ¬ 64 ≤ 10),
    if_neg (by decide : ¬ 64 ≤ 11), hb 0 (by decide), hb 2 (by decide), hb 4 (by decide),
    hb 6 (by decide), hb 7 (by decide), hb 10 (by decide), hb 11 (by decide)]
  refine h.flags rfl rfl ?_
  intro f x hx
  cases f <;> simp only [S.setRflags, Option.some.injEq] at hx <;> subst hx <;>
    first
    | exact pf_set _
    | rfl

theorem Rel.flagFromReg8 (h : Rel slide m s) (v : BitVec 8) :
    Rel slide (X86.flagFromReg m (some v)) { s.setRflags v with fl := fun
      | .df => s.fl .df
      | .of => s.fl .of
      | f => (s.setRflags v).fl f } := by
  have hb := fun k hk => bit_of v k hk
  simp only [X86.flagFromReg, rflagsIndices, List.foldl,
    if_neg (by decide : ¬ 8 ≤ 0), if_neg (by decide : ¬ 8 ≤ 2), if_neg (by decide : ¬ 8 ≤ 4),
    if_neg (by decide : ¬ 8 ≤ 6), if_neg (by decide : ¬ 8 ≤ 7), if_pos (by decide : 8 ≤ 10),
    if_pos (by decide : 8 ≤ 11), hb 0 (by decide), hb 2 (by decide), hb 4 (by decide),
    hb 6 (by decide), hb 7 (by decide)]
  refine h.flags rfl rfl ?_
  intro f x hx
  have h1 := h.fl .df x
  have h2 := h.fl .of x
  cases f <;> simp only [S.setRflags, Option.some.injEq] at hx <;>
    first
    | (subst hx; exact pf_set _)
    | (subst hx; rfl)
    | exact h1 hx
    | exact h2 hx

/-! ### Stack -/

/-- The stack pointer is aligned to the operand size. -/
def Aligned (a : BitVec 64) (n : Nat) : Prop := a.toNat % n = 0

theorem aligned_sub {a : BitVec 64} {z : Sz} (h : Aligned a z.bytes) :
    Aligned (a - BitVec.ofNat 64 z.bytes) z.bytes := by
  simp only [Aligned] at *
  rw [BitVec.toNat_sub]
  cases z <;> simp only [Sz.bytes, BitVec.toNat_ofNat] at * <;> omega

theorem Rel.push (h : Rel slide m s) (z : Sz) (v : BitVec z.bits) (ha : Aligned (s.gp rsp) z.bytes) :
    ∃ m', stackPush m z (some v) = some m' ∧ Rel slide m' (s.push z v) := by
  have hsp : s.gp rsp + -(BitVec.ofNat 64 z.bytes) = s.gp rsp - BitVec.ofNat 64 z.bytes := by
    rw [BitVec.sub_eq_add_neg]
  obtain ⟨m1, e1, e2, _⟩ := h.write (s.gp rsp - BitVec.ofNat 64 z.bytes) z.bytes z.bytes v (aligned_sub ha)
  refine ⟨m1.setGp rsp (some (s.gp rsp - BitVec.ofNat 64 z.bytes)), ?_, e2.setGp _ _⟩
  simp only [stackPush, h.gp, add_some, hsp, e1, Option.bind_eq_bind, Option.bind_some, Option.pure_def]

theorem Rel.pop (h : Rel slide m s) (ha : Aligned (s.gp rsp) 8) :
    ∃ m', stackPop m = some (some (s.pop .q).1, m') ∧ Rel slide m' (s.pop .q).2 := by
  have h1 := h.setGp rsp (s.gp rsp + 8#64)
  have hr := h1.read (s.gp rsp) 8 8 ha
  refine ⟨m.setGp rsp (some (s.gp rsp + 8#64)), ?_, h1⟩
  simp only [stackPop, h.gp, add_some, hr, Option.bind_eq_bind, Option.bind_some, Option.pure_def]
  rfl

theorem body_push (h : Rel slide m s) (z : Sz) (r : Op) (hr : Op.plain r = true)
    (ha : Aligned (s.gp rsp) z.bytes) (hs : exec s (.push z r) = some s') :
    ∃ m', (do stackPush m z (← opLoad slide m z r)) = some m' ∧ Rel slide m' s' := by
  simp only [exec, Option.bind_eq_bind, Option.bind_eq_some_iff, Option.pure_def, Option.some.injEq] at hs
  obtain ⟨v, hv, rfl⟩ := hs
  simp only [h.opLoad z r v hr hv, Option.bind_eq_bind, Option.bind_some]
  exact h.push z v ha

theorem body_pop (h : Rel slide m s) (d : Op) (hd : Op.plain d = true)
    (ha : Aligned (s.gp rsp) 8) (hs : exec s (.pop .q d) = some s') :
    ∃ m', (do
      let (v, m) ← stackPop m
      popStore slide m .q d v) = some m' ∧ Rel slide m' s' := by
  simp only [exec] at hs
  obtain ⟨m1, e1, e2⟩ := h.pop ha
  simp only [e1, Option.bind_eq_bind, Option.bind_some]
  exact e2.opStore .q d _ hd hs

theorem body_leave (h : Rel slide m s) (ha : Aligned (s.gp rbp) 8) (hs : exec s .leave = some s') :
    ∃ m', (do
      let (v, m) ← stackPop m rbp
      return m.store rbp .q v) = some m' ∧ Rel slide m' s' := by
  simp only [exec, Option.some.injEq] at hs
  have h1 := h.setGp rsp (s.gp rbp + 8#64)
  have hr := h1.read (s.gp rbp) 8 8 ha
  refine ⟨(m.setGp rsp (some (s.gp rbp + 8#64))).store rbp .q
    (some (s.mem.read (s.gp rbp) 8)), ?_, ?_⟩
  · simp only [stackPop, h.gp, add_some, hr, Option.bind_eq_bind, Option.bind_some, Option.pure_def]
    rfl
  · have h2 := h1.store rbp .q (s.mem.read (s.gp rbp) 8)
    have e : s' = (s.setGp rsp (s.gp rbp + 8#64)).setReg rbp .q (s.mem.read (s.gp rbp) 8) := by
      rw [← hs]
      simp only [S.pop, S.setReg, S.setGp]
      congr 1
      funext x
      by_cases hx : x = rbp
      · simp [hx]
      · by_cases hx2 : x = rsp
        · subst hx2; simp [hx]
        · simp [hx, hx2]
    rw [e]; exact h2

theorem body_pushf (h : Rel slide m s) (z : Sz) (ha : Aligned (s.gp rsp) z.bytes)
    (hs : exec s (.pushf z) = some s') :
    ∃ m', stackPush m z (flagAsReg m z) = some m' ∧ Rel slide m' s' := by
  simp only [exec, Option.bind_eq_bind, Option.bind_eq_some_iff, Option.pure_def, Option.some.injEq] at hs
  obtain ⟨v, hv, rfl⟩ := hs
  rw [h.flagAsReg z v hv]
  exact h.push z _ ha

theorem body_popf (h : Rel slide m s) (ha : Aligned (s.gp rsp) 8) (hs : exec s (.popf .q) = some s') :
    ∃ m', (do
      let (v, m) ← stackPop m
      return flagFromReg m v) = some m' ∧ Rel slide m' s' := by
  simp only [exec, Option.some.injEq] at hs
  obtain ⟨m1, e1, e2⟩ := h.pop ha
  simp only [e1, Option.bind_eq_bind, Option.bind_some, Option.pure_def]
  exact ⟨_, rfl, hs ▸ e2.flagFromReg _⟩

theorem body_lahf (h : Rel slide m s) (hd : ∃ b, s.fl .df = some b) (ho : ∃ b, s.fl .of = some b)
    (hs : exec s .lahf = some s') : Rel slide (m.storeH rax (flagAsReg m .b)) s' := by
  simp only [exec, Option.bind_eq_bind, Option.bind_eq_some_iff, Option.pure_def, Option.some.injEq] at hs
  obtain ⟨v, hv, rfl⟩ := hs
  obtain ⟨df, hdf⟩ := hd
  obtain ⟨of, hof⟩ := ho
  simp only [S.rflags, Option.bind_eq_bind, Option.bind_eq_some_iff, Option.pure_def,
    Option.some.injEq] at hv
  obtain ⟨cf, h1, pf, h2, af, h3, zf, h4, sf, h5, df', h6, of', h7, rfl⟩ := hv
  subst h6 h7
  have hr : s.rflags = some ((BitVec.ofBool of ++ BitVec.ofBool df ++ 1#1 ++ 0#1 ++ BitVec.ofBool sf
      ++ BitVec.ofBool zf ++ 0#1 ++ BitVec.ofBool af ++ 0#1 ++ BitVec.ofBool pf ++ 1#1
      ++ BitVec.ofBool cf).setWidth 64) := by
    simp only [S.rflags, h1, h2, h3, h4, h5, hdf, hof, Option.bind_eq_bind, Option.bind_some, Option.pure_def]
  rw [h.flagAsReg .b _ hr]
  have e : ∀ cf pf af zf sf df of : Bool,
      ((BitVec.ofBool of ++ BitVec.ofBool df ++ 1#1 ++ 0#1 ++ BitVec.ofBool sf ++ BitVec.ofBool zf
      ++ 0#1 ++ BitVec.ofBool af ++ 0#1 ++ BitVec.ofBool pf ++ 1#1 ++ BitVec.ofBool cf).setWidth 64).setWidth 8
      = ((BitVec.ofBool false ++ BitVec.ofBool false ++ 1#1 ++ 0#1 ++ BitVec.ofBool sf ++ BitVec.ofBool zf
      ++ 0#1 ++ BitVec.ofBool af ++ 0#1 ++ BitVec.ofBool pf ++ 1#1 ++ BitVec.ofBool cf).setWidth 64).setWidth 8 := by
    decide
  have := h.storeH 0 (((BitVec.ofBool of ++ BitVec.ofBool df ++ 1#1 ++ 0#1 ++ BitVec.ofBool sf ++ BitVec.ofBool zf
      ++ 0#1 ++ BitVec.ofBool af ++ 0#1 ++ BitVec.ofBool pf ++ 1#1 ++ BitVec.ofBool cf).setWidth 64).setWidth 8)
  rw [e] at this
  have e2 := e cf pf af zf sf df of
  simp only [Sz.bits, Sz.bytes] at *
  rw [e2]
  exact this

theorem body_sahf (h : Rel slide m s) (hs : exec s .sahf = some s') :
    Rel slide (flagFromReg m (m.getH rax)) s' := by
  simp only [exec, Option.some.injEq] at hs
  have e : m.getH rax = some (s.regH 0) := h.getH 0
  rw [e, ← hs]
  exact h.flagFromReg8 (s.regH 0)

theorem Rel.setOne (h : Rel slide m s) (f : Flag) (hf : f ≠ .pf) (b : Bool) :
    Rel slide (m.setF f (some (BitVec.ofBool b)))
      { s with fl := fun g => if g = f then some b else s.fl g } := by
  refine h.flags ?_ rfl ?_
  · cases f <;> rfl
  · intro g x hx
    have := h.fl g x
    cases f <;> first | exact absurd rfl hf | skip
    all_goals
      cases g <;> simp at hx <;> first
        | (subst hx; rfl)
        | (simpa [St.setF, St.getF] using this hx)

/-! ### Control transfers -/

theorem Simulates.of_next {cfg : Cfg} {i : Instr} {len : Nat} (body : BitVec 64 → St → Option St)
    (hl : ∀ start m, lift cfg slide i start len m =
      (body (stopPc start len) { m with pc := .const (stopPc start len) }).map (fun m => { st := m }))
    (hb : ∀ next m, m.pc = .const next → s.ip + BitVec.ofNat 64 len = next + slide →
      Rel slide m { s with ip := s.ip + BitVec.ofNat 64 len } →
      ∃ m', body next m = some m' ∧ Rel slide m' s') :
    Simulates cfg slide i len s s' := by
  intro start m h hip
  have hn : s.ip + BitVec.ofNat 64 len = stopPc start len + slide := by
    simp only [stopPc, hip]
    rw [BitVec.add_assoc, BitVec.add_assoc, BitVec.add_comm slide]
  have h' : Rel slide { m with pc := .const (stopPc start len) }
      { s with ip := s.ip + BitVec.ofNat 64 len } :=
    { gp := h.gp, vec := h.vec, fs := h.fs, gs := h.gs, mem := h.mem
      pc := by simp only [Pc.val_const, hn]
      fl := fun f b hb => by have := h.fl f b hb; cases f <;> exact this }
  obtain ⟨m', h1, h2⟩ := hb _ _ rfl hn h'
  exact ⟨m', by rw [hl, h1]; rfl, h2⟩

theorem Rel.setPc (h : Rel slide m s) (pc : Pc) (v : BitVec 64) (hv : pc.val slide = some v) :
    Rel slide { m with pc := pc } { s with ip := v } :=
  { gp := h.gp, vec := h.vec, fs := h.fs, gs := h.gs, mem := h.mem, pc := hv
    fl := fun f b hb => by have := h.fl f b hb; cases f <;> exact this }

theorem add_slide (next slide off ip : BitVec 64) (h : ip = next + slide) :
    next + off + slide = ip + off := by
  rw [h, BitVec.add_assoc, BitVec.add_comm off, ← BitVec.add_assoc]

/-- A conditional jump on a condition with a known value. -/
theorem Rel.setCond (h : Rel slide m s) (c : Val 1) (b : Bool) (hc : c = some (BitVec.ofBool b))
    (next off : BitVec 64) (hn : s.ip = next + slide) :
    Rel slide { m with pc := .cond c (next + off) next }
      { s with ip := if b = true then s.ip + off else s.ip } := by
  refine h.setPc _ _ ?_
  subst hc
  cases b
  · rw [Pc.val_cond]; simp [hn]
  · rw [Pc.val_cond]; simp [add_slide next slide off s.ip hn]

theorem Rel.clobber (cfg : Cfg) (h : Rel slide m s) :
    Rel slide (X86.clobber cfg m) (if cfg.clobberFlags then s.forget status else s) := by
  unfold X86.clobber
  cases cfg.clobberFlags
  · exact h
  · exact h.flags rfl rfl (fun f b hb => by
      have := h.fl f b
      cases f <;> simp [S.forget, status] at hb
      exact this hb)

variable {cfg : Cfg} {len : Nat}

theorem sim_nop : Simulates cfg slide .nop len s { s with ip := s.ip + BitVec.ofNat 64 len } :=
  .of_body (fun m => some m) (fun _ _ => rfl) (fun m h => ⟨m, rfl, h⟩)

theorem sim_jmpRel (off : BitVec 64) (hs : step (.jmpRel off) len s = some s') :
    Simulates cfg slide (.jmpRel off) len s s' := by
  simp only [step, exec, Option.some.injEq] at hs
  subst hs
  exact .of_next (fun next m => some { m with pc := .const (next + off) }) (fun _ _ => rfl)
    (fun next m _ hn h => ⟨_, rfl, h.setPc _ _ (by rw [Pc.val_const, add_slide _ _ _ _ hn])⟩)

theorem sim_jmp (r : Op) (hr : Op.plain r = true) (hg : ∀ a, r = .mem a → a.seg = .none)
    (hs : step (.jmp r) len s = some s') : Simulates cfg slide (.jmp r) len s s' := by
  simp only [step, exec, Option.bind_eq_bind, Option.bind_eq_some_iff, Option.pure_def,
    Option.some.injEq] at hs
  obtain ⟨v, hv, rfl⟩ := hs
  refine .of_body (fun m => (opLoad slide m .q r true).map (fun v => { m with pc := .value v }))
    (fun _ _ => rfl) (fun m h => ?_)
  rw [h.opLoad_ds .q r v hr hg hv]
  exact ⟨_, rfl, h.setPc _ _ (Pc.val_value _ _)⟩

theorem sim_jcc (c : Cond) (off : BitVec 64) (hs : step (.jcc c off) len s = some s') :
    Simulates cfg slide (.jcc c off) len s s' := by
  simp only [step, exec, Option.bind_eq_bind, Option.bind_eq_some_iff, Option.pure_def,
    Option.some.injEq] at hs
  obtain ⟨b, hb, rfl⟩ := hs
  exact .of_next (fun next m => some { m with pc := .cond (flagCond m c) (next + off) next })
    (fun _ _ => rfl) (fun next m _ hn h => ⟨_, rfl, h.setCond _ b (h.cond c b hb) next off hn⟩)

theorem cxSz_eq : cxSz = asz := by funext a; cases a <;> rfl

theorem sim_jcxz (a32 : Bool) (off : BitVec 64) (hs : step (.jcxz a32 off) len s = some s') :
    Simulates cfg slide (.jcxz a32 off) len s s' := by
  unfold step exec at hs
  rw [cxSz_eq] at hs
  simp only [Option.some.injEq] at hs
  subst hs
  refine .of_next
    (fun next m => some { m with pc := .cond (icmp .eq (m.get rcx (asz a32)) (some 0)) (next + off) next })
    (fun _ _ => rfl) (fun next m _ hn h => ⟨_, rfl, ?_⟩)
  have := h.setCond (icmp .eq (m.get rcx (asz a32)) (some 0))
    (decide (s.reg rcx (asz a32) = 0)) (by rw [h.get]; simp [icmp_some]; rfl) next off hn
  simp only [decide_eq_true_eq] at this
  exact this

theorem sim_loop (k : LoopKind) (a32 : Bool) (off : BitVec 64)
    (hs : step (.loop k a32 off) len s = some s') : Simulates cfg slide (.loop k a32 off) len s s' := by
  unfold step exec at hs
  rw [cxSz_eq] at hs
  simp only [Option.bind_eq_bind, Option.bind_eq_some_iff, Option.pure_def,
    Option.some.injEq] at hs
  obtain ⟨go, hgo, rfl⟩ := hs
  refine .of_next (fun next m => some (liftLoop m k a32 (next + off) next))
    (fun _ _ => rfl) (fun next m _ hn h => ⟨_, rfl, ?_⟩)
  have e : IR.sub (m.get rcx (asz a32)) (some 1) = some (s.reg rcx (asz a32) - 1) := by
    rw [h.get]; rfl
  have h1 := h.store rcx (asz a32) (s.reg rcx (asz a32) - 1)
  unfold liftLoop
  simp only [e]
  have hne : ∀ w (x : BitVec w), icmp .ne (some x) (some 0) = some (BitVec.ofBool (decide (x ≠ 0))) := by
    intro w x; simp [icmp_some]; rfl
  have ha : ∀ a b : Bool, BitVec.ofBool a &&& BitVec.ofBool b = BitVec.ofBool (a && b) := by decide
  have hno : ∀ b, ~~~ (BitVec.ofBool b) = BitVec.ofBool (!b) := by decide
  have hz : ∀ b, s.fl .zf = some b →
      (m.store rcx (asz a32) (some (s.reg rcx (asz a32) - 1))).getF .zf = some (BitVec.ofBool b) :=
    fun b hb => h1.getFl (by cases a32 <;> exact hb)
  have key : ∀ c b, c = some (BitVec.ofBool b) →
      (b = true ↔ s.reg rcx (asz a32) - 1 ≠ 0 ∧ go = true) →
      Rel slide { m.store rcx (asz a32) (some (s.reg rcx (asz a32) - 1)) with pc := .cond c (next + off) next }
        { ({ s with ip := s.ip + BitVec.ofNat 64 len } : S).setReg rcx (asz a32) (s.reg rcx (asz a32) - 1) with
          ip := if s.reg rcx (asz a32) - 1 ≠ 0 ∧ go = true then s.ip + BitVec.ofNat 64 len + off
            else s.ip + BitVec.ofNat 64 len } := by
    intro c b hc hb
    have := h1.setCond c b hc next off (by cases a32 <;> exact hn)
    simp only [← hb]
    cases a32 <;> exact this
  cases k with
  | loop =>
    simp only [loopGo, Option.some.injEq] at hgo
    exact key _ _ (hne _ _) (by simp [← hgo])
  | loopz =>
    exact key _ (decide (s.reg rcx (asz a32) - 1 ≠ 0) && go) (by rw [hne, hz _ hgo, and_some, ha]) (by simp)
  | loopnz =>
    simp only [loopGo, Option.map_eq_some_iff] at hgo
    obtain ⟨b, hb, rfl⟩ := hgo
    exact key _ (decide (s.reg rcx (asz a32) - 1 ≠ 0) && !b)
      (by simp only [hne, hz _ hb, not_some, hno, and_some, ha]) (by simp)

/-- What a CALL leaves behind: the flags are claimed only without `call_ret_clobber_flags`. -/
def callFl (cfg : Cfg) (s : S) : S := if cfg.clobberFlags then s.forget status else s

theorem Rel.call (h : Rel slide m s) (hp : m.pc = .const (s.ip - slide)) (tgt : St → Option (Val 64)) (t : BitVec 64)
    (ht : tgt (X86.clobber cfg m) = some (some t)) (ha : Aligned (s.gp rsp) 8) (next : BitVec 64) :
    ∃ m1, Rel slide m1 (callFl cfg { s.push .q s.ip with ip := t }) ∧
      liftCall cfg slide m tgt next = match cfg.callFunction with
        | none => some m1
        | some f => (f m1).map (fun m2 => { m2 with pc := .check (m2.pc.get slide 0) next }) := by
  have h1 := Rel.clobber cfg h
  have hip : (X86.clobber cfg m).ipRel slide = some s.ip := by
    have : (X86.clobber cfg m).pc = m.pc := by unfold X86.clobber; split <;> rfl
    simp only [St.ipRel, this, hp]
    simp [Pc.get, addrPCBase, BitVec.sub_add_cancel]
  have hg : (if cfg.clobberFlags then s.forget status else s).gp = s.gp := by split <;> rfl
  obtain ⟨m2, e2, h2⟩ := h1.push .q s.ip (by rw [hg]; exact ha)
  refine ⟨{ m2 with pc := .value (some t) }, ?_, ?_⟩
  · have := h2.setPc (.value (some t)) t (Pc.val_value _ _)
    unfold callFl
    split at this
    · rename_i hc; rw [if_pos hc]; exact this
    · rename_i hc; rw [if_neg hc]; exact this
  · simp only [liftCall, ht, hip, Option.bind_eq_bind, Option.bind_some, Option.pure_def]
    rw [e2]
    cases cfg.callFunction with
    | none => rfl
    | some f => simp only [Option.bind_some]; cases f _ <;> rfl

theorem next_sub {next ip : BitVec 64} (h : ip = next + slide) : next = ip - slide := by
  rw [h, BitVec.add_sub_cancel]

/-- CALL without a call function: the lifted function continues (or exits) at the target. -/
theorem sim_call (r : Op) (hr : Op.plain r = true) (hg : ∀ a, r = .mem a → a.seg = .none)
    (hf : cfg.callFunction = none) (ha : Aligned (s.gp rsp) 8) (hs : step (.call r) len s = some s') :
    Simulates cfg slide (.call r) len s (callFl cfg s') := by
  simp only [step, exec, Option.bind_eq_bind, Option.bind_eq_some_iff, Option.pure_def,
    Option.some.injEq] at hs
  obtain ⟨t, ht, rfl⟩ := hs
  refine .of_next (fun next m => liftCall cfg slide m (fun m => opLoad slide m .q r true) next)
    (fun _ _ => rfl) (fun next m hp hn h => ?_)
  obtain ⟨m1, h1, e1⟩ := h.call (cfg := cfg) (by rw [hp, next_sub hn])
    (fun m => opLoad slide m .q r true) t
    ((Rel.clobber cfg h).opLoad_ds .q r t hr hg (by split <;> exact ht)) ha next
  rw [hf] at e1
  exact ⟨m1, e1, h1⟩

theorem sim_callRel (off : BitVec 64) (hf : cfg.callFunction = none) (ha : Aligned (s.gp rsp) 8)
    (hs : step (.callRel off) len s = some s') :
    Simulates cfg slide (.callRel off) len s (callFl cfg s') := by
  simp only [step, exec, Option.some.injEq] at hs
  subst hs
  refine .of_next (fun next m => liftCall cfg slide m (fun m => some (m.ipRel slide off)) next)
    (fun _ _ => rfl) (fun next m hp hn h => ?_)
  have ht : some ((X86.clobber cfg m).ipRel slide off) = some (some (s.ip + BitVec.ofNat 64 len + off)) := by
    have : (X86.clobber cfg m).pc = m.pc := by unfold X86.clobber; split <;> rfl
    simp only [St.ipRel, this, hp]
    simp [Pc.get, addrPCBase, add_slide _ _ _ _ hn]
  obtain ⟨m1, h1, e1⟩ := h.call (cfg := cfg) (by rw [hp, next_sub hn])
    (fun m => some (m.ipRel slide off)) _ ht ha next
  rw [hf] at e1
  exact ⟨m1, e1, h1⟩

/-- CALL with a call function: the function gets the state at the entry of the callee, and the lifted
code goes on from the state it returns, branching on the returned program counter. -/
theorem sim_call_function {f : St → Option St} (r : Op) (hr : Op.plain r = true)
    (hg : ∀ a, r = .mem a → a.seg = .none) (hf : cfg.callFunction = some f) (ha : Aligned (s.gp rsp) 8)
    (hs : step (.call r) len s = some s') (s2 : S)
    (hcallee : ∀ m1, Rel slide m1 (callFl cfg s') → ∃ m2, f m1 = some m2 ∧ Rel slide m2 s2) :
    Simulates cfg slide (.call r) len s s2 := by
  simp only [step, exec, Option.bind_eq_bind, Option.bind_eq_some_iff, Option.pure_def,
    Option.some.injEq] at hs
  obtain ⟨t, ht, rfl⟩ := hs
  refine .of_next (fun next m => liftCall cfg slide m (fun m => opLoad slide m .q r true) next)
    (fun _ _ => rfl) (fun next m hp hn h => ?_)
  obtain ⟨m1, h1, e1⟩ := h.call (cfg := cfg) (by rw [hp, next_sub hn])
    (fun m => opLoad slide m .q r true) t
    ((Rel.clobber cfg h).opLoad_ds .q r t hr hg (by split <;> exact ht)) ha next
  obtain ⟨m2, e2, h2⟩ := hcallee m1 h1
  rw [hf] at e1
  have hpc : m2.pc.get slide 0 = some s2.ip := h2.pc
  refine ⟨{ m2 with pc := .check (m2.pc.get slide 0) next },
    by rw [e1]; simp only [e2, Option.map_some], ?_⟩
  exact h2.setPc (.check (m2.pc.get slide 0) next) s2.ip (by rw [hpc, Pc.val_check])

theorem sim_callRel_function {f : St → Option St} (off : BitVec 64) (hf : cfg.callFunction = some f)
    (ha : Aligned (s.gp rsp) 8) (hs : step (.callRel off) len s = some s') (s2 : S)
    (hcallee : ∀ m1, Rel slide m1 (callFl cfg s') → ∃ m2, f m1 = some m2 ∧ Rel slide m2 s2) :
    Simulates cfg slide (.callRel off) len s s2 := by
  simp only [step, exec, Option.some.injEq] at hs
  subst hs
  refine .of_next (fun next m => liftCall cfg slide m (fun m => some (m.ipRel slide off)) next)
    (fun _ _ => rfl) (fun next m hp hn h => ?_)
  have ht : some ((X86.clobber cfg m).ipRel slide off) = some (some (s.ip + BitVec.ofNat 64 len + off)) := by
    have : (X86.clobber cfg m).pc = m.pc := by unfold X86.clobber; split <;> rfl
    simp only [St.ipRel, this, hp]
    simp [Pc.get, addrPCBase, add_slide _ _ _ _ hn]
  obtain ⟨m1, h1, e1⟩ := h.call (cfg := cfg) (by rw [hp, next_sub hn])
    (fun m => some (m.ipRel slide off)) _ ht ha next
  obtain ⟨m2, e2, h2⟩ := hcallee m1 h1
  rw [hf] at e1
  have hpc : m2.pc.get slide 0 = some s2.ip := h2.pc
  refine ⟨{ m2 with pc := .check (m2.pc.get slide 0) next },
    by rw [e1]; simp only [e2, Option.map_some], ?_⟩
  exact h2.setPc (.check (m2.pc.get slide 0) next) s2.ip (by rw [hpc, Pc.val_check])

theorem sim_ret (pop : Option (BitVec 64)) (ha : Aligned (s.gp rsp) 8)
    (hs : step (.ret pop) len s = some s') (start : BitVec 64) (m : St) (h : Rel slide m s) :
    ∃ m', lift cfg slide (.ret pop) start len m = some { st := m', returned := cfg.callFunction.isSome } ∧
      Rel slide m' (callFl cfg s') := by
  simp only [step, exec, Option.some.injEq] at hs
  subst hs
  have h0 := h.setPc (.const (stopPc start len)) _ (Pc.val_const _ _)
  have h1 := Rel.clobber cfg h0
  obtain ⟨s0, hs0⟩ : ∃ s0, s0 = (if cfg.clobberFlags then
    ({ s with ip := stopPc start len + slide } : S).forget status else { s with ip := stopPc start len + slide }) := ⟨_, rfl⟩
  rw [← hs0] at h1
  have hgp0 : s0.gp = s.gp := by rw [hs0]; split <;> rfl
  obtain ⟨m1, e1, h2⟩ := h1.pop (by rw [hgp0]; exact ha)
  have e : lift cfg slide (.ret pop) start len m =
      liftRet cfg { m with pc := .const (stopPc start len) } pop := rfl
  rw [e]
  simp only [liftRet, e1, Option.bind_eq_bind, Option.bind_some, Option.pure_def]
  have hgp := h2.gp rsp
  have h3 := h2.setPc (.value (some (s0.pop .q).1)) _ (Pc.val_value slide _)
  have fin : ∀ n : BitVec 64, ({ (s0.pop .q).2 with ip := (s0.pop .q).1 } : S).setGp rsp ((s0.pop .q).2.gp rsp + n) =
      callFl cfg { (({ s with ip := s.ip + BitVec.ofNat 64 len } : S).pop .q).2.setGp rsp
        ((({ s with ip := s.ip + BitVec.ofNat 64 len } : S).pop .q).2.gp rsp + n) with
          ip := (({ s with ip := s.ip + BitVec.ofNat 64 len } : S).pop .q).1 } := by
    intro n
    rw [hs0]
    unfold callFl
    split <;> rfl
  cases pop with
  | none =>
    refine ⟨_, rfl, ?_⟩
    have h4 := fin 0
    simp only [Option.getD_none]
    rw [← h4]
    have e0 : ({ (s0.pop .q).2 with ip := (s0.pop .q).1 } : S).setGp rsp ((s0.pop .q).2.gp rsp + 0) =
        { (s0.pop .q).2 with ip := (s0.pop .q).1 } := by
      simp only [S.setGp, S.mk.injEq, and_true]
      funext x
      by_cases hx : x = rsp
      · subst hx; simp
      · simp [hx]
    rw [e0]
    exact h3
  | some n =>
    refine ⟨_, rfl, ?_⟩
    simp only [Option.getD_some]
    rw [← fin n]
    have := h3.setGp rsp ((s0.pop .q).2.gp rsp + n)
    simp only [hgp, add_some]
    exact this

/-! ### Stack instructions and flag instructions -/

theorem sim_push (z : Sz) (r : Op) (hr : Op.plain r = true) (ha : Aligned (s.gp rsp) z.bytes)
    (hs : step (.push z r) len s = some s') : Simulates cfg slide (.push z r) len s s' :=
  .of_body (fun m => do stackPush m z (← opLoad slide m z r)) (fun _ _ => rfl)
    (fun _ h => body_push h z r hr ha hs)

theorem sim_pop (d : Op) (hd : Op.plain d = true) (ha : Aligned (s.gp rsp) 8)
    (hs : step (.pop .q d) len s = some s') : Simulates cfg slide (.pop .q d) len s s' :=
  .of_body (fun m => do
      let (v, m) ← stackPop m
      popStore slide m .q d v) (fun _ _ => rfl) (fun _ h => body_pop h d hd ha hs)

theorem sim_leave (ha : Aligned (s.gp rbp) 8) (hs : step .leave len s = some s') :
    Simulates cfg slide .leave len s s' :=
  .of_body (fun m => do
      let (v, m) ← stackPop m rbp
      return m.store rbp .q v) (fun _ _ => rfl) (fun _ h => body_leave h ha hs)

theorem sim_pushf (z : Sz) (ha : Aligned (s.gp rsp) z.bytes) (hs : step (.pushf z) len s = some s') :
    Simulates cfg slide (.pushf z) len s s' :=
  .of_body (fun m => stackPush m z (flagAsReg m z)) (fun _ _ => rfl) (fun _ h => body_pushf h z ha hs)

theorem sim_popf (ha : Aligned (s.gp rsp) 8) (hs : step (.popf .q) len s = some s') :
    Simulates cfg slide (.popf .q) len s s' :=
  .of_body (fun m => do
      let (v, m) ← stackPop m
      return flagFromReg m v) (fun _ _ => rfl) (fun _ h => body_popf h ha hs)

theorem sim_lahf (hd : ∃ b, s.fl .df = some b) (ho : ∃ b, s.fl .of = some b)
    (hs : step .lahf len s = some s') : Simulates cfg slide .lahf len s s' :=
  .of_body (fun m => some (m.storeH rax (flagAsReg m .b))) (fun _ _ => rfl)
    (fun _ h => ⟨_, rfl, body_lahf h hd ho hs⟩)

theorem sim_sahf (hs : step .sahf len s = some s') : Simulates cfg slide .sahf len s s' :=
  .of_body (fun m => some (flagFromReg m (m.getH rax))) (fun _ _ => rfl)
    (fun _ h => ⟨_, rfl, body_sahf h hs⟩)

theorem sim_clc (hs : step .clc len s = some s') : Simulates cfg slide .clc len s s' := by
  simp only [step, exec, Option.some.injEq] at hs
  subst hs
  exact .of_body (fun m => some (m.setF .cf (some 0#1))) (fun _ _ => rfl)
    (fun _ h => ⟨_, rfl, h.setOne .cf (by decide) false⟩)

theorem sim_stc (hs : step .stc len s = some s') : Simulates cfg slide .stc len s s' := by
  simp only [step, exec, Option.some.injEq] at hs
  subst hs
  exact .of_body (fun m => some (m.setF .cf (some 1#1))) (fun _ _ => rfl)
    (fun _ h => ⟨_, rfl, h.setOne .cf (by decide) true⟩)

theorem sim_cld (hs : step .cld len s = some s') : Simulates cfg slide .cld len s s' := by
  simp only [step, exec, Option.some.injEq] at hs
  subst hs
  exact .of_body (fun m => some (m.setF .df (some 0#1))) (fun _ _ => rfl)
    (fun _ h => ⟨_, rfl, h.setOne .df (by decide) false⟩)

theorem sim_std (hs : step .std len s = some s') : Simulates cfg slide .std len s s' := by
  simp only [step, exec, Option.some.injEq] at hs
  subst hs
  exact .of_body (fun m => some (m.setF .df (some 1#1))) (fun _ _ => rfl)
    (fun _ h => ⟨_, rfl, h.setOne .df (by decide) true⟩)

theorem sim_cmc (hs : step .cmc len s = some s') : Simulates cfg slide .cmc len s s' := by
  simp only [step, exec, Option.some.injEq] at hs
  subst hs
  refine .of_body (fun m => some (m.setF .cf (IR.not (m.getF .cf)))) (fun _ _ => rfl)
    (fun m h => ⟨_, rfl, ?_⟩)
  refine h.flags rfl rfl ?_
  intro f b hb
  have hc := h.fl .cf
  have hf := h.fl f b
  by_cases hx : f = .cf
  · subst hx
    simp only [if_pos] at hb
    obtain ⟨c, h1, rfl⟩ := Option.map_eq_some_iff.mp hb
    have := hc c h1
    simp only [St.getF, St.setF, if_pos] at this ⊢
    rw [this]; cases c <;> rfl
  · simp only [if_neg hx] at hb
    have := hf hb
    cases f <;> first | exact absurd rfl hx | (simpa [St.getF, St.setF] using this)

end Verif.X86.Spec
