import Verif.X86.Flow

/-! String instructions with and without repeat prefixes against the specification: the loop emitted
by the lifter is compared with the architecture's loop by induction on the number of iterations. -/

set_option linter.unusedSimpArgs false
set_option linter.constructorNameAsVariable false

namespace Verif.X86.Spec

open Verif.IR

variable {slide : BitVec 64} {m : St} {s s' : S}

/-- A string pointer after one element. -/
def adv (df : Bool) (z : Sz) (p : BitVec 64) : BitVec 64 :=
  if df then p - BitVec.ofNat 64 z.bytes else p + BitVec.ofNat 64 z.bytes

theorem adv_eq (df : Bool) (z : Sz) (p : BitVec 64) :
    IR.add (some p) (IR.mul (select (some (BitVec.ofBool df)) (some (-1#64)) (some 1#64))
      (some (BitVec.ofNat 64 z.bytes))) = some (adv df z p) := by
  rw [select_bool]
  cases df
  · simp only [Bool.false_eq_true, if_false, mul_some, add_some, adv, BitVec.one_mul]
  · simp only [if_true, mul_some, add_some, adv]
    congr 1
    simp only [BitVec.neg_mul, BitVec.one_mul, ← BitVec.sub_eq_add_neg]

theorem aligned_adv {df : Bool} {z : Sz} {p : BitVec 64} (h : Aligned p z.bytes) :
    Aligned (adv df z p) z.bytes := by
  unfold adv
  split
  · exact aligned_sub h
  · simp only [Aligned] at *
    rw [BitVec.toNat_add]
    cases z <;> simp only [Sz.bytes, BitVec.toNat_ofNat] at * <;> omega

/-- What iterations of a string instruction may change, given the values `a`, `b` of the last one. -/
structure Prog (k : Str) (z : Sz) (s s' : S) (a b : BitVec z.bits) : Prop where
  vec : s'.vec = s.vec
  fs : s'.fs = s.fs
  gs : s'.gs = s.gs
  ip : s'.ip = s.ip
  other : ∀ r, r ≠ rsi → r ≠ rdi → r ≠ rcx → r ≠ rax → s'.gp r = s.gp r
  si : k.hasSi = false → s'.gp rsi = s.gp rsi
  di : k.hasDi = false → s'.gp rdi = s.gp rdi
  ax : s'.gp rax = if k = .lods then (s.setReg rax z a).gp rax else s.gp rax
  fl : s'.fl = if k.isCmp then (s.subFl a b false).fl else s.fl

theorem setReg_twice (s1 s : S) (z : Sz) (a b : BitVec z.bits)
    (h : s1.gp rax = (s.setReg rax z a).gp rax) : (s1.setReg rax z b).gp rax = (s.setReg rax z b).gp rax := by
  cases z <;> simp only [S.setReg, S.setGp, if_pos] at h ⊢
  · rw [h]; congr 1; exact high56 _ _
  · rw [h]; congr 1; exact high48 _ _
where
  high56 (x : BitVec 56) (y : BitVec 8) : (x ++ y).extractLsb' 8 56 = x := by
    apply BitVec.eq_of_getLsbD_eq; intro i hi
    rw [BitVec.getLsbD_extractLsb', BitVec.getLsbD_append, if_neg (by omega), Nat.add_sub_cancel_left]
    simp [hi]
  high48 (x : BitVec 48) (y : BitVec 16) : (x ++ y).extractLsb' 16 48 = x := by
    apply BitVec.eq_of_getLsbD_eq; intro i hi
    rw [BitVec.getLsbD_extractLsb', BitVec.getLsbD_append, if_neg (by omega), Nat.add_sub_cancel_left]
    simp [hi]

theorem Prog.trans {k : Str} {z : Sz} {s s1 s2 : S} {a b a' b' : BitVec z.bits}
    (h : Prog k z s s1 a b) (h' : Prog k z s1 s2 a' b') : Prog k z s s2 a' b' where
  vec := h'.vec.trans h.vec
  fs := h'.fs.trans h.fs
  gs := h'.gs.trans h.gs
  ip := h'.ip.trans h.ip
  other r h1 h2 h3 h4 := (h'.other r h1 h2 h3 h4).trans (h.other r h1 h2 h3 h4)
  si hk := (h'.si hk).trans (h.si hk)
  di hk := (h'.di hk).trans (h.di hk)
  ax := by
    rw [h'.ax]
    by_cases hk : k = .lods
    · rw [if_pos hk, if_pos hk]
      have := h.ax; rw [if_pos hk] at this
      exact setReg_twice _ _ _ a a' this
    · rw [if_neg hk, if_neg hk]; have := h.ax; rw [if_neg hk] at this; exact this
  fl := by
    rw [h'.fl]
    by_cases hk : k.isCmp = true
    · rw [if_pos hk, if_pos hk]
      funext f
      cases f <;> simp only [S.subFl, S.resFl]
      have := congrFun h.fl .df
      rw [if_pos hk] at this
      exact this
    · rw [if_neg hk, if_neg hk, h.fl, if_neg hk]

theorem Prog.setRcx {k : Str} {z : Sz} {s s1 : S} {a b : BitVec z.bits} (h : Prog k z s s1 a b)
    (c : BitVec 64) : Prog k z s (s1.setGp rcx c) a b where
  vec := h.vec
  fs := h.fs
  gs := h.gs
  ip := h.ip
  other r h1 h2 h3 h4 := by
    have := h.other r h1 h2 h3 h4
    simp only [S.setGp, if_neg h3, this]
  si hk := h.si hk
  di hk := h.di hk
  ax := h.ax
  fl := h.fl

theorem zero_add64 (x : BitVec 64) : (0 : BitVec 64) + x = x := BitVec.zero_add x

/-- One iteration. -/
theorem str_one (k : Str) (z : Sz) (m : St) (s s1 : S) (si di : Val 64) (df : Bool)
    (ax : BitVec z.bits) (hdf : s.fl .df = some df) (hmem : m.mem = s.mem.toV)
    (hsi : k.hasSi = true → si = some (s.gp rsi) ∧ Aligned (s.gp rsi) z.bytes)
    (hdi : k.hasDi = true → di = some (s.gp rdi) ∧ Aligned (s.gp rdi) z.bytes)
    (hax : k ≠ .lods → ax = s.reg rax z) (hstep : strStep s k z false .none = some s1) :
    ∃ a b, strBody k z (some ax) m si di = some ({ m with mem := s1.mem.toV }, some a, some b) ∧
      Prog k z s s1 a b ∧ (k.hasSi = true → s1.gp rsi = adv df z (s.gp rsi)) ∧
      (k.hasDi = true → s1.gp rdi = adv df z (s.gp rdi)) ∧ s1.gp rcx = s.gp rcx ∧
      (k.isCmp = true → s1.fl .zf = some (decide (a = b))) := by
  have hz : ∀ a b : BitVec z.bits, decide (a - b - BitVec.ofNat z.bits (Bool.toNat false) = 0#z.bits) = decide (a = b) := by
    intro a b
    simp only [Bool.toNat_false, BitVec.ofNat_eq_ofNat, BitVec.sub_zero, decide_eq_decide]
    constructor
    · intro h; have := congrArg (· + b) h; simpa [BitVec.sub_add_cancel] using this
    · rintro rfl; exact BitVec.sub_self _
  have hm0 : m = { m with mem := s.mem.toV } := by rw [← hmem]
  simp only [strStep, hdf, Option.bind_eq_bind, Option.bind_some, S.segBase, zero_add64, S.ptr,
    Bool.false_eq_true, if_false, S.advance] at hstep
  cases k with
  | lods =>
    obtain ⟨rfl, hal⟩ := hsi rfl
    simp only [Option.some.injEq] at hstep
    subst hstep
    have e : ∀ r, r ≠ rax → (s.setReg rax z (s.mem.read (s.gp rsi) z.bytes)).gp r = s.gp r := by
      intro r hr; cases z <;> simp [S.setReg, S.setGp, hr]
    have em : (s.setReg rax z (s.mem.read (s.gp rsi) z.bytes)).mem = s.mem := by cases z <;> rfl
    refine ⟨s.mem.read (s.gp rsi) z.bytes, s.mem.read (s.gp rsi) z.bytes, ?_, ?_, ?_, ?_, ?_, ?_⟩
    · simp only [strBody, X86.load, if_pos (show (s.gp rsi).toNat % z.bytes = 0 from hal), hmem,
        VMem.read_toV, Option.bind_eq_bind, Option.bind_some]
      simp only [S.setGp, em, ← hmem]
    · refine ⟨by cases z <;> rfl, by cases z <;> rfl, by cases z <;> rfl, by cases z <;> rfl, ?_, by simp [Str.hasSi], ?_, ?_, by cases z <;> rfl⟩
      · intro r h1 h2 h3 h4; simp only [S.setGp, if_neg h1]; exact e r h4
      · intro _; simp only [S.setGp]; rw [if_neg (by decide)]; exact e _ (by decide)
      · simp only [S.setGp]; rw [if_neg (by decide), if_true]
    · intro _; simp only [S.setGp, if_pos, adv, e rsi (by decide)]
    · simp [Str.hasDi]
    · simp only [S.setGp]; rw [if_neg (by decide)]; exact e _ (by decide)
    · simp [Str.isCmp]
  | stos =>
    obtain ⟨rfl, hal⟩ := hdi rfl
    have := hax (by decide)
    subst this
    simp only [Option.some.injEq] at hstep
    subst hstep
    refine ⟨s.reg rax z, s.reg rax z, ?_, ?_, ?_, ?_, ?_, ?_⟩
    · simp only [strBody, X86.store, if_pos (show (s.gp rdi).toNat % z.bytes = 0 from hal), hmem,
        VMem.write_toV, Option.bind_eq_bind, Option.bind_some, S.setGp, S.store]
    · refine ⟨rfl, rfl, rfl, rfl, ?_, ?_, by simp [Str.hasDi], rfl, rfl⟩
      · intro r h1 h2 h3 h4; simp only [S.setGp, if_neg h2]; rfl
      · intro _; rfl
    · simp [Str.hasSi]
    · intro _; rfl
    · rfl
    · simp [Str.isCmp]
  | movs =>
    obtain ⟨rfl, hal⟩ := hdi rfl
    obtain ⟨rfl, hal2⟩ := hsi rfl
    simp only [Option.some.injEq] at hstep
    subst hstep
    refine ⟨s.mem.read (s.gp rsi) z.bytes, s.mem.read (s.gp rsi) z.bytes, ?_, ?_, ?_, ?_, ?_, ?_⟩
    · simp only [strBody, X86.store, X86.load, if_pos (show (s.gp rdi).toNat % z.bytes = 0 from hal),
        if_pos (show (s.gp rsi).toNat % z.bytes = 0 from hal2), hmem, VMem.read_toV,
        VMem.write_toV, Option.bind_eq_bind, Option.bind_some, S.setGp, S.store]
    · refine ⟨rfl, rfl, rfl, rfl, ?_, by simp [Str.hasSi], by simp [Str.hasDi], rfl, rfl⟩
      intro r h1 h2 h3 h4; simp only [S.setGp, if_neg h2, if_neg h1]; rfl
    · intro _; rfl
    · intro _; rfl
    · rfl
    · simp [Str.isCmp]
  | scas =>
    obtain ⟨rfl, hal⟩ := hdi rfl
    have := hax (by decide)
    subst this
    simp only [Option.some.injEq] at hstep
    subst hstep
    refine ⟨s.reg rax z, s.mem.read (s.gp rdi) z.bytes, ?_, ?_, ?_, ?_, ?_, ?_⟩
    · simp only [strBody, X86.load, if_pos (show (s.gp rdi).toNat % z.bytes = 0 from hal), hmem,
        VMem.read_toV, Option.bind_eq_bind, Option.bind_some, S.setGp, S.subFl, S.resFl]
      rw [← hmem]
    · refine ⟨rfl, rfl, rfl, rfl, ?_, ?_, by simp [Str.hasDi], rfl, rfl⟩
      · intro r h1 h2 h3 h4; simp only [S.setGp, if_neg h2]; rfl
      · intro _; rfl
    · simp [Str.hasSi]
    · intro _; rfl
    · rfl
    · intro _; simp only [S.setGp, S.subFl, S.resFl]; rw [hz]
  | cmps =>
    obtain ⟨rfl, hal⟩ := hdi rfl
    obtain ⟨rfl, hal2⟩ := hsi rfl
    simp only [Option.some.injEq] at hstep
    subst hstep
    refine ⟨s.mem.read (s.gp rsi) z.bytes, s.mem.read (s.gp rdi) z.bytes, ?_, ?_, ?_, ?_, ?_, ?_⟩
    · simp only [strBody, X86.load, if_pos (show (s.gp rdi).toNat % z.bytes = 0 from hal),
        if_pos (show (s.gp rsi).toNat % z.bytes = 0 from hal2), hmem,
        VMem.read_toV, Option.bind_eq_bind, Option.bind_some, S.setGp, S.subFl, S.resFl]
      rw [← hmem]
    · refine ⟨rfl, rfl, rfl, rfl, ?_, by simp [Str.hasSi], by simp [Str.hasDi], rfl, rfl⟩
      intro r h1 h2 h3 h4; simp only [S.setGp, if_neg h2, if_neg h1]; rfl
    · intro _; rfl
    · intro _; rfl
    · rfl
    · intro _; simp only [S.setGp, S.subFl, S.resFl]; rw [hz]

theorem Rel.reencode (h : Rel slide m s) : Rel slide (m.setF .pf (IR.not (m.getF .pf))) s := by
  refine h.flags rfl rfl ?_
  intro f b hb
  have := h.fl f b hb
  by_cases hf : f = .pf
  · subst hf
    rw [this]
    exact pf_set b
  · cases f <;> first | exact absurd rfl hf | exact this

theorem Rel.repFlags (h : Rel slide m s) (z : Sz) (a b : BitVec z.bits) :
    Rel slide (X86.repFlags m (some a) (some b)) (s.subFl a b false) := by
  have h1 := h.flagSub (by cases z <;> decide : 4 < z.bits) a b false false
  unfold X86.repFlags
  simp only [sub_some]
  have h2 := h1.reencode
  refine cast ?_ h2
  congr 1
  simp [S.subFl]

/-- The state after the loop, put together by `RepEnd`. -/
theorem Prog.rel {k : Str} {z : Sz} {s s1 : S} {a b : BitVec z.bits} (h : Rel slide m s)
    (hp : Prog k z s s1 a b) (F : St → St)
    (hF : ∀ m s, Rel slide m s → Rel slide (F m) (s.subFl a b false)) (si di : Val 64) (hsi : k.hasSi = true → si = some (s1.gp rsi))
    (hdi : k.hasDi = true → di = some (s1.gp rdi)) :
    Rel slide
      (let m := { m with mem := s1.mem.toV }
       let m := if k.isCmp then F m else m
       let m := if k.hasDi then m.setGp rdi di else m
       let m := if k.hasSi then m.setGp rsi si else m
       let m := m.setGp rcx (some (s1.gp rcx))
       if k = .lods then m.store rax z (some a) else m) s1 := by
  have h0 : Rel slide { m with mem := s1.mem.toV } { s with mem := s1.mem } :=
    { gp := h.gp, vec := h.vec, fs := h.fs, gs := h.gs, mem := rfl, pc := h.pc
      fl := fun f b hb => by have := h.fl f b hb; cases f <;> exact this }
  have tr : ∀ (m' : St) (t : S), Rel slide m' t → t.mem = s1.mem → t.vec = s1.vec → t.fs = s1.fs → t.gs = s1.gs →
      t.ip = s1.ip → t.fl = s1.fl → (∀ r, t.gp r = s1.gp r) → Rel slide m' s1 := by
    intro m' t ht h1 h7 h2 h3 h4 h5 h6
    exact { gp := fun r => h6 r ▸ ht.gp r, vec := h7 ▸ ht.vec, fs := h2 ▸ ht.fs, gs := h3 ▸ ht.gs, mem := h1 ▸ ht.mem
            pc := h4 ▸ ht.pc, fl := h5 ▸ ht.fl }
  have hfl := hp.fl
  have hax := hp.ax
  cases k with
  | lods =>
    have := ((h0.setGp rsi (s1.gp rsi)).setGp rcx (s1.gp rcx)).store rax z a
    have := tr _ _ this (by cases z <;> rfl) (by rw [hp.vec]; cases z <;> rfl) (by rw [hp.fs]; cases z <;> rfl)
      (by rw [hp.gs]; cases z <;> rfl) (by rw [hp.ip]; cases z <;> rfl) (by rw [hfl]; cases z <;> rfl) ?_
    · rw [← hsi rfl] at this
      exact this
    · intro r
      by_cases h4 : r = rax
      · subst h4
        rw [hax, if_pos rfl]
        cases z <;> rfl
      · have e : ∀ t : S, (t.setReg rax z a).gp r = t.gp r := by
          intro t; cases z <;> simp [S.setReg, S.setGp, h4]
        rw [e]
        by_cases h3 : r = rcx
        · subst h3; rfl
        by_cases h1 : r = rsi
        · subst h1; rfl
        by_cases h2 : r = rdi
        · subst h2; exact (hp.di rfl).symm
        · simp only [S.setGp, if_neg h3, if_neg h1]; exact (hp.other r h1 h2 h3 h4).symm
  | stos =>
    have := (h0.setGp rdi (s1.gp rdi)).setGp rcx (s1.gp rcx)
    have := tr _ _ this rfl hp.vec.symm hp.fs.symm hp.gs.symm hp.ip.symm hfl.symm ?_
    · rw [← hdi rfl] at this; exact this
    · intro r
      by_cases h4 : r = rax
      · subst h4; exact hax.symm
      by_cases h3 : r = rcx
      · subst h3; rfl
      by_cases h1 : r = rsi
      · subst h1; exact (hp.si rfl).symm
      by_cases h2 : r = rdi
      · subst h2; rfl
      · simp only [S.setGp, if_neg h3, if_neg h2]; exact (hp.other r h1 h2 h3 h4).symm
  | movs =>
    have := ((h0.setGp rdi (s1.gp rdi)).setGp rsi (s1.gp rsi)).setGp rcx (s1.gp rcx)
    have := tr _ _ this rfl hp.vec.symm hp.fs.symm hp.gs.symm hp.ip.symm hfl.symm ?_
    · rw [← hdi rfl, ← hsi rfl] at this; exact this
    · intro r
      by_cases h4 : r = rax
      · subst h4; exact hax.symm
      by_cases h3 : r = rcx
      · subst h3; rfl
      by_cases h1 : r = rsi
      · subst h1; rfl
      by_cases h2 : r = rdi
      · subst h2; rfl
      · simp only [S.setGp, if_neg h3, if_neg h2, if_neg h1]; exact (hp.other r h1 h2 h3 h4).symm
  | scas =>
    have := ((hF _ _ h0).setGp rdi (s1.gp rdi)).setGp rcx (s1.gp rcx)
    have := tr _ _ this rfl hp.vec.symm hp.fs.symm hp.gs.symm hp.ip.symm hfl.symm ?_
    · rw [← hdi rfl] at this; exact this
    · intro r
      by_cases h4 : r = rax
      · subst h4; exact hax.symm
      by_cases h3 : r = rcx
      · subst h3; rfl
      by_cases h1 : r = rsi
      · subst h1; exact (hp.si rfl).symm
      by_cases h2 : r = rdi
      · subst h2; rfl
      · simp only [S.setGp, if_neg h3, if_neg h2]; exact (hp.other r h1 h2 h3 h4).symm
  | cmps =>
    have := (((hF _ _ h0).setGp rdi (s1.gp rdi)).setGp rsi (s1.gp rsi)).setGp rcx (s1.gp rcx)
    have := tr _ _ this rfl hp.vec.symm hp.fs.symm hp.gs.symm hp.ip.symm hfl.symm ?_
    · rw [← hdi rfl, ← hsi rfl] at this; exact this
    · intro r
      by_cases h4 : r = rax
      · subst h4; exact hax.symm
      by_cases h3 : r = rcx
      · subst h3; rfl
      by_cases h1 : r = rsi
      · subst h1; rfl
      by_cases h2 : r = rdi
      · subst h2; rfl
      · simp only [S.setGp, if_neg h3, if_neg h2, if_neg h1]; exact (hp.other r h1 h2 h3 h4).symm

theorem Rel.flagSub' (h : Rel slide m s) (z : Sz) (a b : BitVec z.bits) :
    Rel slide (X86.flagSub m (IR.sub (some a) (some b)) (some a) (some b)) (s.subFl a b false) := by
  have h1 := h.flagSub (by cases z <;> decide : 4 < z.bits) a b false false
  simp only [sub_some]
  refine cast ?_ h1
  congr 1
  simp [S.subFl]

/-- The pointers of a string instruction are aligned to the element size. -/
def StrAligned (s : S) (k : Str) (z : Sz) : Prop :=
  (k.hasSi = true → Aligned (s.gp rsi) z.bytes) ∧ (k.hasDi = true → Aligned (s.gp rdi) z.bytes)

theorem setGp_same {m : St} {r : Fin 16} {v : Val 64} (h : m.gp r = v) : m.setGp r v = m := by
  cases m
  simp only [St.setGp] at *
  congr 1
  funext x
  split
  · next hx => rw [hx]; exact h.symm
  · rfl

theorem body_str_once (h : Rel slide m s) (k : Str) (z : Sz) (rep : Rep) (hrep : repMode k rep = .no)
    (ha : StrAligned s k z) (hs : strStep s k z false .none = some s') :
    ∃ m', liftStr m k z rep = some m' ∧ Rel slide m' s' := by
  obtain ⟨df, hdf⟩ : ∃ df, s.fl .df = some df := by
    simp only [strStep, Option.bind_eq_bind, Option.bind_eq_some_iff] at hs
    obtain ⟨df, h1, _⟩ := hs
    exact ⟨df, h1⟩
  obtain ⟨a, b, e1, hp, hsi, hdi, hcx, _⟩ := str_one k z m s s' (m.gp rsi) (m.gp rdi) df (s.reg rax z) hdf h.mem
    (fun hk => ⟨h.gp _, ha.1 hk⟩) (fun hk => ⟨h.gp _, ha.2 hk⟩) (fun _ => rfl) hs
  have hr := hp.rel h (fun m => X86.flagSub m (IR.sub (some a) (some b)) (some a) (some b))
    (fun m s h => h.flagSub' z a b) (some (adv df z (s.gp rsi))) (some (adv df z (s.gp rdi)))
    (fun hk => by rw [hsi hk]) (fun hk => by rw [hdi hk])
  have hn : ¬ (k = .stos ∧ rep = .rep ∧ z = .b) := by
    rintro ⟨rfl, rfl, rfl⟩; simp [repMode, Str.isCmp] at hrep
  refine ⟨_, ?_, hr⟩
  unfold liftStr
  rw [if_neg hn]
  have e1' := e1
  rw [h.gp, h.gp] at e1'
  simp only [hrep, h.get, h.getFl hdf, h.gp, adv_eq, e1', Option.bind_eq_bind, Option.bind_some, Option.pure_def]
  congr 1
  cases k <;> simp only [Str.isCmp, Str.hasDi, Str.hasSi, if_true, if_false, Bool.false_eq_true]
  all_goals
    try simp only [reduceCtorEq, if_false]
    rw [setGp_same (r := rcx) (v := some (s'.gp rcx)) (by rw [hcx]; exact h.gp rcx)]
  all_goals try rfl

theorem advance_eq (s : S) (r : Fin 16) (z : Sz) (df : Bool) :
    s.advance false r z df = s.setGp r (adv df z (s.gp r)) := by
  simp only [S.advance, S.ptr, adv, Bool.false_eq_true, if_false]

/-- The loop of a repeated string instruction. -/
theorem rep_loop (k : Str) (z : Sz) (rep : Rep) (hmode : repMode k rep ≠ .no) (df : Bool)
    (ax : BitVec z.bits) (s' : S) :
    ∀ (fuel fuel' : Nat) (m : St) (s : S) (si di : Val 64), s.fl .df = some df →
      m.mem = s.mem.toV →
      (k.hasSi = true → si = some (s.gp rsi) ∧ Aligned (s.gp rsi) z.bytes) →
      (k.hasDi = true → di = some (s.gp rdi) ∧ Aligned (s.gp rdi) z.bytes) →
      (k ≠ .lods → ax = s.reg rax z) → s.gp rcx ≠ 0 → (s.gp rcx).toNat ≤ fuel →
      repStep k z rep false .none fuel' s = some s' →
      ∃ a b si' di', repLoop k z (repMode k rep) (some ax)
          (select (some (BitVec.ofBool df)) (some (-1#64)) (some 1#64)) fuel m si di (some (s.gp rcx)) =
          some ({ m with mem := s'.mem.toV }, si', di', some (s'.gp rcx), some a, some b) ∧
        Prog k z s s' a b ∧ (k.hasSi = true → si' = some (s'.gp rsi)) ∧
        (k.hasDi = true → di' = some (s'.gp rdi)) := by
  intro fuel
  induction fuel with
  | zero =>
    intro fuel' m s si di _ _ _ _ _ hc hf
    exact absurd (BitVec.eq_of_toNat_eq (by simpa using hf)) hc
  | succ fuel ih =>
    intro fuel' m s si di hdf hmem hsi hdi hax hc hf hs
    unfold repStep at hs
    simp only [S.ptr, Bool.false_eq_true, if_false, if_neg hc] at hs
    cases fuel' with
    | zero => simp at hs
    | succ fuel' =>
      simp only [Option.bind_eq_bind, Option.bind_eq_some_iff] at hs
      obtain ⟨s1, h1, stop, h2, h3⟩ := hs
      obtain ⟨a, b, e1, hp, hsi1, hdi1, hcx, hzf⟩ := str_one k z m s s1 si di df ax hdf hmem hsi hdi hax h1
      have hdf1 : (s1.setGp rcx (s.gp rcx - 1)).fl .df = some df := by
        have := congrFun hp.fl .df
        simp only [S.setGp, this]
        split <;> simp [S.subFl, S.resFl, hdf]
      have hrc : (s1.setGp rcx (s.gp rcx - 1)).gp rcx = s.gp rcx - 1 := by simp [S.setGp]
      have hsiv : k.hasSi = true → IR.add si (IR.mul (select (some (BitVec.ofBool df)) (some (-1#64)) (some 1#64))
          (some (BitVec.ofNat 64 z.bytes))) = some ((s1.setGp rcx (s.gp rcx - 1)).gp rsi) := by
        intro hk
        rw [(hsi hk).1, adv_eq, ← hsi1 hk]; rfl
      have hdiv : k.hasDi = true → IR.add di (IR.mul (select (some (BitVec.ofBool df)) (some (-1#64)) (some 1#64))
          (some (BitVec.ofNat 64 z.bytes))) = some ((s1.setGp rcx (s.gp rcx - 1)).gp rdi) := by
        intro hk
        rw [(hdi hk).1, adv_eq, ← hdi1 hk]; rfl
      have hcond : repCond (repMode k rep) (icmp .ne (some (s.gp rcx - 1)) (some 0)) (some a) (some b) =
          some (BitVec.ofBool (decide (s.gp rcx - 1 ≠ 0) && !stop)) := by
        have hne : ∀ w (x y : BitVec w), icmp .ne (some x) (some y) = some (BitVec.ofBool (decide (x ≠ y))) := by
          intro w x y; simp [icmp_some]; rfl
        have heq : ∀ w (x y : BitVec w), icmp .eq (some x) (some y) = some (BitVec.ofBool (decide (x = y))) := by
          intro w x y; simp [icmp_some]; rfl
        have hand : ∀ a b : Bool, BitVec.ofBool a &&& BitVec.ofBool b = BitVec.ofBool (a && b) := by decide
        have hzf' : k.isCmp = true → (s1.setGp rcx (s.gp rcx - 1)).fl .zf = some (decide (a = b)) := hzf
        cases k <;> cases rep <;> simp only [repMode, Str.isCmp, if_true, if_false, Bool.false_eq_true,
          ne_eq, not_true_eq_false] at hmode <;>
          first
          | simp only [repStop, hzf' rfl, Option.map_some, Option.some.injEq] at h2
          | simp only [repStop, Option.some.injEq] at h2
        all_goals
          subst h2
          simp only [repCond, repMode, Str.isCmp, if_true, if_false, Bool.false_eq_true, hne, heq, and_some,
            hand, Bool.not_false, Bool.and_true, Bool.not_not, ne_eq, decide_not]
      rw [repLoop]
      simp only [e1, Option.bind_eq_bind, Option.bind_some, sub_some]
      rw [hcond]
      simp only [Option.bind_some]
      by_cases hcont : (decide (s.gp rcx - 1 ≠ 0) && !stop) = true
      · rw [hcont]
        rw [if_pos (by rfl)]
        simp only [Bool.and_eq_true, decide_eq_true_eq, Bool.not_eq_true'] at hcont
        rw [hcont.2] at h3
        simp only [Bool.false_eq_true, if_false] at h3
        obtain ⟨a', b', si', di', e2, hp2, hs2, hd2⟩ := ih fuel' { m with mem := s1.mem.toV }
          (s1.setGp rcx (s.gp rcx - 1)) _ _ hdf1 rfl
          (fun hk => ⟨hsiv hk, by
            have := aligned_adv (df := df) (hsi hk).2
            rw [← hsi1 hk] at this; exact this⟩)
          (fun hk => ⟨hdiv hk, by
            have := aligned_adv (df := df) (hdi hk).2
            rw [← hdi1 hk] at this; exact this⟩)
          (fun hk => by
            rw [hax hk]
            have := hp.ax
            rw [if_neg hk] at this
            simp only [S.reg, S.setGp]
            rw [if_neg (by decide), this])
          (by rw [hrc]; exact hcont.1)
          (by
            rw [hrc]
            have h0 : (s.gp rcx).toNat ≠ 0 := fun h => hc (BitVec.eq_of_toNat_eq (by simpa using h))
            have : (s.gp rcx - 1).toNat = (s.gp rcx).toNat - 1 := by bv_omega
            omega)
          h3
        rw [hrc] at e2
        exact ⟨a', b', si', di', e2, (hp.setRcx _).trans hp2, hs2, hd2⟩
      · rw [Bool.not_eq_true] at hcont
        rw [hcont, if_neg (by decide)]
        have hs' : s' = s1.setGp rcx (s.gp rcx - 1) := by
          cases stop with
          | true => simp only [if_true, Option.some.injEq] at h3; exact h3.symm
          | false =>
            simp only [Bool.not_false, Bool.and_true, decide_eq_false_iff_not, ne_eq, Decidable.not_not] at hcont
            simp only [Bool.false_eq_true, if_false] at h3
            unfold repStep at h3
            simp only [S.ptr, Bool.false_eq_true, if_false, hrc, if_pos hcont, Option.some.injEq] at h3
            exact h3.symm
        subst hs'
        exact ⟨a, b, _, _, by rw [hrc]; rfl, hp.setRcx _, hsiv, hdiv⟩

theorem body_str_rep (h : Rel slide m s) (k : Str) (z : Sz) (rep : Rep) (hmode : repMode k rep ≠ .no)
    (hstosb : ¬ (k = .stos ∧ z = .b)) (hd : ∃ df, s.fl .df = some df)
    (ha : StrAligned s k z) (hs : stepStr s k z rep false .none = some s') :
    ∃ m', liftStr m k z rep = some m' ∧ Rel slide m' s' := by
  obtain ⟨df, hdf⟩ := hd
  have hs1 : repStep k z rep false .none (s.gp rcx).toNat s = some s' := by
    cases rep with
    | none => exact absurd rfl hmode
    | rep => simpa [stepStr, S.ptr] using hs
    | repnz =>
      simp only [stepStr] at hs
      split at hs
      · simp at hs
      · simpa [S.ptr] using hs
  have hn : ¬ (k = .stos ∧ rep = .rep ∧ z = .b) := fun h => hstosb ⟨h.1, h.2.2⟩
  unfold liftStr
  rw [if_neg hn]
  simp only [h.get, h.getFl hdf, h.gp]
  by_cases hc : s.gp rcx = 0
  · have : s' = s := by
      unfold repStep at hs1
      simp only [S.ptr, Bool.false_eq_true, if_false, if_pos hc, Option.some.injEq] at hs1
      exact hs1.symm
    subst this
    refine ⟨if k.isCmp then m.setF .pf (IR.not (m.getF .pf)) else m, ?_, ?_⟩
    · rw [if_pos hc]
    · split
      · exact h.reencode
      · exact h
  · obtain ⟨a, b, si', di', e, hp, hsi, hdi⟩ := rep_loop k z rep hmode df (s.reg rax z) s'
      (s.gp rcx).toNat _ m s (some (s.gp rsi)) (some (s.gp rdi)) hdf h.mem (fun hk => ⟨rfl, ha.1 hk⟩)
      (fun hk => ⟨rfl, ha.2 hk⟩) (fun _ => rfl) hc (Nat.le_refl _) hs1
    have hr := hp.rel h (fun m => X86.repFlags m (some a) (some b)) (fun m s h => h.repFlags z a b)
      si' di' hsi hdi
    refine ⟨_, ?_, hr⟩
    rw [if_neg hc]
    simp only [e, Option.bind_eq_bind, Option.bind_some, Option.pure_def]

end Verif.X86.Spec
