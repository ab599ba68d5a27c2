import Verif.A64.Flow

/-! Simulation of the AArch64 loads and stores. -/

set_option linter.unusedSimpArgs false
set_option linter.constructorNameAsVariable false

namespace Verif.A64.Spec

open Verif.IR
open Verif.X86 (trunc_some zext_some sext_some add_some sub_some mul_some and_some or_some xor_some
  not_some neg_some icmp_some extract0 pc_get msb_slt of_add of_add' of_sub cf_add)

variable {cfg : Cfg} {slide : BitVec 64} {s s' : S} {len : Nat}

/-! ### Addresses -/

theorem reg_setReg_same (s : S) {r : Reg} (h : r ≠ .zr) (v : BitVec 64) : (s.setReg r v).reg 64 r = v := by
  cases r
  · simp [S.setReg, S.reg]
  · exact absurd rfl h
  · simp [S.setReg, S.reg]

theorem idx_val {size lsl : Nat} (h : lslOk size lsl = true) (x : BitVec 64) :
    idxOff size lsl (some x) = some (BitVec.ofNat 64 (x.toNat * 2 ^ lsl)) := by
  have hx : BitVec.ofNat 64 (x.toNat * 2 ^ lsl) = x * BitVec.ofNat 64 (2 ^ lsl) := by
    apply BitVec.eq_of_toNat_eq; simp [BitVec.toNat_mul]
  simp only [lslOk, Bool.or_eq_true, beq_iff_eq] at h
  unfold idxOff
  split
  · rename_i h0
    rw [h0.1]; simp
  · rename_i h0
    rw [mul_some, hx]
    rcases h with h | h
    · have : size = 1 := by
        by_cases e : size = 1
        · exact e
        · exact absurd ⟨h, e⟩ h0
      rw [h, this]
    · rw [h]

theorem val_mul_pow (signed : Bool) (x : BitVec 32) (l : Nat) :
    BitVec.ofNat 64 ((BitVec.ofInt 64 (val signed x)).toNat * 2 ^ l) =
      BitVec.ofInt 64 (val signed x * ((2 ^ l : Nat) : Int)) := by
  rw [BitVec.ofInt_mul, BitVec.ofInt_natCast]
  generalize BitVec.ofInt 64 (val signed x) = y
  apply BitVec.eq_of_toNat_eq
  simp [BitVec.toNat_mul]

theorem addr_rel {m : St} (hr : Rel slide m s) {size : Nat} {rn : Reg} {mode : AM} {a : BitVec 64}
    {wb : Option (BitVec 64)} (h : s.addr size rn mode = some (a, wb)) :
    (addr slide m size rn mode).1 = some a ∧ Rel slide (addr slide m size rn mode).2 (s.writeBack rn wb) := by
  cases mode with
  | literal off =>
    simp only [S.addr, Option.some.injEq, Prod.mk.injEq] at h
    obtain ⟨rfl, rfl⟩ := h
    exact ⟨pc_get _ _ _ _ hr.pc, hr⟩
  | simple =>
    simp only [S.addr] at h
    split at h
    · cases h
    · cases h; exact ⟨hr.get _ _, hr⟩
  | offImm off =>
    simp only [S.addr] at h
    split at h
    · cases h
    · cases h; exact ⟨by simp only [addr, hr.get, add_some], hr⟩
  | offReg rm lsl =>
    simp only [S.addr] at h
    split at h
    · cases h
    · split at h
      · rename_i hl
        cases h; exact ⟨by simp only [addr, hr.get, idx_val hl, add_some], hr⟩
      · cases h
  | offExt rm signed lsl =>
    simp only [S.addr] at h
    split at h
    · cases h
    · split at h
      · rename_i hl
        cases h
        exact ⟨by simp only [addr, hr.get, val_ext, idx_val hl, add_some, val_mul_pow], hr⟩
      · cases h
  | pre imm =>
    simp only [S.addr] at h
    split at h
    · cases h
    · rename_i hz
      cases h
      have h1 := hr.set rn (s.reg 64 rn + imm)
      refine ⟨?_, ?_⟩
      · simp only [addr, hr.get, add_some]
        rw [h1.get, reg_setReg_same _ hz]
      · simp only [addr, hr.get, add_some]; exact h1
  | post imm =>
    simp only [S.addr] at h
    split at h
    · cases h
    · cases h
      refine ⟨hr.get _ _, ?_⟩
      simp only [addr, hr.get, add_some]
      exact hr.set rn _

theorem addr_wb {size : Nat} {rn : Reg} {mode : AM} {a : BitVec 64} {v : BitVec 64}
    (h : s.addr size rn mode = some (a, some v)) : rn ≠ .zr := by
  intro e
  subst e
  cases mode <;> simp [S.addr] at h

theorem writeBack_mem (rn : Reg) (wb : Option (BitVec 64)) : (s.writeBack rn wb).mem = s.mem := by
  cases wb
  · rfl
  · exact setReg_mem _ _ _

theorem writeBack_reg {rn rt : Reg} {wb : Option (BitVec 64)} {l : List Reg} (h : wbOk wb rn l = true)
    (hm : rt ∈ l) (w : Nat) : (s.writeBack rn wb).reg w rt = s.reg w rt := by
  cases wb with
  | none => rfl
  | some v =>
    have hne : rt ≠ rn := by
      rintro rfl
      simp only [wbOk, Option.isNone, Bool.false_or, Bool.not_eq_eq_eq_not, Bool.not_true, List.contains_iff_mem, ← Bool.not_eq_true] at h
      exact h hm
    cases rn <;> cases rt <;> simp [S.writeBack, S.setReg, S.reg] <;> simp_all

theorem setReg_comm (s : S) {r r' : Reg} (h : r ≠ r') {w w' : Nat} (v : BitVec w) (v' : BitVec w') :
    (s.setReg r v).setReg r' v' = (s.setReg r' v').setReg r v := by
  cases r <;> cases r' <;> simp only [S.setReg]
  · rename_i p q
    have hpq : p ≠ q := fun e => h (congrArg Reg.x e)
    congr 1
    funext k
    by_cases h1 : k = p
    · subst h1; simp [hpq]
    · simp [h1]
  · exact absurd rfl h

theorem setReg_writeBack {rn rt : Reg} {wb : Option (BitVec 64)} {l : List Reg} (h : wbOk wb rn l = true)
    (hm : rt ∈ l) {w : Nat} (v : BitVec w) (s : S) :
    (s.writeBack rn wb).setReg rt v = (s.setReg rt v).writeBack rn wb := by
  cases wb with
  | none => rfl
  | some u =>
    have hne : rn ≠ rt := by
      rintro rfl
      simp only [wbOk, Option.isNone, Bool.false_or, Bool.not_eq_eq_eq_not, Bool.not_true, List.contains_iff_mem, ← Bool.not_eq_true] at h
      exact h hm
    exact setReg_comm s hne _ _

theorem setVec_writeBack {rn : Reg} {rt : Fin 32} {wb : Option (BitVec 64)} {w : Nat} (v : BitVec w) (s : S) :
    (s.writeBack rn wb).setVec rt v = (s.setVec rt v).writeBack rn wb := by
  cases wb with
  | none => rfl
  | some u => cases rn <;> rfl

theorem setMem_writeBack {rn : Reg} {wb : Option (BitVec 64)} (mem : Mem) (s : S) :
    { s.writeBack rn wb with mem := mem } = ({ s with mem := mem } : S).writeBack rn wb := by
  cases wb with
  | none => rfl
  | some u => cases rn <;> rfl

/-! ### General-purpose registers -/

theorem align_ok {a : BitVec 64} {n : Nat} {mo strict : Bool} (h : alignedOk a n strict = true)
    (hm : mo = true → strict = true) : a.toNat % alignOf n mo = 0 := by
  unfold alignOf
  cases mo
  · exact Nat.mod_one _
  · have : strict = true := hm rfl
    subst this
    simpa [alignedOk] using h

theorem second_aligned {a : BitVec 64} {n : Nat} {strict : Bool} (hn : n ∣ 2 ^ 64) (h : alignedOk a n strict = true) :
    alignedOk (a + BitVec.ofNat 64 n) n strict = true := by
  cases strict
  · rfl
  · simp only [alignedOk, Bool.not_true, Bool.false_or, beq_iff_eq] at h ⊢
    rw [BitVec.toNat_add, BitVec.toNat_ofNat, Nat.add_mod_mod, Nat.mod_mod_of_dvd _ hn, Nat.add_mod_right]
    exact h

theorem load_rel {m : St} (hr : Rel slide m s) {a : BitVec 64} {n al : Nat} (h : a.toNat % al = 0) :
    load m (some a) n al = some (some (s.mem.read a n)) := by
  simp only [load, h, if_true, hr.mem, VMem.read_toV]

theorem extend_load {n : Nat} (w : Nat) (e : Ext) (hn : n = 8 * e.bytes) (h : 8 * e.bytes ≤ w) (hw : 0 < w) (v : BitVec n) :
    A64.extend (some v) w e 0 = some (some (loadVal w e v)) := by
  subst hn
  unfold A64.extend
  rw [if_pos ⟨Nat.le_refl _, h⟩]
  simp only [trunc_some, BitVec.setWidth_eq, val_ext]
  rw [shift_some _ _ _ hw, shiftVal_zero]
  rfl

theorem loadGp_rel {m : St} (hr : Rel slide m s) {a : BitVec 64} {e : Ext} {w : Nat} {mo : Bool} (rt : Reg)
    (hw : 0 < w) (he : 8 * e.bytes ≤ w) (ha : alignedOk a e.bytes mo = true) :
    ∃ m', loadGp m rt w e mo (some a) = some m' ∧
      Rel slide m' (s.setReg rt (loadVal w e (s.mem.read a e.bytes))) := by
  refine ⟨_, ?_, hr.set rt _⟩
  simp only [loadGp, load_rel hr (align_ok ha id), Option.bind_some, extend_load w e rfl he hw,
    Option.map_some]

theorem sim_ldr {w32 : Bool} {e : Ext} {mode : AM} {mo : Bool} {rt rn : Reg}
    (hs : step (.ldr w32 e mode mo rt rn) len s = some s') :
    Simulates cfg slide (.ldr w32 e mode mo rt rn) len s s' := by
  obtain ⟨s1, hp, rfl⟩ := step_plain hs rfl
  simp only [S.plain, S.ldr, bind, Option.bind_eq_some_iff] at hp
  obtain ⟨⟨a, wb⟩, hadr, hp⟩ := hp
  simp only at hp
  split at hp
  · rename_i h
    obtain ⟨he, hwb, hal⟩ := h
    cases hp
    refine plain_sim (fun m => liftLdr slide m (W w32) e mode mo rt rn) (fun _ _ => rfl) ?_
    intro start m hr hpc hst
    obtain ⟨e1, hr1⟩ := addr_rel hr hadr
    obtain ⟨m', e2, hr2⟩ := loadGp_rel hr1 rt (W_pos w32) he hal
    refine ⟨m', by rw [liftLdr, e1, e2], ?_⟩
    rw [writeBack_mem, setReg_writeBack hwb (by simp)] at hr2
    exact hr2
  · cases hp

theorem ext_dvd (e : Ext) : e.bytes ∣ 2 ^ 64 := by cases e <;> decide
theorem ext_le (e : Ext) : e.bytes ≤ 2 ^ 63 := by cases e <;> decide

theorem sim_ldp {w32 : Bool} {e : Ext} {mode : AM} {mo : Bool} {rt rt2 rn : Reg}
    (hs : step (.ldp w32 e mode mo rt rt2 rn) len s = some s') :
    Simulates cfg slide (.ldp w32 e mode mo rt rt2 rn) len s s' := by
  obtain ⟨s1, hp, rfl⟩ := step_plain hs rfl
  simp only [S.plain, S.ldp, bind, Option.bind_eq_some_iff] at hp
  obtain ⟨⟨a, wb⟩, hadr, hp⟩ := hp
  simp only at hp
  split at hp
  · rename_i h
    obtain ⟨he, hwb, hne, hal⟩ := h
    cases hp
    refine plain_sim (fun m => liftLdp slide m (W w32) e mode mo rt rt2 rn) (fun _ _ => rfl) ?_
    intro start m hr hpc hst
    obtain ⟨e1, hr1⟩ := addr_rel hr hadr
    have hal2 := second_aligned (ext_dvd e) hal
    obtain ⟨m2, e2, hr2⟩ := loadGp_rel hr1 rt2 (W_pos w32) he hal2
    obtain ⟨m3, e3, hr3⟩ := loadGp_rel hr2 rt (W_pos w32) he hal
    refine ⟨m3, ?_, ?_⟩
    · simp only [liftLdp, e1, second, add_some]
      rw [e2, Option.bind_some, e3]
    · rw [setReg_mem, writeBack_mem, setReg_writeBack hwb (by simp), setReg_writeBack hwb (by simp),
        setReg_comm _ hne.symm] at hr3
      exact hr3
  · cases hp

theorem store_rel {m : St} (hr : Rel slide m s) {a : BitVec 64} {n al : Nat} (h : a.toNat % al = 0)
    (v : BitVec (8 * n)) :
    ∃ m', store m (some a) n al (some v) = some m' ∧
      Rel slide m' { s with mem := s.mem.write a n v } := by
  refine ⟨{ m with mem := m.mem.write a n (some v) }, by simp only [store, h, if_true], hr.gp, hr.sp,
    hr.vec, hr.tpidr, ?_, hr.pc, hr.fl⟩
  simp only [hr.mem, VMem.write_toV]

theorem storeGp_rel {m : St} (hr : Rel slide m s) {a : BitVec 64} {e : Ext} {w : Nat} {mo strict : Bool} (rt : Reg)
    (he : 8 * e.bytes ≤ w) (ha : alignedOk a e.bytes strict = true) (hm : mo = true → strict = true) :
    ∃ m', storeGp m rt w e mo (some a) = some m' ∧
      Rel slide m' { s with mem := s.mem.write a e.bytes ((s.reg w rt).extractLsb' 0 (8 * e.bytes)) } := by
  obtain ⟨m', e1, h1⟩ := store_rel hr (align_ok ha hm) ((s.reg w rt).extractLsb' 0 (8 * e.bytes))
  refine ⟨m', ?_, h1⟩
  rw [storeGp, if_pos he, hr.get, trunc_some, ← extract0, e1]

theorem status_rel {m : St} (hr : Rel slide m s) (w : Nat) (excl : Option Reg) :
    Rel slide (setStatus m w excl) (s.status excl) := by
  cases excl with
  | none => exact hr
  | some rs =>
    have := hr.set rs 0#w
    have e : s.setReg rs 0#w = s.setReg rs 0#32 := by cases rs <;> simp [S.setReg]
    rw [e] at this
    exact this

theorem status_writeBack {rn : Reg} {wb : Option (BitVec 64)} {excl : Option Reg} {l : List Reg}
    (h : statusOk excl l = true) (hm : rn ∈ l) (s : S) :
    (s.writeBack rn wb).status excl = (s.status excl).writeBack rn wb := by
  cases excl with
  | none => rfl
  | some rs =>
    cases wb with
    | none => rfl
    | some v =>
      have hne : rn ≠ rs := by
        rintro rfl
        simp only [statusOk, Bool.not_eq_eq_eq_not, Bool.not_true, List.contains_iff_mem, ← Bool.not_eq_true] at h
        exact h hm
      exact setReg_comm s hne _ _

theorem sim_str {w32 : Bool} {e : Ext} {mode : AM} {mo : Bool} {excl : Option Reg} {rt rn : Reg}
    (hs : step (.str w32 e mode mo excl rt rn) len s = some s') :
    Simulates cfg slide (.str w32 e mode mo excl rt rn) len s s' := by
  obtain ⟨s1, hp, rfl⟩ := step_plain hs rfl
  simp only [S.plain, S.str, bind, Option.bind_eq_some_iff] at hp
  obtain ⟨⟨a, wb⟩, hadr, hp⟩ := hp
  simp only at hp
  split at hp
  · rename_i h
    obtain ⟨he, hwb, hal, hst⟩ := h
    cases hp
    refine plain_sim (fun m => liftStr slide m (W w32) e mode mo excl rt rn) (fun _ _ => rfl) ?_
    intro start m hr hpc hst'
    obtain ⟨e1, hr1⟩ := addr_rel hr hadr
    obtain ⟨m', e2, hr2⟩ := storeGp_rel hr1 rt he hal (mo := mo) (by intro h; simp [h])
    refine ⟨_, by simp only [liftStr, e1, e2, Option.map_some]; rfl, ?_⟩
    have h3 := status_rel hr2 (W w32) excl
    rw [writeBack_mem, writeBack_reg hwb (by simp), setMem_writeBack,
      status_writeBack hst (by simp)] at h3
    exact h3
  · cases hp

theorem write_comm (m : Mem) (a : BitVec 64) (n : Nat) (v v' : BitVec (8 * n)) (hn : n ≤ 2 ^ 63) :
    (m.write (a + BitVec.ofNat 64 n) n v').write a n v =
      (m.write a n v).write (a + BitVec.ofNat 64 n) n v' := by
  funext x
  simp only [Mem.write]
  by_cases h1 : (x - a).toNat < n
  · have h2 : ¬ (x - (a + BitVec.ofNat 64 n)).toNat < n := by
      have e : x - (a + BitVec.ofNat 64 n) = (x - a) - BitVec.ofNat 64 n := by
        rw [BitVec.sub_eq_add_neg, BitVec.neg_add, BitVec.sub_eq_add_neg (-a), ← BitVec.add_assoc,
          ← BitVec.sub_eq_add_neg, ← BitVec.sub_eq_add_neg]
      rw [e]
      generalize x - a = d at *
      rw [BitVec.toNat_sub, BitVec.toNat_ofNat]
      have := d.isLt
      omega
    simp only [h1, h2, if_true, if_false]
  · simp only [h1, if_false]

theorem sim_stp {w32 : Bool} {e : Ext} {mode : AM} {mo : Bool} {excl : Option Reg} {rt rt2 rn : Reg}
    (hs : step (.stp w32 e mode mo excl rt rt2 rn) len s = some s') :
    Simulates cfg slide (.stp w32 e mode mo excl rt rt2 rn) len s s' := by
  obtain ⟨s1, hp, rfl⟩ := step_plain hs rfl
  simp only [S.plain, S.stp, bind, Option.bind_eq_some_iff] at hp
  obtain ⟨⟨a, wb⟩, hadr, hp⟩ := hp
  simp only at hp
  split at hp
  · rename_i h
    obtain ⟨he, hwb, hal, hst⟩ := h
    cases hp
    refine plain_sim (fun m => liftStp slide m (W w32) e mode mo excl rt rt2 rn) (fun _ _ => rfl) ?_
    intro start m hr hpc hst'
    obtain ⟨e1, hr1⟩ := addr_rel hr hadr
    obtain ⟨m2, e2, hr2⟩ := storeGp_rel hr1 rt2 he (second_aligned (ext_dvd e) hal) (mo := mo)
      (by intro h; simp [h])
    obtain ⟨m3, e3, hr3⟩ := storeGp_rel hr2 rt he hal (mo := mo) (by intro h; simp [h])
    refine ⟨_, by simp only [liftStp, e1, second, add_some, e2, Option.bind_some, e3, Option.map_some]; rfl, ?_⟩
    have h3 := status_rel hr3 (W w32) excl
    have er : ∀ (mem : Mem) (s : S) (w : Nat) (r : Reg), ({ s with mem := mem } : S).reg w r = s.reg w r := by
      intro mem s w r; cases r <;> rfl
    have er1 : ∀ s : S, (s.writeBack rn wb).reg (W w32) rt = s.reg (W w32) rt :=
      fun s => writeBack_reg hwb (by simp) _
    have er2 : ∀ s : S, (s.writeBack rn wb).reg (W w32) rt2 = s.reg (W w32) rt2 :=
      fun s => writeBack_reg hwb (by simp) _
    simp only [er, writeBack_mem, er1, er2, setMem_writeBack,
      status_writeBack hst (show rn ∈ [rt, rt2, rn] by simp)] at h3
    rw [write_comm _ _ _ _ _ (ext_le e)] at h3
    exact h3
  · cases hp

theorem sim_prfm {prfop : Nat} {mode : AM} {rn : Reg} (ok : prfop / 8 % 4 ≠ 3)
    (hs : step (.prfm prfop mode rn) len s = some s') :
    Simulates cfg slide (.prfm prfop mode rn) len s s' := by
  obtain ⟨s1, hp, rfl⟩ := step_plain hs rfl
  refine plain_sim (fun m => some (addr slide m 1 rn mode).2) (fun start m => ?_) ?_
  · simp only [lift, ok, if_false]
  · intro start m hr hpc hst
    refine ⟨_, rfl, ?_⟩
    cases mode <;> simp only [S.plain, Option.some.injEq, reduceCtorEq] at hp <;> subst hp <;> exact hr

/-! ### SIMD&FP registers -/

theorem sim_ldrFp {sz : FSz} {mode : AM} {rt : Fin 32} {rn : Reg}
    (hs : step (.ldrFp sz mode rt rn) len s = some s') :
    Simulates cfg slide (.ldrFp sz mode rt rn) len s s' := by
  obtain ⟨s1, hp, rfl⟩ := step_plain hs rfl
  simp only [S.plain, S.ldrFp, bind, Option.bind_eq_some_iff, pure, Option.some.injEq] at hp
  obtain ⟨⟨a, wb⟩, hadr, rfl⟩ := hp
  refine plain_sim (fun m => liftLdrFp slide m sz.bytes mode rt rn) (fun _ _ => rfl) ?_
  intro start m hr hpc hst
  obtain ⟨e1, hr1⟩ := addr_rel hr hadr
  refine ⟨_, by simp only [liftLdrFp, e1, load_rel hr1 (Nat.mod_one _), Option.map_some]; rfl, ?_⟩
  have := hr1.setV rt ((s.writeBack rn wb).mem.read a sz.bytes)
  rw [setVec_writeBack, writeBack_mem] at this
  rw [writeBack_mem]
  exact this

theorem setVec_comm (s : S) {r r' : Fin 32} (h : r ≠ r') {w w' : Nat} (v : BitVec w) (v' : BitVec w') :
    (s.setVec r v).setVec r' v' = (s.setVec r' v').setVec r v := by
  simp only [S.setVec]
  congr 1
  funext k
  by_cases h1 : k = r
  · subst h1; simp [h]
  · simp [h1]

theorem sim_ldpFp {sz : FSz} {mode : AM} {rt rt2 : Fin 32} {rn : Reg}
    (hs : step (.ldpFp sz mode rt rt2 rn) len s = some s') :
    Simulates cfg slide (.ldpFp sz mode rt rt2 rn) len s s' := by
  obtain ⟨s1, hp, rfl⟩ := step_plain hs rfl
  simp only [S.plain, S.ldpFp, bind, Option.bind_eq_some_iff, pure] at hp
  obtain ⟨⟨a, wb⟩, hadr, hp⟩ := hp
  simp only at hp
  split at hp
  · cases hp
  · rename_i hne
    cases hp
    refine plain_sim (fun m => liftLdpFp slide m sz.bytes mode rt rt2 rn) (fun _ _ => rfl) ?_
    intro start m hr hpc hst
    obtain ⟨e1, hr1⟩ := addr_rel hr hadr
    have h2 := hr1.setV rt2 ((s.writeBack rn wb).mem.read (a + BitVec.ofNat 64 sz.bytes) sz.bytes)
    have h3 := h2.setV rt (((s.writeBack rn wb).setVec rt2
      ((s.writeBack rn wb).mem.read (a + BitVec.ofNat 64 sz.bytes) sz.bytes)).mem.read a sz.bytes)
    rw [setVec_comm _ (Ne.symm hne)] at h3
    have em : ∀ (s : S) (r : Fin 32) (w : Nat) (v : BitVec w), (s.setVec r v).mem = s.mem := fun _ _ _ _ => rfl
    simp only [em, writeBack_mem, setVec_writeBack] at h3
    refine ⟨_, ?_, h3⟩
    · simp only [liftLdpFp, e1, second, add_some, load_rel hr1 (Nat.mod_one _), Option.bind_some,
        load_rel h2 (Nat.mod_one _), Option.map_some]
      simp only [em, writeBack_mem]

theorem scalar_writeBack (rn : Reg) (wb : Option (BitVec 64)) (r : Fin 32) (w : Nat) :
    (s.writeBack rn wb).scalar r w = s.scalar r w := by
  cases wb with
  | none => rfl
  | some v => cases rn <;> rfl

theorem sim_strFp {sz : FSz} {mode : AM} {rt : Fin 32} {rn : Reg}
    (hs : step (.strFp sz mode rt rn) len s = some s') :
    Simulates cfg slide (.strFp sz mode rt rn) len s s' := by
  obtain ⟨s1, hp, rfl⟩ := step_plain hs rfl
  simp only [S.plain, S.strFp, bind, Option.bind_eq_some_iff, pure, Option.some.injEq] at hp
  obtain ⟨⟨a, wb⟩, hadr, rfl⟩ := hp
  refine plain_sim (fun m => liftStrFp slide m sz.bytes mode rt rn) (fun _ _ => rfl) ?_
  intro start m hr hpc hst
  obtain ⟨e1, hr1⟩ := addr_rel hr hadr
  obtain ⟨m', e2, h2⟩ := store_rel hr1 (Nat.mod_one a.toNat) ((s.writeBack rn wb).scalar rt (8 * sz.bytes))
  refine ⟨m', by simp only [liftStrFp, e1, hr1.getV, e2], ?_⟩
  rw [setMem_writeBack, writeBack_mem, scalar_writeBack] at h2
  exact h2

theorem fsz_le (sz : FSz) : sz.bytes ≤ 2 ^ 63 := by cases sz <;> decide

theorem sim_stpFp {sz : FSz} {mode : AM} {rt rt2 : Fin 32} {rn : Reg}
    (hs : step (.stpFp sz mode rt rt2 rn) len s = some s') :
    Simulates cfg slide (.stpFp sz mode rt rt2 rn) len s s' := by
  obtain ⟨s1, hp, rfl⟩ := step_plain hs rfl
  simp only [S.plain, S.stpFp, bind, Option.bind_eq_some_iff, pure, Option.some.injEq] at hp
  obtain ⟨⟨a, wb⟩, hadr, rfl⟩ := hp
  refine plain_sim (fun m => liftStpFp slide m sz.bytes mode rt rt2 rn) (fun _ _ => rfl) ?_
  intro start m hr hpc hst
  obtain ⟨e1, hr1⟩ := addr_rel hr hadr
  obtain ⟨m2, e2, h2⟩ := store_rel hr1 (Nat.mod_one (a + BitVec.ofNat 64 sz.bytes).toNat)
    ((s.writeBack rn wb).scalar rt2 (8 * sz.bytes))
  obtain ⟨m3, e3, h3⟩ := store_rel h2 (Nat.mod_one a.toNat) ((s.writeBack rn wb).scalar rt (8 * sz.bytes))
  have eg : m2.getV rt (8 * sz.bytes) = some ((s.writeBack rn wb).scalar rt (8 * sz.bytes)) := h2.getV rt _
  refine ⟨m3, by simp only [liftStpFp, e1, second, add_some, hr1.getV, e2, Option.bind_some, eg, e3], ?_⟩
  simp only [writeBack_mem, scalar_writeBack] at h3
  rw [write_comm _ _ _ _ _ (fsz_le sz)] at h3
  have := setMem_writeBack (rn := rn) (wb := wb)
    ((s.mem.write a sz.bytes (s.scalar rt (8 * sz.bytes))).write (a + BitVec.ofNat 64 sz.bytes) sz.bytes
      (s.scalar rt2 (8 * sz.bytes))) s
  rw [← this]
  exact h3

end Verif.A64.Spec
