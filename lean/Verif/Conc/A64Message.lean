import Verif.Conc.A64Props

/-! An application of `C62_a64_partial`: a message that is passed with STLR and LDAR. -/

namespace Verif.Conc.A64

open Verif.IR Verif.A64 Verif.A64.Spec

/-- Processor `false` executes `str x1, [x2]; stlr x3, [x4]`, processor `true` executes `ldar x6, [x4]; ldr x5, [x2]`; then both
loop. -/
def msgCode (pc : BitVec 64) : Option (Instr × Nat × Bool) :=
  if pc = 0x1000#64 then some (.str false .uxtx .simple false none (.x 1) (.x 2), 4, false)
  else if pc = 0x1004#64 then some (.str false .uxtx .simple true none (.x 3) (.x 4), 4, false)
  else if pc = 0x1008#64 then some (.b 0#64, 4, false)
  else if pc = 0x2000#64 then some (.ldr false .uxtx .simple true (.x 6) (.x 4), 4, false)
  else if pc = 0x2004#64 then some (.ldr false .uxtx .simple false (.x 5) (.x 2), 4, false)
  else if pc = 0x2008#64 then some (.b 0#64, 4, false)
  else none

/-- What is known at every time: the flag is set only after the data have been written. -/
structure MsgInv (d f a b : BitVec 64) (g : Cpus Bool) : Prop where
  w1 : (g.cpu false).x 1 = d
  w2 : (g.cpu false).x 2 = a
  w3 : (g.cpu false).x 3 = f
  w4 : (g.cpu false).x 4 = b
  r2 : (g.cpu true).x 2 = a
  r4 : (g.cpu true).x 4 = b
  wpc : (g.cpu false).pc = 0x1000#64 ∨ (g.cpu false).pc = 0x1004#64 ∨ (g.cpu false).pc = 0x1008#64
  rpc : (g.cpu true).pc = 0x2000#64 ∨ (g.cpu true).pc = 0x2004#64 ∨ (g.cpu true).pc = 0x2008#64
  data : (g.cpu false).pc ≠ 0x1000#64 → g.mem.read a 8 = d
  flag : g.mem.read b 8 = if (g.cpu false).pc = 0x1008#64 then f else 0#64
  seen : (g.cpu true).pc ≠ 0x2000#64 → (g.cpu true).x 6 = 0#64 ∨ (g.cpu true).x 6 = f ∧ (g.cpu false).pc = 0x1008#64
  got : (g.cpu true).pc = 0x2008#64 → (g.cpu true).x 6 ≠ 0#64 → (g.cpu true).x 5 = d

/-- The bytes of the flag and of the data are different. -/
def Apart (a b : BitVec 64) : Prop := (∀ i, i < 8 → ¬ (b + BitVec.ofNat 64 i - a).toNat < 8) ∧ ∀ i, i < 8 → ¬ (a + BitVec.ofNat 64 i - b).toNat < 8

variable {d f a b : BitVec 64} {cfg : Cfg}

theorem str_step (s : S) (mo : Bool) (r n : Fin 31) (h : mo = true → (s.x n).toNat % 8 = 0) :
    Spec.step (.str false .uxtx .simple mo none (.x r) (.x n)) 4 s =
      some { s with mem := s.mem.write (s.x n) 8 (s.x r), pc := s.pc + 4#64 } := by
  have ha : alignedOk (s.x n) 8 (mo || false) = true := by
    cases mo
    · rfl
    · simp [alignedOk, h rfl]
  have hr : ∀ k, s.reg 64 (.x k) = s.x k := fun k => by simp [S.reg]
  have hp : s.plain (.str false .uxtx .simple mo none (.x r) (.x n)) = some { s with mem := s.mem.write (s.x n) 8 (s.x r) } := by
    rw [S.plain, S.str, show s.addr Ext.uxtx.bytes (.x n) .simple = some (s.x n, none) from by simp [S.addr, hr]]
    simp only [Option.bind_eq_bind, Option.bind_some]
    rw [if_pos ⟨by decide, rfl, ha, rfl⟩]
    change some ({ s with mem := s.mem.write (s.x n) 8 ((s.reg 64 (.x r)).extractLsb' 0 64) } : S) = _
    rw [hr, BitVec.extractLsb'_eq_self]
  simp only [Spec.step, hp]

theorem ldr_step (s : S) (mo : Bool) (r n : Fin 31) (h : mo = true → (s.x n).toNat % 8 = 0) :
    Spec.step (.ldr false .uxtx .simple mo (.x r) (.x n)) 4 s =
      some { s with x := fun k => if k = r then s.mem.read (s.x n) 8 else s.x k, pc := s.pc + 4#64 } := by
  have ha : alignedOk (s.x n) 8 mo = true := by
    cases mo
    · rfl
    · simp [alignedOk, h rfl]
  have hr : ∀ k, s.reg 64 (.x k) = s.x k := fun k => by simp [S.reg]
  have hp : s.plain (.ldr false .uxtx .simple mo (.x r) (.x n)) =
      some { s with x := fun k => if k = r then s.mem.read (s.x n) 8 else s.x k } := by
    rw [S.plain, S.ldr, show s.addr Ext.uxtx.bytes (.x n) .simple = some (s.x n, none) from by simp [S.addr, hr]]
    simp only [Option.bind_eq_bind, Option.bind_some]
    rw [if_pos ⟨by decide, rfl, ha⟩]
    change some (s.setReg (.x r) (loadVal 64 .uxtx (s.mem.read (s.x n) 8) : BitVec 64)) = _
    have : (loadVal 64 .uxtx (s.mem.read (s.x n) 8) : BitVec 64) = s.mem.read (s.x n) 8 := by
      simp [loadVal, val, Ext.signed]
    rw [this]
    simp [S.setReg]
  simp only [Spec.step, hp]

theorem msg_good {g : Cpus Bool} (hb : b.toNat % 8 = 0) (h : MsgInv d f a b g) (t : Bool) : g.Good cfg msgCode t := by
  cases t with
  | false =>
    rcases h.wpc with hp | hp | hp
    · refine ⟨.str false .uxtx .simple false none (.x 1) (.x 2), 4, false, by rw [hp]; rfl, trivial, ?_, rfl, by decide, .inl rfl⟩
      rw [str_step _ _ _ _ (by simp)]
      rfl
    · refine ⟨.str false .uxtx .simple true none (.x 3) (.x 4), 4, false, by rw [hp]; rfl, trivial, ?_, rfl, by decide, .inl rfl⟩
      rw [str_step _ _ _ _ fun _ => by simp only [Cpus.at, h.w4, hb]]
      rfl
    · exact ⟨.b 0#64, 4, false, by rw [hp]; rfl, trivial, rfl, rfl, by decide, .inl rfl⟩
  | true =>
    rcases h.rpc with hp | hp | hp
    · refine ⟨.ldr false .uxtx .simple true (.x 6) (.x 4), 4, false, by rw [hp]; rfl, trivial, ?_, rfl, by decide, .inl rfl⟩
      rw [ldr_step _ _ _ _ fun _ => by simp only [Cpus.at, h.r4, hb]]
      rfl
    · refine ⟨.ldr false .uxtx .simple false (.x 5) (.x 2), 4, false, by rw [hp]; rfl, trivial, ?_, rfl, by decide, .inl rfl⟩
      rw [ldr_step _ _ _ _ (by simp)]
      rfl
    · exact ⟨.b 0#64, 4, false, by rw [hp]; rfl, trivial, rfl, rfl, by decide, .inl rfl⟩

/-- A step of an instruction that is not a store-exclusive. -/
theorem step_eq {g g' : Cpus Bool} {t : Bool} {i : Instr} {len : Nat} {s : S} (hf : msgCode (g.cpu t).pc = some (i, len, false))
    (ho : other i = false) (hx : statusReg i = none) (hs : Spec.step i len (g.at t) = some s) (ha : after cfg s i = s)
    (h : g.step cfg msgCode t = some g') : (∀ u, g'.cpu u = if u = t then s else g.cpu u) ∧ g'.mem = s.mem := by
  unfold Cpus.step Cpus.exec at h
  rw [hf] at h
  have hm : marked g t i := .inl hx
  simp only [ho, Bool.false_eq_true, if_false, if_pos hm, hs, Option.map_some, Option.some.injEq] at h
  subst h
  exact ⟨fun u => by simp only [ha], rfl⟩

theorem msg_step {g g' : Cpus Bool} (hab : Apart a b) (hb : b.toNat % 8 = 0) (h : MsgInv d f a b g) (t : Bool)
    (hs : g.step cfg msgCode t = some g') : MsgInv d f a b g' := by
  obtain ⟨w1, w2, w3, w4, r2, r4, wpc, rpc, data, flag, seen, got⟩ := h
  cases t with
  | false =>
    rcases wpc with hp | hp | hp
    · obtain ⟨hc, hm⟩ := step_eq (by rw [hp]; rfl) rfl rfl (str_step (g.at false) false 1 2 (by simp)) rfl hs
      have h0 := hc false
      have h1 := hc true
      simp only [if_true, Bool.true_eq_false, if_false] at h0 h1
      simp only [Cpus.at, w1, w2, hp] at h0 hm
      constructor <;> simp only [h0, h1, hm, w1, w2, w3, w4, r2, r4]
      · right; left; decide
      · exact rpc
      · intro _; exact Mem.read_write _ _ _ _ (by decide)
      · rw [Mem.read_write_disjoint _ _ _ _ _ _ hab.1, flag, hp]; rfl
      · intro h; rcases seen h with h | ⟨-, h⟩
        · exact .inl h
        · rw [hp] at h; cases h
      · intro h hn
        rcases seen (by rw [h]; decide) with h | ⟨-, h⟩
        · exact absurd h hn
        · rw [hp] at h; cases h
    · obtain ⟨hc, hm⟩ := step_eq (by rw [hp]; rfl) rfl rfl (str_step (g.at false) true 3 4 (fun _ => by simp only [Cpus.at, w4, hb])) rfl hs
      have h0 := hc false
      have h1 := hc true
      simp only [if_true, Bool.true_eq_false, if_false] at h0 h1
      simp only [Cpus.at, w3, w4, hp] at h0 hm
      constructor <;> simp only [h0, h1, hm, w1, w2, w3, w4, r2, r4]
      · right; right; decide
      · exact rpc
      · intro _
        rw [Mem.read_write_disjoint _ _ _ _ _ _ hab.2]
        exact data (by rw [hp]; decide)
      · rw [Mem.read_write _ _ _ _ (by decide)]; rfl
      · intro h; rcases seen h with h | ⟨-, h⟩
        · exact .inl h
        · rw [hp] at h; cases h
      · intro h hn
        rcases seen (by rw [h]; decide) with h | ⟨-, h⟩
        · exact absurd h hn
        · rw [hp] at h; cases h
    · obtain ⟨hc, hm⟩ := step_eq (i := .b 0#64) (by rw [hp]; rfl) rfl rfl rfl rfl hs
      have h0 := hc false
      have h1 := hc true
      simp only [if_true, Bool.true_eq_false, if_false] at h0 h1
      simp only [Cpus.at, hp, BitVec.add_zero] at h0 hm
      rw [hp] at data flag seen
      constructor <;> simp only [h0, h1, hm, w1, w2, w3, w4, r2, r4]
      · right; right; trivial
      · exact rpc
      · exact data
      · exact flag
      · simpa using seen
      · simpa using got
  | true =>
    rcases rpc with hp | hp | hp
    · obtain ⟨hc, hm⟩ := step_eq (by rw [hp]; rfl) rfl rfl (ldr_step (g.at true) true 6 4 (fun _ => by simp only [Cpus.at, r4, hb])) rfl hs
      have h0 := hc false
      have h1 := hc true
      simp only [if_true, Bool.false_eq_true, if_false] at h0 h1
      simp only [Cpus.at, r4, hp, flag] at h1 hm
      constructor <;> simp only [h0, h1, hm, w1, w2, w3, w4, r2, r4]
      · simp
      · simp
      · exact wpc
      · right; left; decide
      · exact data
      · exact flag
      · intro _
        simp only [if_true]
        split
        · rename_i h; exact .inr ⟨rfl, h⟩
        · exact .inl rfl
      · intro h; exact absurd h (by decide)
    · obtain ⟨hc, hm⟩ := step_eq (by rw [hp]; rfl) rfl rfl (ldr_step (g.at true) false 5 2 (by simp)) rfl hs
      have h0 := hc false
      have h1 := hc true
      simp only [if_true, Bool.false_eq_true, if_false] at h0 h1
      simp only [Cpus.at, r2, hp] at h1 hm
      have hseen := seen (by rw [hp]; decide)
      constructor <;> simp only [h0, h1, hm, w1, w2, w3, w4, r2, r4]
      · simp
      · simp
      · exact wpc
      · right; right; decide
      · exact data
      · exact flag
      · intro _; simpa using hseen
      · intro _ hn
        simp only [if_true]
        rcases hseen with h | ⟨-, h⟩
        · exact absurd h (by simpa using hn)
        · exact data (by rw [h]; decide)
    · obtain ⟨hc, hm⟩ := step_eq (i := .b 0#64) (by rw [hp]; rfl) rfl rfl rfl rfl hs
      have h0 := hc false
      have h1 := hc true
      simp only [if_true, Bool.false_eq_true, if_false] at h0 h1
      simp only [Cpus.at, hp, BitVec.add_zero] at h1 hm
      rw [hp] at seen got
      constructor <;> simp only [h0, h1, hm, w1, w2, w3, w4, r2, r4]
      · exact wpc
      · right; right; trivial
      · exact data
      · exact flag
      · simpa using seen
      · simpa using got

theorem msg_run (hab : Apart a b) (hb : b.toNat % 8 = 0) (order : List Bool) (g g' : Cpus Bool) (h : MsgInv d f a b g)
    (hs : runG (Cpus.step cfg msgCode) order g = some g') : MsgInv d f a b g' := by
  induction order generalizing g with
  | nil => cases hs; exact h
  | cons t order ih =>
    simp only [runG, Option.bind_eq_some_iff] at hs
    obtain ⟨g1, h1, h2⟩ := hs
    exact ih g1 (msg_step hab hb h t h1) h2

/-- C62, a message arrives: one thread stores `d` at `a` with the lifted code of STR and then a flag at `b` with that of STLR, the
other loads the flag with that of LDAR and then the data with that of LDR.  For every schedule, all values, all addresses that do not
overlap, and all other contents of memory and registers, there is no undefined behaviour, and if the reader has seen a flag that is
not 0, it has read `d`. -/
theorem C62_a64_message (cfg : Cfg) (hcall : cfg.callFunction = none) (slide d f a b : BitVec 64) (hab : Apart a b)
    (hb : b.toNat % 8 = 0) (g : Cpus Bool)
    (hw : (g.cpu false).x 1 = d ∧ (g.cpu false).x 2 = a ∧ (g.cpu false).x 3 = f ∧ (g.cpu false).x 4 = b ∧ (g.cpu false).pc = 0x1000#64)
    (hr : (g.cpu true).x 2 = a ∧ (g.cpu true).x 4 = b ∧ (g.cpu true).pc = 0x2000#64) (hflag : g.mem.read b 8 = 0#64)
    (regs : Bool → St) (hrel : ∀ t, Rel slide { regs t with mem := g.mem.toV } (g.at t)) (schedule : List Bool) :
    ∃ y, System.run (fun _ => aProg slide cfg msgCode) schedule { threads := fun t => .done (regs t), mem := g.mem.toV } = some y ∧
      ∀ m v, y.threads true = .done m → m.pc.val slide = some 0x2008#64 → m.gp 6 = some v → v ≠ 0#64 → m.gp 5 = some d := by
  obtain ⟨w1, w2, w3, w4, wpc⟩ := hw
  obtain ⟨r2, r4, rpc⟩ := hr
  have hinv : MsgInv d f a b g :=
    ⟨w1, w2, w3, w4, r2, r4, .inl wpc, .inl rpc, fun h => absurd wpc h, by rw [hflag, wpc]; rfl, fun h => absurd rpc h,
      fun h => by rw [rpc] at h; cases h⟩
  obtain ⟨y, order, g', h1, h2, h3, h4⟩ := C62_a64_partial (fetch := msgCode) hcall regs g hrel
    (fun order g' h t => msg_good hb (msg_run hab hb order _ _ hinv h) t) schedule
  refine ⟨y, h1, fun m v hm hp h6 hv => ?_⟩
  have hi := msg_run hab hb order _ _ hinv h2
  obtain ⟨m2, hr, hc⟩ := h4 true
  rcases hc with hc | ⟨hc, hn⟩
  · rw [hm] at hc
    cases hc
    have hpc := hr.pc
    simp only [hp, Option.some.injEq] at hpc
    have e6 : m.gp 6 = some ((g'.cpu true).x 6) := hr.gp 6
    have e5 : m.gp 5 = some ((g'.cpu true).x 5) := hr.gp 5
    rw [h6, Option.some.injEq] at e6
    rw [e5, hi.got hpc.symm (by rw [← e6]; exact hv)]
  · exact absurd (hc.symm.trans hm) (hn m)

/-- Data at 64, flag at 128. -/
def msgCpus : Cpus Bool where
  cpu t :=
    { x := fun r => if r = 1 then 42#64 else if r = 2 then 64#64 else if r = 3 then 1#64 else if r = 4 then 128#64 else 0#64
      sp := 0#64, vec := fun _ => 0#128, fl := fun _ => none, tpidr := 0#64, mem := fun _ => 0#8
      pc := if t then 0x2000#64 else 0x1000#64 }
  mem := fun _ => 0#8
  mark _ := none

def msgRegs (t : Bool) : St :=
  { gp := fun r => if r = 1 then some 42#64 else if r = 2 then some 64#64 else if r = 3 then some 1#64 else if r = 4 then some 128#64
      else some 0#64
    vec := fun _ => some 0#128, fl := fun _ => none, tpidr := some 0#64, mem := fun _ => none
    pc := .const (if t then 0x2000#64 else 0x1000#64) }

def msgRun (schedule : List Bool) : Option (Option (BitVec 64) × Option (BitVec 64) × Option (BitVec 64)) :=
  (System.run (fun _ => aProg 0 {} msgCode) schedule { threads := fun t => .done (msgRegs t), mem := msgCpus.mem.toV }).bind
    fun y => match y.threads true with
      | .done m => some (m.pc.val 0, m.gp 6, m.gp 5)
      | _ => none

/-- The hypotheses of `C62_a64_message` are met, with a schedule in which the flag is seen and one in which it is not. -/
example : Apart 64#64 128#64 ∧ (∀ t, Rel 0 { msgRegs t with mem := msgCpus.mem.toV } (msgCpus.at t)) ∧
    msgRun [false, false, false, false, true, true, true, true] = some (some 0x2008#64, some 1#64, some 42#64) ∧
    msgRun [false, true, false, true, true, true, false] = some (some 0x2008#64, some 0#64, some 42#64) := by
  refine ⟨⟨by decide, by decide⟩, fun t => ⟨?_, rfl, fun _ => rfl, rfl, rfl, ?_, fun _ _ h => by cases h⟩, by decide +kernel, by decide +kernel⟩
  · revert t; decide
  · cases t <;> decide

end Verif.Conc.A64
