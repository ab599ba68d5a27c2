import Verif.Conc.WeakRun
import Verif.Conc.OrderA64
import Verif.Conc.Explore

/-! C63 for AArch64 in executions that are not interleavings: STLR and LDAR pass messages, but are not sequentially consistent. -/

namespace Verif.Conc.A64

open Verif.IR Verif.A64 Verif.A64.Spec

variable {slide d f a b : BitVec 64} {cfg : Cfg}

/-- An access of 8 bytes. -/
theorem emits8 {prog : St → Code St} {t : Bool} {addr : Addr} {align : Nat} {ord : Ord} {upd : Option (Val 64 → Val 64)} {reads : Bool}
    {k : Val 64 → Code St} (v : Val 64) {l : List (Ev Bool)} {c : Code St} (h : addr.toNat % align = 0) (he : Emits prog t (k v) l c) :
    Emits prog t (.acc { n := 8, addr, align, ord, upd, reads } k)
      ({ thread := t, isFence := false, ord, addr, n := 8, old := v, new := upd.map (· v), reads } :: l) c :=
  Emits.acc (e := { n := 8, addr, align, ord, upd, reads }) v h he

theorem zext_id (v : Val 64) : zext 64 v = v := by
  cases v <;> simp [zext, un]

theorem prefix_get {α : Type} {l l' : List α} {k : Nat} {e : α} (h : l <+: l') (hk : l[k]? = some e) : l'[k]? = some e := by
  obtain ⟨tl, rfl⟩ := h
  rw [List.getElem?_append_left (List.getElem?_eq_some_iff.1 hk).1]
  exact hk

/-- The accesses of the writer and of the reader of `msgCode`. -/
abbrev W0 (d a : BitVec 64) (v : Val 64) : Ev Bool := ev8 false .notAtomic a v (some (some d))
abbrev W1 (f b : BitVec 64) (v : Val 64) : Ev Bool := ev8 false .release b v (some (some f))
abbrev R0 (b : BitVec 64) (v : Val 64) : Ev Bool := ev8 true .acquire b v none
abbrev R1 (a : BitVec 64) (v : Val 64) : Ev Bool := ev8 true .notAtomic a v none

theorem w_emits {p : Nat} {c c' : Code St} {l : List (Ev Bool)} (h : Wphase slide cfg d f a b p c)
    (he : Emits (aProg slide cfg msgCode) false c l c') : ∃ v0 v1, l <+: [W0 d a v0, W1 f b v1].drop p := by
  induction he generalizing p with
  | nil => exact ⟨none, none, List.nil_prefix⟩
  | @next s l c' _ ih =>
    obtain ⟨hp, m, hreg, hpc, hc⟩ := h
    rcases hc with hc | hc
    · cases hc
      exact ih ⟨hp, s, hreg, hpc, .inr rfl⟩
    · obtain rfl | rfl | rfl : p = 0 ∨ p = 1 ∨ p = 2 := by omega
      · rw [msg_code hpc (i := .str false .uxtx .simple false none (.x 1) (.x 2)) (len := 4) (ex := false) rfl,
          str_code false 1 2 _ m d a hreg.1 hreg.2.1] at hc
        cases hc
      · rw [msg_code hpc (i := .str false .uxtx .simple true none (.x 3) (.x 4)) (len := 4) (ex := false) rfl,
          str_code true 3 4 _ m f b hreg.2.2.1 hreg.2.2.2] at hc
        cases hc
      · rw [msg_code hpc (i := .b 0#64) (len := 4) (ex := false) rfl] at hc
        obtain ⟨m', hb, hgp, hpc'⟩ := b_code (slide := slide) (cfg := cfg) (0x1000#64 + BitVec.ofNat 64 (4 * 2)) m
        rw [hb] at hc
        cases hc
        exact ih ⟨hp, s, by simpa only [Wregs, hgp] using hreg, hpc', .inr rfl⟩
  | @acc e k v l c' _ _ ih =>
    obtain ⟨hp, m, hreg, hpc, hc⟩ := h
    rcases hc with hc | hc
    · cases hc
    · obtain rfl | rfl | rfl : p = 0 ∨ p = 1 ∨ p = 2 := by omega
      · rw [msg_code hpc (i := .str false .uxtx .simple false none (.x 1) (.x 2)) (len := 4) (ex := false) rfl,
          str_code false 1 2 _ m d a hreg.1 hreg.2.1] at hc
        cases hc
        obtain ⟨v0, v1, hl⟩ := ih (p := 1) ⟨by omega, _, by exact hreg, next_pc _ _ _, .inl rfl⟩
        exact ⟨v, v1, (List.cons_prefix_cons).2 ⟨rfl, hl⟩⟩
      · rw [msg_code hpc (i := .str false .uxtx .simple true none (.x 3) (.x 4)) (len := 4) (ex := false) rfl,
          str_code true 3 4 _ m f b hreg.2.2.1 hreg.2.2.2] at hc
        cases hc
        obtain ⟨v0, v1, hl⟩ := ih (p := 2) ⟨by omega, _, by exact hreg, next_pc _ _ _, .inl rfl⟩
        exact ⟨v0, v, (List.cons_prefix_cons).2 ⟨rfl, hl⟩⟩
      · rw [msg_code hpc (i := .b 0#64) (len := 4) (ex := false) rfl] at hc
        obtain ⟨m', hb, -, -⟩ := b_code (slide := slide) (cfg := cfg) (0x1000#64 + BitVec.ofNat 64 (4 * 2)) m
        rw [hb] at hc
        cases hc
  | @fence o k l c' _ _ =>
    obtain ⟨hp, m, hreg, hpc, hc⟩ := h
    rcases hc with hc | hc
    · cases hc
    · obtain rfl | rfl | rfl : p = 0 ∨ p = 1 ∨ p = 2 := by omega
      · rw [msg_code hpc (i := .str false .uxtx .simple false none (.x 1) (.x 2)) (len := 4) (ex := false) rfl,
          str_code false 1 2 _ m d a hreg.1 hreg.2.1] at hc
        cases hc
      · rw [msg_code hpc (i := .str false .uxtx .simple true none (.x 3) (.x 4)) (len := 4) (ex := false) rfl,
          str_code true 3 4 _ m f b hreg.2.2.1 hreg.2.2.2] at hc
        cases hc
      · rw [msg_code hpc (i := .b 0#64) (len := 4) (ex := false) rfl] at hc
        obtain ⟨m', hb, -, -⟩ := b_code (slide := slide) (cfg := cfg) (0x1000#64 + BitVec.ofNat 64 (4 * 2)) m
        rw [hb] at hc
        cases hc

/-- Where the reader is, and what it has loaded. -/
def Rstate (slide : BitVec 64) (cfg : Cfg) (a b : BitVec 64) (q : Nat) (v6 v5 : Val 64) (c : Code St) : Prop :=
  q ≤ 2 ∧ ∃ m, Rregs a b m ∧ m.pc.val slide = some (0x2000#64 + BitVec.ofNat 64 (4 * q)) ∧ (1 ≤ q → m.gp 6 = v6) ∧ (2 ≤ q → m.gp 5 = v5) ∧
    (c = .done m ∨ c = aProg slide cfg msgCode m)

theorem r_emits {q : Nat} {v6 v5 : Val 64} {c c' : Code St} {l : List (Ev Bool)} (h : Rstate slide cfg a b q v6 v5 c)
    (he : Emits (aProg slide cfg msgCode) true c l c') :
    ∃ q' w6 w5, Rstate slide cfg a b q' w6 w5 c' ∧ q ≤ q' ∧ l = ([R0 b w6, R1 a w5].take q').drop q ∧ (1 ≤ q → w6 = v6) ∧
      (2 ≤ q → w5 = v5) := by
  induction he generalizing q v6 v5 with
  | nil => exact ⟨q, v6, v5, h, Nat.le_refl _, by simp, fun _ => rfl, fun _ => rfl⟩
  | @next s l c' _ ih =>
    obtain ⟨hq, m, hreg, hpc, h6, h5, hc⟩ := h
    rcases hc with hc | hc
    · cases hc
      exact ih ⟨hq, s, hreg, hpc, h6, h5, .inr rfl⟩
    · obtain rfl | rfl | rfl : q = 0 ∨ q = 1 ∨ q = 2 := by omega
      · rw [msg_code hpc (i := .ldr false .uxtx .simple true (.x 6) (.x 4)) (len := 4) (ex := false) rfl,
          ldr_code true 6 4 _ m b hreg.2] at hc
        cases hc
      · rw [msg_code hpc (i := .ldr false .uxtx .simple false (.x 5) (.x 2)) (len := 4) (ex := false) rfl,
          ldr_code false 5 2 _ m a hreg.1] at hc
        cases hc
      · rw [msg_code hpc (i := .b 0#64) (len := 4) (ex := false) rfl] at hc
        obtain ⟨m', hb, hgp, hpc'⟩ := b_code (slide := slide) (cfg := cfg) (0x2000#64 + BitVec.ofNat 64 (4 * 2)) m
        rw [hb] at hc
        cases hc
        exact ih ⟨hq, s, by simpa only [Rregs, hgp] using hreg, hpc', by rw [hgp]; exact h6, by rw [hgp]; exact h5, .inr rfl⟩
  | @acc e k v l c' _ _ ih =>
    obtain ⟨hq, m, hreg, hpc, h6, h5, hc⟩ := h
    rcases hc with hc | hc
    · cases hc
    · obtain rfl | rfl | rfl : q = 0 ∨ q = 1 ∨ q = 2 := by omega
      · rw [msg_code hpc (i := .ldr false .uxtx .simple true (.x 6) (.x 4)) (len := 4) (ex := false) rfl,
          ldr_code true 6 4 _ m b hreg.2] at hc
        cases hc
        obtain ⟨q', w6, w5, h1, h2, h3, h4, -⟩ := ih (q := 1) (v6 := v) (v5 := v5)
          ⟨by omega, _, by exact hreg, next_pc _ _ _, fun _ => by exact zext_id v, fun h => by omega, .inl rfl⟩
        · refine ⟨q', w6, w5, h1, by omega, ?_, fun h => by omega, fun h => by omega⟩
          obtain rfl : w6 = v := h4 (by omega)
          rw [h3]
          obtain ⟨n, rfl⟩ : ∃ n, q' = n + 1 := ⟨q' - 1, by omega⟩
          rfl
      · rw [msg_code hpc (i := .ldr false .uxtx .simple false (.x 5) (.x 2)) (len := 4) (ex := false) rfl,
          ldr_code false 5 2 _ m a hreg.1] at hc
        cases hc
        obtain ⟨q', w6, w5, h1, h2, h3, h4, h5'⟩ := ih (q := 2) (v6 := v6) (v5 := v)
          ⟨by omega, _, by exact hreg, next_pc _ _ _, fun _ => by exact h6 (by omega), fun h => by exact zext_id v, .inl rfl⟩
        · refine ⟨q', w6, w5, h1, by omega, ?_, fun _ => h4 (by omega), fun h => by omega⟩
          obtain rfl : w5 = v := h5' (by omega)
          rw [h3]
          obtain ⟨n, rfl⟩ : ∃ n, q' = n + 2 := ⟨q' - 2, by omega⟩
          rfl
      · rw [msg_code hpc (i := .b 0#64) (len := 4) (ex := false) rfl] at hc
        obtain ⟨m', hb, -, -⟩ := b_code (slide := slide) (cfg := cfg) (0x2000#64 + BitVec.ofNat 64 (4 * 2)) m
        rw [hb] at hc
        cases hc
  | @fence o k l c' _ _ =>
    obtain ⟨hq, m, hreg, hpc, h6, h5, hc⟩ := h
    rcases hc with hc | hc
    · cases hc
    · obtain rfl | rfl | rfl : q = 0 ∨ q = 1 ∨ q = 2 := by omega
      · rw [msg_code hpc (i := .ldr false .uxtx .simple true (.x 6) (.x 4)) (len := 4) (ex := false) rfl,
          ldr_code true 6 4 _ m b hreg.2] at hc
        cases hc
      · rw [msg_code hpc (i := .ldr false .uxtx .simple false (.x 5) (.x 2)) (len := 4) (ex := false) rfl,
          ldr_code false 5 2 _ m a hreg.1] at hc
        cases hc
      · rw [msg_code hpc (i := .b 0#64) (len := 4) (ex := false) rfl] at hc
        obtain ⟨m', hb, -, -⟩ := b_code (slide := slide) (cfg := cfg) (0x2000#64 + BitVec.ofNat 64 (4 * 2)) m
        rw [hb] at hc
        cases hc

/-- C63, a message arrives in every execution that LLVM allows, also in those that are not interleavings: one thread stores `d` at `a`
with the lifted code of STR and then a flag at `b` with that of STLR, the other loads the flag with that of LDAR and then the data with
that of LDR.  For all values, all addresses that do not overlap and all other contents of memory and registers: if the reader has seen a
flag that is not 0, it has read `d`. -/
theorem C63_a64_weak_message (cfg : Cfg) (slide d f a b : BitVec 64) (hab : Apart a b) (regs : Bool → St) (mem : VMem)
    (hw : (regs false).gp 1 = some d ∧ (regs false).gp 2 = some a ∧ (regs false).gp 3 = some f ∧ (regs false).gp 4 = some b)
    (hwpc : (regs false).pc.val slide = some 0x1000#64) (hr : (regs true).gp 2 = some a ∧ (regs true).gp 4 = some b)
    (hrpc : (regs true).pc.val slide = some 0x2000#64) (hflag : mem.read b 8 = some 0#64)
    (X : Exec Bool) (hX : X.Consistent mem) (out : Bool → Code St)
    (hrun : ∀ t, Emits (aProg slide cfg msgCode) t (.done (regs t)) (X.ev t) (out t))
    (m : St) (hm : out true = .done m) (hpc : m.pc.val slide = some 0x2008#64) (hseen : m.gp 6 ≠ some 0#64) : m.gp 5 = some d := by
  obtain ⟨v0, v1, hwl⟩ := w_emits (p := 0) ⟨by omega, _, hw, hwpc, .inl rfl⟩ (hrun false)
  obtain ⟨q, v6, v5, ⟨hq, m0, hreg0, hpc0, h6, h5, hc⟩, -, hrl, -, -⟩ :=
    r_emits (q := 0) (v6 := none) (v5 := none) ⟨by omega, _, hr, hrpc, fun h => by omega, fun h => by omega, .inl rfl⟩ (hrun true)
  -- the reader is at its end
  have hend : q = 2 ∧ m.gp = m0.gp := by
    rw [hm] at hc
    rcases hc with hc | hc
    · cases hc
      rw [hpc] at hpc0
      refine ⟨?_, rfl⟩
      obtain rfl | rfl | rfl : q = 0 ∨ q = 1 ∨ q = 2 := by omega
      · cases hpc0
      · cases hpc0
      · rfl
    · obtain rfl | rfl | rfl : q = 0 ∨ q = 1 ∨ q = 2 := by omega
      · rw [msg_code hpc0 (i := .ldr false .uxtx .simple true (.x 6) (.x 4)) (len := 4) (ex := false) rfl,
          ldr_code true 6 4 _ m0 b hreg0.2] at hc
        cases hc
      · rw [msg_code hpc0 (i := .ldr false .uxtx .simple false (.x 5) (.x 2)) (len := 4) (ex := false) rfl,
          ldr_code false 5 2 _ m0 a hreg0.1] at hc
        cases hc
      · rw [msg_code hpc0 (i := .b 0#64) (len := 4) (ex := false) rfl] at hc
        obtain ⟨m', hb, hgp, -⟩ := b_code (slide := slide) (cfg := cfg) (0x2000#64 + BitVec.ofNat 64 (4 * 2)) m0
        rw [hb] at hc
        cases hc
        exact ⟨rfl, hgp⟩
  obtain ⟨rfl, hgp⟩ := hend
  have hrl : X.ev true = [R0 b v6, R1 a v5] := hrl
  replace h6 : m.gp 6 = v6 := by rw [hgp]; exact h6 (by omega)
  replace h5 : m.gp 5 = v5 := by rw [hgp]; exact h5 (by omega)
  have hne : a ≠ b := by
    rintro rfl
    have := hab.1 0 (by omega)
    simp at this
  -- all events
  have hev : ∀ w e, X.at? w = some e → w = (false, 0) ∧ e = W0 d a v0 ∨ w = (false, 1) ∧ e = W1 f b v1 ∨ w = (true, 0) ∧ e = R0 b v6 ∨
      w = (true, 1) ∧ e = R1 a v5 := by
    rintro ⟨t, k⟩ e h
    simp only [Exec.at?] at h
    cases t with
    | true =>
      rw [hrl] at h
      match k with
      | 0 => cases h; exact .inr (.inr (.inl ⟨rfl, rfl⟩))
      | 1 => cases h; exact .inr (.inr (.inr ⟨rfl, rfl⟩))
      | k + 2 => simp at h
    | false =>
      have h := prefix_get hwl h
      match k with
      | 0 => cases h; exact .inl ⟨rfl, rfl⟩
      | 1 => cases h; exact .inr (.inl ⟨rfl, rfl⟩)
      | k + 2 => simp at h
  have hR0 : X.at? (true, 0) = some (R0 b v6) := by simp only [Exec.at?, hrl]; rfl
  have hR1 : X.at? (true, 1) = some (R1 a v5) := by simp only [Exec.at?, hrl]; rfl
  -- writes of the flag and of the data
  have hflags : ∀ w, X.isWrite w → X.same w (true, 0) → w = (false, 1) := by
    rintro w ⟨e, he, -, hn⟩ ⟨e', g, he', hg, -, -, hadr, -⟩
    rw [he] at he'
    rw [hR0] at hg
    cases he'
    cases hg
    rcases hev w e he with ⟨rfl, rfl⟩ | ⟨rfl, rfl⟩ | ⟨rfl, rfl⟩ | ⟨rfl, rfl⟩
    · exact absurd hadr hne
    · rfl
    · cases hn
    · cases hn
  have hdata : ∀ w, X.isWrite w → X.same w (true, 1) → w = (false, 0) := by
    rintro w ⟨e, he, -, hn⟩ ⟨e', g, he', hg, -, -, hadr, -⟩
    rw [he] at he'
    rw [hR1] at hg
    cases he'
    cases hg
    rcases hev w e he with ⟨rfl, rfl⟩ | ⟨rfl, rfl⟩ | ⟨rfl, rfl⟩ | ⟨rfl, rfl⟩
    · rfl
    · exact absurd hadr.symm hne
    · cases hn
    · cases hn
  have hW1 : ∀ e, X.at? (false, 1) = some e → e = W1 f b v1 := by
    intro e he
    rcases hev _ e he with ⟨h, -⟩ | ⟨-, h⟩ | ⟨h, -⟩ | ⟨h, -⟩
    · cases h
    · exact h
    · cases h
    · cases h
  have hrd0 : X.isRead (true, 0) := ⟨_, hR0, rfl, rfl⟩
  have hrd1 : X.isRead (true, 1) := ⟨_, hR1, rfl, rfl⟩
  have hsee := hX.sees _ hrd0
  have hval := hX.value _ _ hR0 hrd0 (.inl ⟨⟨rfl, fun h => Ord.noConfusion h⟩, fun w hw => by
    obtain rfl := hflags w hw.1 hw.2.1
    obtain ⟨e, he, -⟩ := hw.1
    exact ⟨e, he, by rw [hW1 e he]; exact ⟨rfl, fun h => Ord.noConfusion h⟩⟩⟩)
  cases hsrc : X.src (true, 0) with
  | none =>
    rw [hsrc] at hval
    simp only [Exec.value, Option.some.injEq] at hval
    rw [hflag] at hval
    exact absurd (h6.trans hval.symm) hseen
  | some w =>
    rw [hsrc] at hsee
    obtain rfl := hflags w hsee.1 hsee.2.1
    obtain ⟨e, he, -⟩ := hsee.1
    obtain rfl := hW1 e he
    have hW0 : X.at? (false, 0) = some (W0 d a v0) := by
      simp only [Exec.at?] at he ⊢
      have hlen : 1 < (X.ev false).length := (List.getElem?_eq_some_iff.1 he).1
      have h0 : (X.ev false)[0]? = some (X.ev false)[0] := List.getElem?_eq_getElem (by omega)
      have := prefix_get hwl h0
      rw [h0]
      exact this.symm
    have hb : X.hb (false, 0) (true, 1) :=
      Exec.C63_weak_release_acquire (x := (false, 1)) (z := (false, 1)) (y := (true, 0)) (.inr ⟨rfl, by decide, _, he, trivial⟩) .head
        ⟨hrd0, hsrc⟩ (.inr ⟨rfl, by decide, _, hR1, trivial⟩) ⟨_, he, ⟨rfl, fun h => Ord.noConfusion h⟩, trivial⟩
        ⟨_, hR0, ⟨rfl, fun h => Ord.noConfusion h⟩, trivial⟩
    obtain ⟨-, hv⟩ := Exec.C63_weak_read hX ⟨_, hW0, rfl, rfl⟩ ⟨_, _, hW0, hR1, rfl, rfl, rfl, rfl⟩ hdata hrd1 hb hR1
    simp only [Exec.value, hW0, Option.bind_some] at hv
    rw [h5]
    exact (Option.some.inj hv).symm

/-! The hypotheses of `C63_a64_weak_message` are met, by an execution in which the flag is seen. -/

section Example

def exEv (t : Bool) : List (Ev Bool) :=
  if t then [R0 128#64 (some 1#64), R1 64#64 (some 42#64)] else [W0 42#64 64#64 (some 0#64), W1 1#64 128#64 (some 0#64)]

def exExec : Exec Bool where
  ev := exEv
  src i := if i = (true, 0) then some (false, 1) else if i = (true, 1) then some (false, 0) else none
  mo _ _ := False

def exRank (i : Bool × Nat) : Nat := if i.1 then 2 + i.2 else i.2

theorem ex_at {i : Bool × Nat} {e : Ev Bool} (h : exExec.at? i = some e) :
    i = (false, 0) ∧ e = W0 42#64 64#64 (some 0#64) ∨ i = (false, 1) ∧ e = W1 1#64 128#64 (some 0#64) ∨
    i = (true, 0) ∧ e = R0 128#64 (some 1#64) ∨ i = (true, 1) ∧ e = R1 64#64 (some 42#64) := by
  obtain ⟨t, k⟩ := i
  cases t
  · match k with
    | 0 => cases h; exact .inl ⟨rfl, rfl⟩
    | 1 => cases h; exact .inr (.inl ⟨rfl, rfl⟩)
    | k + 2 => simp [Exec.at?, exExec, exEv] at h
  · match k with
    | 0 => cases h; exact .inr (.inr (.inl ⟨rfl, rfl⟩))
    | 1 => cases h; exact .inr (.inr (.inr ⟨rfl, rfl⟩))
    | k + 2 => simp [Exec.at?, exExec, exEv] at h

theorem ex_read {i : Bool × Nat} (h : exExec.isRead i) : i = (true, 0) ∨ i = (true, 1) := by
  obtain ⟨e, he, -, hr⟩ := h
  rcases ex_at he with ⟨rfl, rfl⟩ | ⟨rfl, rfl⟩ | ⟨rfl, rfl⟩ | ⟨rfl, rfl⟩
  · cases hr
  · cases hr
  · exact .inl rfl
  · exact .inr rfl

theorem ex_write {i : Bool × Nat} (h : exExec.isWrite i) : i = (false, 0) ∨ i = (false, 1) := by
  obtain ⟨e, he, -, hr⟩ := h
  rcases ex_at he with ⟨rfl, rfl⟩ | ⟨rfl, rfl⟩ | ⟨rfl, rfl⟩ | ⟨rfl, rfl⟩
  · exact .inl rfl
  · exact .inr rfl
  · cases hr
  · cases hr

theorem ex_same {i j : Bool × Nat} (h : exExec.same i j) (hi : exExec.isWrite i) (hj : exExec.isWrite j) : i = j := by
  obtain ⟨e, f, he, hf, -, -, ha, -⟩ := h
  rcases ex_write hi with rfl | rfl <;> rcases ex_write hj with rfl | rfl
  · rfl
  · cases he; cases hf; cases ha
  · cases he; cases hf; cases ha
  · rfl

theorem ex_rf {i j : Bool × Nat} (h : exExec.rf i j) : i.1 = false ∧ i.2 ≤ 1 ∧ j.1 = true ∧ j.2 ≤ 1 := by
  obtain ⟨h1, h2⟩ := h
  rcases ex_read h1 with rfl | rfl
  · cases h2; decide
  · cases h2; decide

theorem ex_po {i j : Bool × Nat} (h : exExec.po i j) : i.2 ≤ 1 ∧ j.2 ≤ 1 ∧ i.1 = j.1 ∧ i.2 < j.2 := by
  obtain ⟨h1, h2, e, he, -⟩ := h
  have : j.2 ≤ 1 := by rcases ex_at he with ⟨rfl, -⟩ | ⟨rfl, -⟩ | ⟨rfl, -⟩ | ⟨rfl, -⟩ <;> decide
  exact ⟨by omega, this, h1, h2⟩

theorem ex_rs {i j : Bool × Nat} (h : exExec.rs i j) : i = j := by
  cases h with
  | head => rfl
  | rmw _ hrf hw _ =>
    rcases ex_write hw with rfl | rfl <;> cases (ex_rf hrf).2.2.1

theorem ex_hb {i j : Bool × Nat} (h : exExec.hb i j) : exRank i < exRank j := by
  induction h with
  | po h =>
    obtain ⟨h1, h2, h3, h4⟩ := ex_po h
    simp only [exRank, h3]
    split <;> omega
  | sw h =>
    obtain ⟨x, z, y, h1, h2, -, -, h3, h4⟩ := h
    cases ex_rs h1
    obtain ⟨k1, k2, k3, k4⟩ := ex_rf h2
    rcases h3 with ⟨rfl, -⟩ | ⟨-, h3⟩ <;> rcases h4 with ⟨rfl, -⟩ | ⟨-, h4⟩
    · simp only [exRank, k1, k3]; simp; omega
    · have := ex_po h4; simp only [exRank, k1, ← this.2.2.1, k3]; simp; omega
    · have := ex_po h3; simp only [exRank, this.2.2.1, k1, k3]; simp; omega
    · have := ex_po h3; have h' := ex_po h4; simp only [exRank, this.2.2.1, ← h'.2.2.1, k1, k3]; simp; omega
  | trans _ _ h1 h2 => omega

theorem ex_eco {i j : Bool × Nat} (h : exExec.eco i j) : exRank i < exRank j := by
  induction h with
  | rf h =>
    obtain ⟨k1, k2, k3, k4⟩ := ex_rf h
    simp only [exRank, k1, k3]; simp; omega
  | mo _ _ _ h => exact h.elim
  | fr h =>
    obtain ⟨h1, -, -, -, h2⟩ := h
    rcases ex_read h1 with rfl | rfl
    · exact (h2 _ rfl).elim
    · exact (h2 _ rfl).elim
  | trans _ _ h1 h2 => omega

theorem ex_consistent : exExec.Consistent msgCpus.mem.toV where
  uniform := by
    intro i j e f he hf h1 h2
    by_cases h : e.addr = f.addr ∧ e.n = f.n
    · exact .inl ⟨e, f, he, hf, h1, h2, h⟩
    · refine .inr fun x hx => ?_
      have h3 : e.n = 8 ∧ (e.addr = 64#64 ∨ e.addr = 128#64) := by
        rcases ex_at he with ⟨-, rfl⟩ | ⟨-, rfl⟩ | ⟨-, rfl⟩ | ⟨-, rfl⟩ <;> decide
      have h4 : f.n = 8 ∧ (f.addr = 64#64 ∨ f.addr = 128#64) := by
        rcases ex_at hf with ⟨-, rfl⟩ | ⟨-, rfl⟩ | ⟨-, rfl⟩ | ⟨-, rfl⟩ <;> decide
      simp only [Ev.hits] at hx
      rw [h3.1, h4.1] at hx
      rcases h3.2 with h5 | h5 <;> rcases h4.2 with h6 | h6
      · exact h ⟨h5.trans h6.symm, h3.1.trans h4.1.symm⟩
      · rw [h5, h6] at hx; bv_omega
      · rw [h5, h6] at hx; bv_omega
      · exact h ⟨h5.trans h6.symm, h3.1.trans h4.1.symm⟩
  thread := by
    intro i e he
    rcases ex_at he with ⟨rfl, rfl⟩ | ⟨rfl, rfl⟩ | ⟨rfl, rfl⟩ | ⟨rfl, rfl⟩ <;> rfl
  sees := by
    have key : ∀ r v, exExec.isWrite v → exExec.same v r → exRank v < exRank r → exExec.maySee r (some v) := by
      intro r v hv hs hr
      refine ⟨hv, hs, fun h => ?_, fun h => ?_, fun w hw hws h => ?_⟩
      · rw [h] at hr; omega
      · have := ex_hb h; omega
      · have : exExec.same v w := by
          obtain ⟨e, f, h1, h2, h3, h4, h5, h6⟩ := hs
          obtain ⟨e', f', k1, k2, k3, k4, k5, k6⟩ := hws
          rw [h2] at k2; cases k2
          exact ⟨e, e', h1, k1, h3, k3, h5.trans k5.symm, h6.trans k6.symm⟩
        cases ex_same this hv hw
        have := ex_hb h
        omega
    intro r hr
    rcases ex_read hr with rfl | rfl
    · exact key _ _ ⟨_, rfl, rfl, rfl⟩ ⟨_, _, rfl, rfl, rfl, rfl, rfl, rfl⟩ (by decide)
    · exact key _ _ ⟨_, rfl, rfl, rfl⟩ ⟨_, _, rfl, rfl, rfl, rfl, rfl, rfl⟩ (by decide)
  value := by
    intro r e he hr _
    rcases ex_read hr with rfl | rfl
    · cases he; rfl
    · cases he; rfl
  total := fun i j h1 h2 h3 _ _ => .inl (ex_same h3 h1 h2)
  coherent := fun i j _ _ h1 h2 => by
    have := ex_hb h1
    have := ex_eco h2
    omega
  acyclic := fun i => ⟨fun h => Nat.lt_irrefl _ (ex_hb h), fun _ h => Nat.lt_irrefl _ (ex_eco h)⟩
  rmw := fun i h1 h2 => by
    rcases ex_read h1 with rfl | rfl <;> rcases ex_write h2 with h | h <;> cases h
  sc := by
    refine ⟨fun _ => 0, fun i j ⟨e, he, hs⟩ => ?_⟩
    rcases ex_at he with ⟨-, rfl⟩ | ⟨-, rfl⟩ | ⟨-, rfl⟩ | ⟨-, rfl⟩ <;> cases hs

theorem ex_emits : ∃ out : Bool → Code St, (∀ t, Emits (aProg 0#64 {} msgCode) t (.done (msgRegs t)) (exExec.ev t) (out t)) ∧
    ∃ m, out true = .done m ∧ m.pc.val 0#64 = some 0x2008#64 ∧ m.gp 6 = some 1#64 := by
  refine ⟨fun t => .done (if t then next 0#64 0x2004#64 ((next 0#64 0x2000#64 ((msgRegs true).set (.x 6) (some 1#64))).set (.x 5) (some 42#64))
    else next 0#64 0x1004#64 (next 0#64 0x1000#64 (msgRegs false))), fun t => ?_, _, rfl, by decide, by decide⟩
  cases t
  · refine .next ?_
    rw [msg_code (pc := 0x1000#64) rfl (i := .str false .uxtx .simple false none (.x 1) (.x 2)) (len := 4) (ex := false) rfl,
      str_code false 1 2 _ _ 42#64 64#64 rfl rfl]
    refine emits8 (some 0#64) (by decide) (.next ?_)
    rw [msg_code (pc := 0x1004#64) rfl (i := .str false .uxtx .simple true none (.x 3) (.x 4)) (len := 4) (ex := false) rfl,
      str_code true 3 4 _ _ 1#64 128#64 rfl rfl]
    exact emits8 (some 0#64) (by decide) .nil
  · refine .next ?_
    rw [msg_code (pc := 0x2000#64) rfl (i := .ldr false .uxtx .simple true (.x 6) (.x 4)) (len := 4) (ex := false) rfl,
      ldr_code true 6 4 _ _ 128#64 rfl]
    refine emits8 (some 1#64) (by decide) (.next ?_)
    rw [msg_code (pc := 0x2004#64) rfl (i := .ldr false .uxtx .simple false (.x 5) (.x 2)) (len := 4) (ex := false) rfl,
      ldr_code false 5 2 _ _ 64#64 rfl]
    exact emits8 (some 42#64) (by decide) .nil

example : ∃ X : Exec Bool, X.Consistent msgCpus.mem.toV ∧ ∃ out : Bool → Code St,
    (∀ t, Emits (aProg 0#64 {} msgCode) t (.done (msgRegs t)) (X.ev t) (out t)) ∧
    ∃ m, out true = .done m ∧ m.pc.val 0#64 = some 0x2008#64 ∧ m.gp 6 = some 1#64 := ⟨exExec, ex_consistent, ex_emits⟩

end Example

/-! ### Store buffering -/

/-- The code of the instruction at an address. -/
theorem code_at {fetch : BitVec 64 → Option (Instr × Nat × Bool)} {m : St} {pc : BitVec 64} (h : m.pc.val slide = some pc) {i : Instr} {len : Nat}
    {ex : Bool} (hf : fetch pc = some (i, len, ex)) : aProg slide cfg fetch m = aCode slide cfg i (pc - slide) len m := by
  unfold aProg
  rw [h]
  simp only [hf]

/-- `stlr x1, [x2]; ldar x5, [x4]` and `stlr x1, [x4]; ldar x5, [x2]`. -/
def sbCode (pc : BitVec 64) : Option (Instr × Nat × Bool) :=
  if pc = 0x1000#64 then some (.str false .uxtx .simple true none (.x 1) (.x 2), 4, false)
  else if pc = 0x1004#64 then some (.ldr false .uxtx .simple true (.x 5) (.x 4), 4, false)
  else if pc = 0x2000#64 then some (.str false .uxtx .simple true none (.x 1) (.x 4), 4, false)
  else if pc = 0x2004#64 then some (.ldr false .uxtx .simple true (.x 5) (.x 2), 4, false)
  else none

def sbCpus : Cpus Bool where
  cpu t :=
    { x := fun r => if r = 1 then 1#64 else if r = 2 then 64#64 else if r = 4 then 128#64 else 0#64
      sp := 0#64, vec := fun _ => 0#128, fl := fun _ => none, tpidr := 0#64, mem := fun _ => 0#8
      pc := if t then 0x2000#64 else 0x1000#64 }
  mem := fun _ => 0#8
  mark _ := none

def sbRegs (t : Bool) : St :=
  { gp := fun r => if r = 1 then some 1#64 else if r = 2 then some 64#64 else if r = 4 then some 128#64 else some 0#64
    vec := fun _ => some 0#128, fl := fun _ => none, tpidr := some 0#64, mem := fun _ => none
    pc := .const (if t then 0x2000#64 else 0x1000#64) }

/-- When both are done, at least one has read what the other has stored. -/
def sbOk (g : Cpus Bool) : Bool :=
  !((g.cpu false).pc = 0x1008#64 && (g.cpu true).pc = 0x2008#64) || (g.cpu false).x 5 = 1#64 || (g.cpu true).x 5 = 1#64

/-- The address that a thread stores to. -/
def sbOwn (t : Bool) : Addr := if t then 128#64 else 64#64

def sbExec : Exec Bool where
  ev t := [ev8 t .release (sbOwn t) (some 0#64) (some (some 1#64)), ev8 t .acquire (sbOwn (!t)) (some 0#64) none]
  src _ := none
  mo _ _ := False

theorem sb_at {i : Bool × Nat} {e : Ev Bool} (h : sbExec.at? i = some e) :
    i.2 = 0 ∧ e = ev8 i.1 .release (sbOwn i.1) (some 0#64) (some (some 1#64)) ∨ i.2 = 1 ∧ e = ev8 i.1 .acquire (sbOwn (!i.1)) (some 0#64) none := by
  obtain ⟨t, k⟩ := i
  match k with
  | 0 => cases h; exact .inl ⟨rfl, rfl⟩
  | 1 => cases h; exact .inr ⟨rfl, rfl⟩
  | k + 2 => simp [Exec.at?, sbExec] at h

theorem sb_read {i : Bool × Nat} (h : sbExec.isRead i) : i.2 = 1 := by
  obtain ⟨e, he, -, hr⟩ := h
  rcases sb_at he with ⟨-, rfl⟩ | ⟨h, -⟩
  · cases hr
  · exact h

theorem sb_write {i : Bool × Nat} (h : sbExec.isWrite i) : i.2 = 0 := by
  obtain ⟨e, he, -, hr⟩ := h
  rcases sb_at he with ⟨h, -⟩ | ⟨-, rfl⟩
  · exact h
  · cases hr

theorem own_ne {t u : Bool} (h : sbOwn t = sbOwn u) : t = u := by
  revert t u; decide

/-- Accesses to the same bytes. -/
theorem sb_same {i j : Bool × Nat} (h : sbExec.same i j) : i.1 = j.1 ∧ i.2 = j.2 ∨ i.1 ≠ j.1 ∧ i.2 ≠ j.2 := by
  obtain ⟨e, f, he, hf, -, -, ha, -⟩ := h
  rcases sb_at he with ⟨h1, rfl⟩ | ⟨h1, rfl⟩ <;> rcases sb_at hf with ⟨h2, rfl⟩ | ⟨h2, rfl⟩ <;> have := own_ne ha <;> rw [h1, h2]
  · exact .inl ⟨this, rfl⟩
  · refine .inr ⟨fun h => ?_, by decide⟩
    rw [h] at this
    revert this
    cases j.1 <;> decide
  · refine .inr ⟨fun h => ?_, by decide⟩
    rw [h] at this
    revert this
    cases j.1 <;> decide
  · refine .inl ⟨?_, rfl⟩
    cases hi : i.1 <;> cases hj : j.1 <;> simp_all

theorem sb_hb {i j : Bool × Nat} (h : sbExec.hb i j) : i.1 = j.1 ∧ i.2 < j.2 := by
  induction h with
  | po h => exact ⟨h.1, h.2.1⟩
  | sw h =>
    obtain ⟨_, _, _, -, h2, -⟩ := h
    cases h2.2
  | trans _ _ h1 h2 => exact ⟨h1.1.trans h2.1, by omega⟩

theorem sb_eco {i j : Bool × Nat} (h : sbExec.eco i j) : i.1 ≠ j.1 ∧ i.2 = 1 ∧ j.2 = 0 := by
  induction h with
  | rf h => cases h.2
  | mo _ _ _ h => exact h.elim
  | fr h =>
    obtain ⟨h1, h2, h3, h4, -⟩ := h
    have h1 := sb_read h1
    have h2 := sb_write h2
    rcases sb_same h3 with h | h
    · omega
    · exact ⟨h.1, h1, h2⟩
  | trans _ _ h1 h2 => omega

theorem sb_consistent : sbExec.Consistent sbCpus.mem.toV where
  uniform := by
    intro i j e f he hf h1 h2
    by_cases h : e.addr = f.addr ∧ e.n = f.n
    · exact .inl ⟨e, f, he, hf, h1, h2, h⟩
    · refine .inr fun x hx => ?_
      have key : ∀ t, sbOwn t = 64#64 ∨ sbOwn t = 128#64 := by decide
      have h3 : e.n = 8 ∧ (e.addr = 64#64 ∨ e.addr = 128#64) := by
        rcases sb_at he with ⟨-, rfl⟩ | ⟨-, rfl⟩ <;> exact ⟨rfl, key _⟩
      have h4 : f.n = 8 ∧ (f.addr = 64#64 ∨ f.addr = 128#64) := by
        rcases sb_at hf with ⟨-, rfl⟩ | ⟨-, rfl⟩ <;> exact ⟨rfl, key _⟩
      simp only [Ev.hits] at hx
      rw [h3.1, h4.1] at hx
      rcases h3.2 with h5 | h5 <;> rcases h4.2 with h6 | h6
      · exact h ⟨h5.trans h6.symm, h3.1.trans h4.1.symm⟩
      · rw [h5, h6] at hx; bv_omega
      · rw [h5, h6] at hx; bv_omega
      · exact h ⟨h5.trans h6.symm, h3.1.trans h4.1.symm⟩
  thread := by
    intro i e he
    rcases sb_at he with ⟨-, rfl⟩ | ⟨-, rfl⟩ <;> rfl
  sees := by
    intro r hr w hw hs hb
    have := sb_hb hb
    have h1 := sb_read hr
    have h2 := sb_write hw
    rcases sb_same hs with h | h
    · omega
    · exact h.1 this.1
  value := by
    intro r e he hr _
    rcases sb_at he with ⟨-, rfl⟩ | ⟨-, rfl⟩
    · obtain ⟨e, he', -, hr⟩ := hr
      rw [he] at he'
      cases he'
      cases hr
    · have key : ∀ t, some (sbCpus.mem.toV.read (sbOwn t) 8) = some (some 0#64) := by decide
      exact key _
  total := fun i j h1 h2 h3 _ _ => .inl (by
    have h1 := sb_write h1
    have h2 := sb_write h2
    rcases sb_same h3 with h | h
    · exact Prod.ext h.1 h.2
    · omega)
  coherent := fun i j _ _ h1 h2 => (sb_eco h2).1 (sb_hb h1).1.symm
  acyclic := fun i => ⟨fun h => Nat.lt_irrefl _ (sb_hb h).2, fun _ h => (sb_eco h).1 rfl⟩
  rmw := fun i h1 h2 => by
    have h1 := sb_read h1
    have h2 := sb_write h2
    omega
  sc := by
    refine ⟨fun _ => 0, fun i j ⟨e, he, hs⟩ => ?_⟩
    rcases sb_at he with ⟨-, rfl⟩ | ⟨-, rfl⟩ <;> cases hs

def sbEnd (t : Bool) : St :=
  if t then next 0#64 0x2004#64 ((next 0#64 0x2000#64 (sbRegs true)).set (.x 5) (some 0#64))
  else next 0#64 0x1004#64 ((next 0#64 0x1000#64 (sbRegs false)).set (.x 5) (some 0#64))

theorem sb_emits (t : Bool) : Emits (aProg 0#64 {} sbCode) t (.done (sbRegs t)) (sbExec.ev t) (.done (sbEnd t)) := by
  cases t
  · refine .next ?_
    rw [code_at (pc := 0x1000#64) (i := .str false .uxtx .simple true none (.x 1) (.x 2)) (len := 4) (ex := false) rfl rfl,
      str_code true 1 2 _ _ 1#64 64#64 rfl rfl]
    refine emits8 (some 0#64) (by decide) (.next ?_)
    rw [code_at (pc := 0x1004#64) (i := .ldr false .uxtx .simple true (.x 5) (.x 4)) (len := 4) (ex := false) rfl rfl,
      ldr_code true 5 4 _ _ 128#64 rfl]
    exact emits8 (some 0#64) (by decide) .nil
  · refine .next ?_
    rw [code_at (pc := 0x2000#64) (i := .str false .uxtx .simple true none (.x 1) (.x 4)) (len := 4) (ex := false) rfl rfl,
      str_code true 1 4 _ _ 1#64 128#64 rfl rfl]
    refine emits8 (some 0#64) (by decide) (.next ?_)
    rw [code_at (pc := 0x2004#64) (i := .ldr false .uxtx .simple true (.x 5) (.x 2)) (len := 4) (ex := false) rfl rfl,
      ldr_code true 5 2 _ _ 64#64 rfl]
    exact emits8 (some 0#64) (by decide) .nil

/-- C63 fails for AArch64: two processors each store 1 with STLR and then load what the other has stored with LDAR.  The architecture
keeps a STLR before the LDARs that follow it, so that the accesses are those of an interleaving of the instructions, and at least one
processor loads 1.  In the lifted code STLR is a release store and LDAR an acquire load, for which LLVM does not guarantee this: there is
an execution in which both load 0. -/
theorem C63_a64_stlr_ldar_counterexample :
    (∀ t, Rel 0 { sbRegs t with mem := sbCpus.mem.toV } (sbCpus.at t)) ∧
    (∀ order g, runG (Cpus.step {} sbCode) order sbCpus = some g → sbOk g = true) ∧
    ∃ X : Exec Bool, X.Consistent sbCpus.mem.toV ∧ X.NotThinAir ∧
      ∀ t, ∃ m, Emits (aProg 0#64 {} sbCode) t (.done (sbRegs t)) (X.ev t) (.done m) ∧
        m.pc.val 0#64 = some (if t then 0x2008#64 else 0x1008#64) ∧ m.gp 5 = some 0#64 := by
  refine ⟨fun t => ⟨?_, rfl, fun _ => rfl, rfl, rfl, ?_, fun _ _ h => by cases h⟩, fun order g h => ?_, sbExec, sb_consistent,
    ⟨fun i => i.2, fun i j h => ?_⟩, fun t => ⟨sbEnd t, sb_emits t, by revert t; decide, by revert t; decide⟩⟩
  · revert t; decide
  · cases t <;> decide
  · exact explore_sound (labels := [false, true]) (by decide) 4 sbCpus (by decide +kernel) order g h
  · rcases h with h | h
    · exact h.2.1
    · cases h.2

/-- Both are done after four steps. -/
example : ((runG (Cpus.step {} sbCode) [false, true, false, true] sbCpus).map fun g =>
    ((g.cpu false).pc, (g.cpu true).pc, (g.cpu false).x 5, (g.cpu true).x 5)) = some (0x1008#64, 0x2008#64, 1#64, 1#64) := by decide +kernel

/-! ### Interleavings are executions -/

/-- The hypotheses of `C63_interleaving` are met by an interleaving of the threads of `msgCode`, in which the reader finds the data. -/
example : ((System.trace (fun _ => aProg 0 {} msgCode) [false, false, false, true, false, true, true, true]
      { threads := fun t => .done (msgRegs t), mem := msgCpus.mem.toV }).map fun p =>
      (uniformShape (p.1.map Ev.shape), p.1.map fun e => e.old.map (·.toNat))) = some (true, [some 0, some 0, some 1, some 42]) := by
  decide +kernel

end Verif.Conc.A64
