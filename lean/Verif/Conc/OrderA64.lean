import Verif.Conc.OrderRun
import Verif.Conc.A64Message

/-! C63 for AArch64: a message that is passed with STLR and LDAR; DMB. -/

namespace Verif.Conc.A64

open Verif.IR Verif.A64 Verif.A64.Spec

variable {slide d f a b : BitVec 64} {cfg : Cfg}

/-- Registers of the writer and of the reader of `msgCode`. -/
def Wregs (d f a b : BitVec 64) (m : St) : Prop := m.gp 1 = some d ∧ m.gp 2 = some a ∧ m.gp 3 = some f ∧ m.gp 4 = some b
def Rregs (a b : BitVec 64) (m : St) : Prop := m.gp 2 = some a ∧ m.gp 4 = some b

/-- The code of the instruction at an address. -/
theorem msg_code {m : St} {pc : BitVec 64} (h : m.pc.val slide = some pc) {i : Instr} {len : Nat} {ex : Bool}
    (hf : msgCode pc = some (i, len, ex)) : aProg slide cfg msgCode m = aCode slide cfg i (pc - slide) len m := by
  unfold aProg
  rw [h]
  simp only [hf]

/-- The state after the instruction at `pc`. -/
def next (slide pc : BitVec 64) (m : St) : St := { m with pc := .const (pc - slide + 4#64) }

theorem next_pc (slide pc : BitVec 64) (m : St) : (next slide pc m).pc.val slide = some (pc + 4#64) := by
  simp only [next, Pc.val_const, Option.some.injEq]
  bv_omega

theorem trunc_same (v : Val 64) : trunc 64 v = v := by
  cases v <;> simp [trunc, un]

theorem get_x (m : St) (r : Fin 31) : m.get 64 (.x r) = m.gp ⟨r.val, by omega⟩ := trunc_same _

theorem extend_same (v : Val 64) : extend v 64 .uxtx 0 = some v := by
  have h : extend v 64 .uxtx 0 = some (zext 64 (trunc 64 v)) := rfl
  rw [h]
  cases v <;> simp [trunc, zext, un]

theorem str_code (mo : Bool) (r n : Fin 31) (pc : BitVec 64) (m : St) (v q : BitVec 64) (hr : m.gp ⟨r.val, by omega⟩ = some v)
    (hn : m.gp ⟨n.val, by omega⟩ = some q) :
    aCode slide cfg (.str false .uxtx .simple mo none (.x r) (.x n)) (pc - slide) 4 m =
      .acc { n := 8, addr := q, align := alignOf 8 mo, ord := storeOrd mo, upd := some fun _ => some v, reads := false } fun _ => .done (next slide pc m) := by
  change cStore (({ m with pc := .const (pc - slide) } : St).get 64 (.x n)) 8 (alignOf 8 mo) (storeOrd mo)
    (trunc 64 (({ m with pc := .const (pc - slide) } : St).get 64 (.x r))) (.done (next slide pc m)) = _
  rw [get_x, get_x, hr, hn, trunc_same]
  rfl

theorem ldr_code (mo : Bool) (r n : Fin 31) (pc : BitVec 64) (m : St) (q : BitVec 64) (hn : m.gp ⟨n.val, by omega⟩ = some q) :
    aCode slide cfg (.ldr false .uxtx .simple mo (.x r) (.x n)) (pc - slide) 4 m =
      .acc { n := 8, addr := q, align := alignOf 8 mo, ord := loadOrd mo, upd := none } fun v : Val 64 =>
        .done (next slide pc (m.set (.x r) v)) := by
  change cLoad (({ m with pc := .const (pc - slide) } : St).get 64 (.x n)) 8 (alignOf 8 mo) (loadOrd mo) (fun v =>
    pure' (extend v 64 .uxtx 0) fun v => .done (next slide pc (m.set (.x r) v))) = _
  rw [get_x, hn]
  simp only [cLoad, extend_same, pure']

theorem b_code (pc : BitVec 64) (m : St) : ∃ m', aCode slide cfg (.b 0#64) (pc - slide) 4 m = .done m' ∧ m'.gp = m.gp ∧
    m'.pc.val slide = some pc := by
  refine ⟨_, rfl, rfl, ?_⟩
  simp only [Pc.val_const, Option.some.injEq]
  bv_omega

theorem vread_congr (m m' : VMem) (n : Nat) (q : Addr) (h : ∀ i, i < n → m (q + BitVec.ofNat 64 i) = m' (q + BitVec.ofNat 64 i)) :
    m.read q n = m'.read q n := by
  induction n generalizing q with
  | zero => rfl
  | succ n ih =>
    simp only [VMem.read]
    have h0 := h 0 (by omega)
    simp only [BitVec.add_zero] at h0
    rw [h0, ih (q + 1#64) fun i hi => ?_]
    have := h (i + 1) (by omega)
    rw [show q + 1#64 + BitVec.ofNat 64 i = q + BitVec.ofNat 64 (i + 1) from by
      rw [BitVec.add_assoc, BitVec.add_comm 1#64, ← BitVec.ofNat_add]]
    exact this

/-- Where the writer and the reader of `msgCode` are, by the number of their accesses so far. -/
def Wphase (slide : BitVec 64) (cfg : Cfg) (d f a b : BitVec 64) (p : Nat) (c : Code St) : Prop :=
  p ≤ 2 ∧ ∃ m, Wregs d f a b m ∧ m.pc.val slide = some (0x1000#64 + BitVec.ofNat 64 (4 * p)) ∧
    (c = .done m ∨ c = aProg slide cfg msgCode m)

def Rphase (slide : BitVec 64) (cfg : Cfg) (a b : BitVec 64) (q : Nat) (c : Code St) : Prop :=
  q ≤ 2 ∧ ∃ m, Rregs a b m ∧ m.pc.val slide = some (0x2000#64 + BitVec.ofNat 64 (4 * q)) ∧
    (c = .done m ∨ c = aProg slide cfg msgCode m)

/-- Accesses of 8 bytes. -/
abbrev ev8 (t : Bool) (o : Ord) (addr : Addr) (old : Val 64) (new : Option (Val 64)) : Ev Bool :=
  { thread := t, isFence := false, ord := o, addr, n := 8, old, new, reads := new.isNone }

theorem wstep {p : Nat} {y y' : System Bool St} (h : Wphase slide cfg d f a b p (y.threads false))
    (hs : y.step (fun _ => aProg slide cfg msgCode) false = some y') :
    y'.threads true = y.threads true ∧
    (y.event false = [] ∧ y'.mem = y.mem ∧ Wphase slide cfg d f a b p (y'.threads false) ∨
     p = 0 ∧ y.event false = [ev8 false .notAtomic a (y.mem.read a 8) (some (some d))] ∧ y'.mem = y.mem.write a 8 (some d) ∧
       Wphase slide cfg d f a b 1 (y'.threads false) ∨
     p = 1 ∧ y.event false = [ev8 false .release b (y.mem.read b 8) (some (some f))] ∧ y'.mem = y.mem.write b 8 (some f) ∧
       Wphase slide cfg d f a b 2 (y'.threads false)) := by
  obtain ⟨hp, m, hreg, hpc, hc⟩ := h
  by_cases hd : y.threads false = .done m
  · simp only [System.step, hd, Option.some.injEq] at hs
    subst hs
    refine ⟨rfl, .inl ⟨?_, rfl, hp, m, hreg, hpc, .inr rfl⟩⟩
    simp only [System.event, hd]
  · have hc : y.threads false = aProg slide cfg msgCode m := hc.resolve_left hd
    obtain rfl | rfl | rfl : p = 0 ∨ p = 1 ∨ p = 2 := by omega
    · rw [msg_code hpc (i := .str false .uxtx .simple false none (.x 1) (.x 2)) (len := 4) (ex := false) rfl,
        str_code false 1 2 _ m d a hreg.1 hreg.2.1] at hc
      simp only [System.step, hc, Acc.perform, alignOf, Bool.false_eq_true, if_false, Nat.mod_one, if_true, Option.map_some,
        Option.some.injEq] at hs
      subst hs
      refine ⟨rfl, .inr (.inl ⟨rfl, ?_, rfl, by omega, _, ?_, next_pc _ _ _, .inl rfl⟩)⟩
      · simp only [System.event, hc, storeOrd, Bool.false_eq_true, if_false]
        rfl
      · exact hreg
    · rw [msg_code hpc (i := .str false .uxtx .simple true none (.x 3) (.x 4)) (len := 4) (ex := false) rfl,
        str_code true 3 4 _ m f b hreg.2.2.1 hreg.2.2.2] at hc
      simp only [System.step, hc, Acc.perform] at hs
      split at hs
      · simp only [Option.map_some, Option.some.injEq] at hs
        subst hs
        refine ⟨rfl, .inr (.inr ⟨rfl, ?_, rfl, by omega, _, ?_, next_pc _ _ _, .inl rfl⟩)⟩
        · simp only [System.event, hc, storeOrd, if_true]
          rfl
        · exact hreg
      · cases hs
    · rw [msg_code hpc (i := .b 0#64) (len := 4) (ex := false) rfl] at hc
      obtain ⟨m', hb, hgp, hpc'⟩ := b_code (slide := slide) (cfg := cfg) (0x1000#64 + BitVec.ofNat 64 (4 * 2)) m
      rw [hb] at hc
      simp only [System.step, hc, Option.some.injEq] at hs
      subst hs
      refine ⟨rfl, .inl ⟨?_, rfl, hp, m', ?_, hpc', .inr rfl⟩⟩
      · simp only [System.event, hc]
      · simpa only [Wregs, hgp] using hreg

theorem rstep {q : Nat} {y y' : System Bool St} (h : Rphase slide cfg a b q (y.threads true))
    (hs : y.step (fun _ => aProg slide cfg msgCode) true = some y') :
    y'.threads false = y.threads false ∧ y'.mem = y.mem ∧
    (y.event true = [] ∧ Rphase slide cfg a b q (y'.threads true) ∨
     q = 0 ∧ y.event true = [ev8 true .acquire b (y.mem.read b 8) none] ∧ Rphase slide cfg a b 1 (y'.threads true) ∨
     q = 1 ∧ y.event true = [ev8 true .notAtomic a (y.mem.read a 8) none] ∧ Rphase slide cfg a b 2 (y'.threads true)) := by
  obtain ⟨hq, m, hreg, hpc, hc⟩ := h
  by_cases hd : y.threads true = .done m
  · simp only [System.step, hd, Option.some.injEq] at hs
    subst hs
    refine ⟨rfl, rfl, .inl ⟨?_, hq, m, hreg, hpc, .inr rfl⟩⟩
    simp only [System.event, hd]
  · have hc : y.threads true = aProg slide cfg msgCode m := hc.resolve_left hd
    obtain rfl | rfl | rfl : q = 0 ∨ q = 1 ∨ q = 2 := by omega
    · rw [msg_code hpc (i := .ldr false .uxtx .simple true (.x 6) (.x 4)) (len := 4) (ex := false) rfl,
        ldr_code true 6 4 _ m b hreg.2] at hc
      simp only [System.step, hc, Acc.perform] at hs
      split at hs
      · simp only [Option.map_some, Option.some.injEq] at hs
        subst hs
        refine ⟨rfl, rfl, .inr (.inl ⟨rfl, ?_, by omega, _, ?_, next_pc _ _ _, .inl rfl⟩)⟩
        · simp only [System.event, hc, loadOrd, if_true]
          rfl
        · exact hreg
      · cases hs
    · rw [msg_code hpc (i := .ldr false .uxtx .simple false (.x 5) (.x 2)) (len := 4) (ex := false) rfl,
        ldr_code false 5 2 _ m a hreg.1] at hc
      simp only [System.step, hc, Acc.perform, alignOf, Bool.false_eq_true, if_false, Nat.mod_one, if_true, Option.map_some,
        Option.some.injEq] at hs
      subst hs
      refine ⟨rfl, rfl, .inr (.inr ⟨rfl, ?_, by omega, _, ?_, next_pc _ _ _, .inl rfl⟩)⟩
      · simp only [System.event, hc, loadOrd, Bool.false_eq_true, if_false]
        rfl
      · exact hreg
    · rw [msg_code hpc (i := .b 0#64) (len := 4) (ex := false) rfl] at hc
      obtain ⟨m', hb, hgp, hpc'⟩ := b_code (slide := slide) (cfg := cfg) (0x2000#64 + BitVec.ofNat 64 (4 * 2)) m
      rw [hb] at hc
      simp only [System.step, hc, Option.some.injEq] at hs
      subst hs
      refine ⟨rfl, rfl, .inl ⟨?_, hq, m', ?_, hpc', .inr rfl⟩⟩
      · simp only [System.event, hc]
      · simpa only [Rregs, hgp] using hreg

/-- Until the reader has loaded the flag: only the accesses of the writer, and the flag is 0 until it is written. -/
def Before (d f a b : BitVec 64) (p : Nat) (tr : Trace Bool) (mem : VMem) : Prop :=
  (p = 0 ∧ tr = [] ∨ (∃ v, p = 1 ∧ tr = [ev8 false .notAtomic a v (some (some d))]) ∨
    ∃ v v', p = 2 ∧ tr = [ev8 false .notAtomic a v (some (some d)), ev8 false .release b v' (some (some f))]) ∧
  (p < 2 → mem.read b 8 = some 0#64)

/-- After the reader has loaded the flag: it has found 0, or the writer was done before. -/
def After (d f a b : BitVec 64) (p q : Nat) (tr : Trace Bool) : Prop :=
  (∀ e ∈ tr, e.thread = true → e.addr = b → e.old = VMem.read (fun _ => some 0#8) 0#64 e.n) ∨
  ∃ v v' v'', p = 2 ∧
    (q = 1 ∧ tr = [ev8 false .notAtomic a v (some (some d)), ev8 false .release b v' (some (some f)), ev8 true .acquire b v'' none] ∨
     ∃ u, q = 2 ∧ tr = [ev8 false .notAtomic a v (some (some d)), ev8 false .release b v' (some (some f)),
        ev8 true .acquire b v'' none, ev8 true .notAtomic a u none])

structure TraceInv (slide : BitVec 64) (cfg : Cfg) (d f a b : BitVec 64) (tr : Trace Bool) (y : System Bool St) (p q : Nat) : Prop where
  w : Wphase slide cfg d f a b p (y.threads false)
  r : Rphase slide cfg a b q (y.threads true)
  before : q = 0 → Before d f a b p tr y.mem
  after : 0 < q → After d f a b p q tr

theorem zero_read : VMem.read (fun _ => some 0#8) 0#64 8 = some 0#64 := by decide

theorem trace_step {tr : Trace Bool} {y y' : System Bool St} {p q : Nat} (hab : Apart a b) (h : TraceInv slide cfg d f a b tr y p q) (t : Bool)
    (hs : y.step (fun _ => aProg slide cfg msgCode) t = some y') : ∃ p q, TraceInv slide cfg d f a b (tr ++ y.event t) y' p q := by
  obtain ⟨hw, hr, hb, ha⟩ := h
  cases t with
  | false =>
    obtain ⟨ht, hc⟩ := wstep hw hs
    rcases hc with ⟨he, hm, hw'⟩ | ⟨rfl, he, hm, hw'⟩ | ⟨rfl, he, hm, hw'⟩
    · refine ⟨p, q, hw', ht ▸ hr, ?_, ?_⟩
      · rw [he, hm, List.append_nil]; exact hb
      · rw [he, List.append_nil]; exact ha
    · refine ⟨1, q, hw', ht ▸ hr, ?_, ?_⟩
      · intro hq
        obtain ⟨hsh, hmem⟩ := hb hq
        rcases hsh with ⟨-, rfl⟩ | ⟨v, hp, -⟩ | ⟨v, v', hp, -⟩
        · refine ⟨.inr (.inl ⟨_, rfl, by rw [he]; rfl⟩), fun _ => ?_⟩
          rw [← hmem (by omega), hm]
          refine vread_congr _ _ _ _ fun i hi => ?_
          simp only [VMem.write, if_neg (hab.1 i hi)]
        · omega
        · omega
      · intro hq
        rcases ha hq with h | ⟨_, _, _, hp, -⟩
        · refine .inl fun e hmem ht => ?_
          rw [he, List.mem_append] at hmem
          rcases hmem with hmem | hmem
          · exact h e hmem ht
          · rw [List.mem_singleton] at hmem
            subst hmem
            cases ht
        · omega
    · refine ⟨2, q, hw', ht ▸ hr, ?_, ?_⟩
      · intro hq
        obtain ⟨hsh, hmem⟩ := hb hq
        rcases hsh with ⟨hp, -⟩ | ⟨v, -, rfl⟩ | ⟨v, v', hp, -⟩
        · omega
        · exact ⟨.inr (.inr ⟨_, _, rfl, by rw [he]; rfl⟩), fun h => by omega⟩
        · omega
      · intro hq
        rcases ha hq with h | ⟨_, _, _, hp, -⟩
        · refine .inl fun e hmem ht => ?_
          rw [he, List.mem_append] at hmem
          rcases hmem with hmem | hmem
          · exact h e hmem ht
          · rw [List.mem_singleton] at hmem
            subst hmem
            cases ht
        · omega
  | true =>
    obtain ⟨ht, hm, hc⟩ := rstep hr hs
    rcases hc with ⟨he, hr'⟩ | ⟨rfl, he, hr'⟩ | ⟨rfl, he, hr'⟩
    · refine ⟨p, q, ht ▸ hw, hr', ?_, ?_⟩
      · rw [he, hm, List.append_nil]; exact hb
      · rw [he, List.append_nil]; exact ha
    · refine ⟨p, 1, ht ▸ hw, hr', fun h => by omega, fun _ => ?_⟩
      obtain ⟨hsh, hmem⟩ := hb rfl
      rcases hsh with ⟨hp, rfl⟩ | ⟨v, hp, rfl⟩ | ⟨v, v', hp, rfl⟩
      · refine .inl fun e hmem' h1 h2 => ?_
        rw [he, List.nil_append, List.mem_singleton] at hmem'
        subst hmem'
        rw [hmem (by omega)]
        exact zero_read.symm
      · refine .inl fun e hmem' h1 h2 => ?_
        rw [he, List.mem_append, List.mem_singleton, List.mem_singleton] at hmem'
        rcases hmem' with rfl | rfl
        · cases h1
        · rw [hmem (by omega)]
          exact zero_read.symm
      · exact .inr ⟨v, v', _, hp, .inl ⟨rfl, by rw [he]; rfl⟩⟩
    · refine ⟨p, 2, ht ▸ hw, hr', fun h => by omega, fun _ => ?_⟩
      rcases ha (by omega) with h | ⟨v, v', v'', hp, ⟨-, rfl⟩ | ⟨u, hq, -⟩⟩
      · refine .inl fun e hmem h1 h2 => ?_
        rw [he, List.mem_append, List.mem_singleton] at hmem
        rcases hmem with hmem | rfl
        · exact h e hmem h1 h2
        · exfalso
          have h3 := hab.1 0 (by omega)
          rw [show a = b from h2] at h3
          simp at h3
      · exact .inr ⟨v, v', v'', hp, .inr ⟨_, rfl, by rw [he]; rfl⟩⟩
      · omega

theorem trace_inv (hab : Apart a b) (ts : List Bool) (tr tr' : Trace Bool) (y y' : System Bool St) (p q : Nat)
    (h : TraceInv slide cfg d f a b tr y p q)
    (hs : System.trace (fun _ => aProg slide cfg msgCode) ts y = some (tr', y')) : ∃ p q, TraceInv slide cfg d f a b (tr ++ tr') y' p q := by
  induction ts generalizing tr tr' y p q with
  | nil => cases hs; rw [List.append_nil]; exact ⟨p, q, h⟩
  | cons t ts ih =>
    simp only [System.trace, Option.bind_eq_some_iff, Option.map_eq_some_iff] at hs
    obtain ⟨y1, h1, ⟨tr1, y2⟩, h2, h3⟩ := hs
    cases h3
    obtain ⟨p', q', h'⟩ := trace_step hab h t h1
    rw [← List.append_assoc]
    exact ih _ _ _ _ _ h' h2

/-- C63 for the threads of `C62_a64_message`: for every schedule, if the reader's LDAR has found a flag that is not 0 (not the value of
as many zero bytes), LLVM lets its LDR
see, at every byte, the data of the writer and nothing else. -/
theorem C63_a64_message (cfg : Cfg) (slide d f a b : BitVec 64) (hab : Apart a b) (regs : Bool → St) (mem : VMem)
    (hw : (regs false).gp 1 = some d ∧ (regs false).gp 2 = some a ∧ (regs false).gp 3 = some f ∧ (regs false).gp 4 = some b)
    (hwpc : (regs false).pc.val slide = some 0x1000#64) (hr : (regs true).gp 2 = some a ∧ (regs true).gp 4 = some b)
    (hrpc : (regs true).pc.val slide = some 0x2000#64) (hflag : mem.read b 8 = some 0#64) (schedule : List Bool) (tr : Trace Bool)
    (y : System Bool St)
    (h : System.trace (fun _ => aProg slide cfg msgCode) schedule { threads := fun t => .done (regs t), mem } = some (tr, y))
    (k r : Nat) (e g : Ev Bool) (hk : tr[k]? = some e) (he : e.thread = true ∧ e.addr = b)
    (hseen : e.old ≠ VMem.read (fun _ => some 0#8) 0#64 e.n) (hr' : tr[r]? = some g) (hg : g.thread = true ∧ g.addr = a) :
    ∃ i w, tr[i]? = some w ∧ w.thread = false ∧ w.addr = a ∧ w.n = 8 ∧ ∀ x, g.hits x → tr.sees x r (some i) := by
  have h0 : TraceInv slide cfg d f a b [] { threads := fun t => .done (regs t), mem } 0 0 :=
    ⟨⟨by omega, _, hw, hwpc, .inl rfl⟩, ⟨by omega, _, hr, hrpc, .inl rfl⟩, fun _ => ⟨.inl ⟨rfl, rfl⟩, fun _ => hflag⟩, fun h => by omega⟩
  obtain ⟨p, q, hi⟩ := trace_inv hab schedule _ _ _ _ _ _ h0 h
  rw [List.nil_append] at hi
  have hne : a ≠ b := by
    rintro rfl
    have := hab.1 0 (by omega)
    simp at this
  have hmem : e ∈ tr := List.mem_of_getElem? hk
  have hmem' : g ∈ tr := List.mem_of_getElem? hr'
  rcases Nat.eq_zero_or_pos q with hq | hq
  · exfalso
    rcases (hi.before hq).1 with ⟨-, rfl⟩ | ⟨v, -, rfl⟩ | ⟨v, v', -, rfl⟩
    · cases hmem
    · rw [List.mem_singleton] at hmem; subst hmem; cases he.1
    · simp only [List.mem_cons, List.not_mem_nil, or_false] at hmem
      rcases hmem with rfl | rfl <;> cases he.1
  · rcases hi.after hq with hz | ⟨v, v', v'', -, ⟨-, rfl⟩ | ⟨u, -, rfl⟩⟩
    · exact absurd (hz e hmem he.1 he.2) hseen
    · exfalso
      simp only [List.mem_cons, List.not_mem_nil, or_false] at hmem'
      rcases hmem' with rfl | rfl | rfl
      · cases hg.1
      · cases hg.1
      · exact hne hg.2.symm
    · have hr3 : r = 3 ∧ g = ev8 true .notAtomic a u none := by
        match r with
        | 0 => cases hr'; cases hg.1
        | 1 => cases hr'; cases hg.1
        | 2 => cases hr'; exact absurd hg.2.symm hne
        | 3 => cases hr'; exact ⟨rfl, rfl⟩
        | r + 4 => simp at hr'
      obtain ⟨rfl, rfl⟩ := hr3
      refine ⟨0, _, rfl, rfl, rfl, rfl, fun x hx => ?_⟩
      refine C63_message (x := 1) (z := 1) (y := 2) ⟨_, rfl, hx, rfl⟩ ?_ (.inr ⟨by omega, _, _, rfl, rfl, rfl⟩) .head ?_
        (.inr ⟨by omega, _, _, rfl, rfl, rfl⟩) ⟨_, rfl, ⟨rfl, fun h => Ord.noConfusion h⟩, trivial⟩ ⟨_, rfl, ⟨rfl, fun h => Ord.noConfusion h⟩, rfl, trivial⟩
      · intro k hk
        match k with
        | 0 => rfl
        | 1 =>
          exfalso
          obtain ⟨w, hw1, hw2, -⟩ := hk
          cases hw1
          have h1 : (x - a).toNat < 8 := hx
          have h2 : (x - b).toNat < 8 := hw2
          have := hab.2 (x - a).toNat h1
          rw [BitVec.ofNat_toNat, BitVec.setWidth_eq, BitVec.add_comm, BitVec.sub_add_cancel] at this
          exact this h2
        | 2 => obtain ⟨w, hw1, -, hw3⟩ := hk; cases hw1; cases hw3
        | 3 => obtain ⟨w, hw1, -, hw3⟩ := hk; cases hw1; cases hw3
        | k + 4 => obtain ⟨w, hw1, -⟩ := hk; simp at hw1
      · exact ⟨by omega, _, _, rfl, rfl, rfl, rfl, Nat.succ_pos 7, rfl, fun k h1 h2 => by omega⟩

/-- The hypotheses of `C63_a64_message` are met: the flag is found at position 2, the data are read at position 3. -/
example : ((System.trace (fun _ => aProg 0 {} msgCode) [false, false, false, true, false, true, true, true]
      { threads := fun t => .done (msgRegs t), mem := msgCpus.mem.toV }).map fun p =>
      (p.1.map Ev.shape, p.1.map fun e => e.old.map (·.toNat))) =
    some ([⟨false, false, .notAtomic, 64#64, 8, true⟩, ⟨false, false, .release, 128#64, 8, true⟩,
      ⟨true, false, .acquire, 128#64, 8, false⟩, ⟨true, false, .notAtomic, 64#64, 8, false⟩], [some 0, some 0, some 1, some 42]) := by
  decide +kernel

end Verif.Conc.A64
