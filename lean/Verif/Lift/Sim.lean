import Verif.Lift.Final
import Verif.Lift.Spec

/-! The flat execution of the lifted function follows the guest machine. -/

namespace Verif.Lift

open Verif.Decode Verif.IR

set_option linter.unusedSimpArgs false

variable {P R V M MS : Type}

theorem run_add (G : Guest P MS) (code : Decoder P) (slide : BitVec 64) (a : Nat) :
    ∀ (b : Nat) (m : MS), G.run code slide (a + b) m
      = (G.run code slide a m).bind (G.run code slide b) := by
  induction a with
  | zero => intro b m; simp [Guest.run]
  | succ a ih =>
    intro b m
    rw [Nat.succ_add, Guest.run, Guest.run]
    cases G.next code slide m with
    | none => rfl
    | some m' => simp only [Option.bind_some]; exact ih b m'

theorem next_eq {G : Guest P MS} {code : Decoder P} {slide : BitVec 64} {m : MS} {i : Inst P}
    (hc : code i.start = some (i.len, i.payload)) (hp : G.pc m = i.start + slide) :
    G.next code slide m = G.step i m := by
  have : G.pc m - slide = i.start := by rw [hp, BitVec.add_sub_cancel]
  simp [Guest.next, this, hc]

/-- State of the flat execution and machine state agree. -/
def Agrees (G : Guest P MS) (slide : BitVec 64) (rel : MS → (R → V) → M → Prop) (m : MS)
    (s : St R V M) : Prop :=
  rel m s.regs s.mem ∧ s.pc.val slide = some (G.pc m)

theorem body_sim {cls : Classifier P} {L : Lifter P R V M} {G : Guest P MS} {code : Decoder P}
    {slide : BitVec 64} {rel : MS → (R → V) → M → Prop} (ds : List (DInstr P)) :
    ∀ (d : DInstr P) (m : MS) (s : St R V M),
      (∀ x ∈ d :: ds, code x.inst.start = some (x.inst.len, x.inst.payload)) →
      (∀ x ∈ d :: ds, Correct L G slide rel x.inst) →
      (∀ x ∈ d :: ds, PlainFalls cls L.toSLifter G slide x.inst) →
      List.IsChain (Follows cls) (d :: ds) →
      rel m s.regs s.mem → G.pc m = d.inst.start + slide →
      G.StuckIn code slide ((lifted L.toSLifter (d :: ds)).map DInstr.inst) m ∨
      ∃ j m' s', G.run code slide j m = some m' ∧
        execBody L slide ((lifted L.toSLifter (d :: ds)).map DInstr.inst) s = some s' ∧
        Agrees G slide rel m' s' ∧
        (L.form (lastOf L.toSLifter d ds).inst ≠ .returned →
          formOf s'.pc = L.form (lastOf L.toSLifter d ds).inst) ∧
        (L.ok (lastOf L.toSLifter d ds).inst = true → 0 < j) ∧
        (L.ok (lastOf L.toSLifter d ds).inst = false →
          L.form (lastOf L.toSLifter d ds).inst = .value) ∧
        (L.ok d.inst = true → 0 < j) ∧
        j = (lifted L.toSLifter (d :: ds)).countP (fun x => L.ok x.inst) ∧
        G.Follow L.ok slide ((lifted L.toSLifter (d :: ds)).map DInstr.inst) m m' := by
  induction ds with
  | nil =>
    intro d m s hcode hcorr hpl hch hrel hpc
    have hc := hcode d (by simp)
    have hC := hcorr d (by simp)
    have hlast : lastOf L.toSLifter d [] = d := by
      simp only [lastOf, lifted]; split <;> rfl
    have hl : lifted L.toSLifter [d] = [d] := by simp [lifted]
    rw [hlast, hl]
    cases hok : L.ok d.inst with
    | true =>
      cases hst : G.step d.inst m with
      | none =>
        left
        exact ⟨0, m, d.inst, rfl, rfl, rfl, hpc, hst⟩
      | some m' =>
        right
        obtain ⟨s', h1, h2, h3, h4⟩ := hC.lifted hok m m' s hrel hpc hst
        refine ⟨1, m', s', ?_, ?_, ⟨h2, h3⟩, h4, fun _ => by omega, by simp, fun _ => by omega, by simp [hok],
          by simp [Guest.Follow, hok, hpc, hst]⟩
        · simp [Guest.run, next_eq hc hpc, hst]
        · simp [execBody, h1]
    | false =>
      right
      obtain ⟨hf, h0⟩ := hC.failed hok
      obtain ⟨s', h1, h2, h3, h4⟩ := h0 m s hrel hpc
      refine ⟨0, m, s', rfl, ?_, ⟨h2, h3⟩, fun _ => by rw [h4, hf], by simp, fun _ => hf, by simp, by simp [hok],
        by simp [Guest.Follow, hok, hpc]⟩
      simp [execBody, h1]
  | cons e ds ih =>
    intro d m s hcode hcorr hpl hch hrel hpc
    have hc := hcode d (by simp)
    have hC := hcorr d (by simp)
    cases hok : L.ok d.inst with
    | false =>
      right
      have hl : lifted L.toSLifter (d :: e :: ds) = [d] := by simp [lifted, hok]
      have hlast : lastOf L.toSLifter d (e :: ds) = d := by
        simp only [lastOf, hl]; rfl
      rw [hlast, hl]
      obtain ⟨hf, h0⟩ := hC.failed hok
      obtain ⟨s', h1, h2, h3, h4⟩ := h0 m s hrel hpc
      refine ⟨0, m, s', rfl, ?_, ⟨h2, h3⟩, fun _ => by rw [h4, hf], by simp [hok], fun _ => hf, by simp,
        by simp [hok], by simp [Guest.Follow, hok, hpc]⟩
      simp [execBody, h1]
    | true =>
      have hl : lifted L.toSLifter (d :: e :: ds) = d :: lifted L.toSLifter (e :: ds) := by
        simp [lifted, hok]
      have hlast : lastOf L.toSLifter d (e :: ds) = lastOf L.toSLifter e ds := by
        simp only [lastOf, hl]
        exact List.getLast_cons (lifted_ne_nil _ e ds)
      rw [hlast, hl]
      cases hst : G.step d.inst m with
      | none =>
        left
        exact ⟨0, m, d.inst, rfl, rfl, rfl, hpc, hst⟩
      | some m1 =>
        obtain ⟨s1, h1, h2, h3, h4⟩ := hC.lifted hok m m1 s hrel hpc hst
        have hfo : Follows cls d e := by
          cases hch with
          | cons_cons h _ => exact h
        have hch' : List.IsChain (Follows cls) (e :: ds) := by
          cases hch with
          | cons_cons _ h => exact h
        have hm1 : G.pc m1 = e.inst.start + slide := by
          rcases hpl d (by simp) hfo.2 hok with hform | hfall
          · have hpc1 : s1.pc = .const d.inst.stop := by
              have := h4 (by rw [hform]; simp)
              rw [hform] at this
              cases hp : s1.pc with
              | const a => rw [hp] at this; simp only [formOf, Form.const.injEq] at this; rw [this]
              | value v => rw [hp] at this; cases this
              | cond c a b => rw [hp] at this; cases this
              | check v a => rw [hp] at this; cases this
            rw [hpc1, Pc.val_const, hfo.1] at h3
            simpa using h3.symm
          · rw [hfall m m1 hpc hst, hfo.1]
        have hr1 : G.run code slide 1 m = some m1 := by
          simp [Guest.run, next_eq hc hpc, hst]
        rcases ih e m1 s1 (fun x hx => hcode x (List.mem_cons_of_mem _ hx))
          (fun x hx => hcorr x (List.mem_cons_of_mem _ hx))
          (fun x hx => hpl x (List.mem_cons_of_mem _ hx)) hch' h2 hm1 with ⟨j, m2, i, hj, hfw, hn, hp, hs⟩ |
            ⟨j, m', s', k1, k2, k3, k4, k5, k6, -, k8, k9⟩
        · left
          refine ⟨j + 1, m2, i, ?_, ?_, by rw [Nat.add_comm, run_add, hr1]; exact hn, hp, hs⟩
          · rw [List.map_cons, List.getElem?_cons_succ]; exact hj
          · rw [List.map_cons, List.take_succ_cons]
            exact ⟨hpc, by rw [if_pos rfl]; exact ⟨m1, hst, hfw⟩⟩
        · right
          refine ⟨1 + j, m', s', ?_, ?_, k3, k4, fun _ => by omega, k6, fun _ => by omega,
            by rw [List.countP_cons_of_pos (by exact hok), ← k8]; omega,
            ⟨hpc, by rw [if_pos hok]; exact ⟨m1, hst, k9⟩⟩⟩
          · rw [run_add, hr1]; exact k1
          · simp only [List.map_cons, execBody, h1, Option.bind_some]; exact k2

/-- The position of the flat execution matches the machine's program counter. -/
def InPlace (G : Guest P MS) (slide : BitVec 64) (m : MS) : Id → Prop
  | .at a => G.pc m = a + slide
  | .exit => True
  | .entry => False

/-- The successor of a block that ends with an instruction of the form `f`, in terms of the guest's program
counter. -/
def termAt (f : Form) (slide pc : BitVec 64) : Term → Id
  | .br t => t
  | .cond t e =>
    match f with
    | .cond a _ => if pc = a + slide then t else e
    | .check a => if pc = a + slide then t else e
    | _ => e

theorem term_next {L : Lifter P R V M} {fn : Fn P} {G : Guest P MS}
    {slide : BitVec 64} {d : DInstr P} {m : MS} {pc : Pc} {t : Term}
    (hv : pc.val slide = some (G.pc m))
    (hform : formOf pc = L.form d.inst)
    (hfold : L.ok d.inst = true → ∀ b, L.fold d.inst = some b → pcCond slide pc = some (BitVec.ofBool b))
    (hfail : L.ok d.inst = false → L.form d.inst = .value)
    (ht : termOf L.toSLifter fn d = some t) :
    ∃ b, t.next slide pc = some b ∧ InPlace G slide m b ∧ (b ≠ .exit → L.ok d.inst = true) ∧
      b = termAt (L.form d.inst) slide (G.pc m) t := by
  have hin : ∀ a, G.pc m = a + slide → InPlace G slide m (target fn a) := by
    intro a h
    rcases target_exit_or fn a with ht | ht <;> rw [ht]
    · trivial
    · exact h
  have hokne : L.form d.inst ≠ .value → L.ok d.inst = true := by
    intro h
    by_contra hn
    exact h (hfail (by simpa using hn))
  have hexit : ∃ b, (Term.br .exit).next slide pc = some b ∧ InPlace G slide m b ∧
      (b ≠ .exit → L.ok d.inst = true) ∧ b = termAt (L.form d.inst) slide (G.pc m) (.br .exit) :=
    ⟨.exit, rfl, trivial, by simp, rfl⟩
  have key : L.form d.inst ≠ .value → ∀ a1 a2 c, pcCond slide pc = some (BitVec.ofBool c) →
      (c = true → InPlace G slide m (target fn a1)) →
      (c = false → InPlace G slide m (target fn a2)) →
      (target fn a1 ≠ target fn a2 → (if c then target fn a1 else target fn a2) =
        termAt (L.form d.inst) slide (G.pc m) (.cond (target fn a1) (target fn a2))) →
      ∃ b, (pcTerm fn (L.fold d.inst) a1 a2).next slide pc = some b ∧ InPlace G slide m b ∧
        (b ≠ .exit → L.ok d.inst = true) ∧
        b = termAt (L.form d.inst) slide (G.pc m) (pcTerm fn (L.fold d.inst) a1 a2) := by
    intro hne a1 a2 c hc h1 h2 h3
    have hok := hokne hne
    cases hfd : L.fold d.inst with
    | none =>
      simp only [pcTerm]
      split
      next he =>
        refine ⟨_, rfl, ?_, fun _ => hok, rfl⟩
        cases c with
        | true => exact h1 rfl
        | false => rw [he]; exact h2 rfl
      next he =>
        cases c with
        | true => exact ⟨_, by simp only [Term.next, hc]; rfl, h1 rfl, fun _ => hok, h3 he⟩
        | false => exact ⟨_, by simp only [Term.next, hc]; rfl, h2 rfl, fun _ => hok, h3 he⟩
    | some b =>
      have := hfold hok b hfd
      rw [hc] at this
      have hcb : c = b := by
        cases c <;> cases b <;> first | rfl | (exfalso; revert this; decide)
      subst hcb
      cases c with
      | true => exact ⟨_, rfl, h1 rfl, fun _ => hok, rfl⟩
      | false => exact ⟨_, rfl, h2 rfl, fun _ => hok, rfl⟩
  unfold termOf at ht
  cases hp : pc with
  | value v =>
    rw [hp] at hform
    simp only [formOf] at hform
    rw [← hform] at ht
    simp only [Option.some.injEq] at ht
    subst ht; rw [hp] at hexit; exact hexit
  | const a =>
    rw [hp] at hform hv hexit
    simp only [formOf] at hform
    rw [← hform] at ht
    simp only [Option.some.injEq] at ht
    subst ht
    split
    · exact hexit
    · refine ⟨_, rfl, hin a ?_, fun _ => hokne (by rw [← hform]; simp), rfl⟩
      rw [Pc.val_const] at hv; simpa using hv.symm
  | cond c a b =>
    rw [hp] at hform hv hexit key
    simp only [formOf] at hform
    rw [← hform] at ht
    simp only [Option.some.injEq] at ht
    subst ht
    split
    · exact hexit
    · have hne : L.form d.inst ≠ .value := by rw [← hform]; simp
      cases c with
      | none => simp [Pc.val, Pc.get, select] at hv
      | some c =>
        obtain ⟨c', rfl⟩ : ∃ c' : Bool, c = BitVec.ofBool c' := ⟨c == 1#1, by clear key hexit hv hp; revert c; decide⟩
        rw [Pc.val_cond] at hv
        refine key hne a b c' rfl ?_ ?_ ?_
        · rintro rfl; exact hin a (by simpa using hv.symm)
        · rintro rfl; exact hin b (by simpa using hv.symm)
        · intro hab
          rw [← hform]
          simp only [termAt]
          cases c' with
          | true => rw [if_pos rfl, if_pos (by simpa using hv.symm)]
          | false =>
            have hv : b + slide = G.pc m := by simpa using hv
            rw [if_neg (by simp), if_neg]
            intro h
            rw [← hv, BitVec.add_left_inj] at h
            exact hab (by rw [h])
  | check v a =>
    rw [hp] at hform hv hexit key
    simp only [formOf] at hform
    rw [← hform] at ht
    simp only [Option.some.injEq] at ht
    subst ht
    split
    · exact hexit
    · have hne : L.form d.inst ≠ .value := by rw [← hform]; simp
      cases v with
      | none => simp [Pc.val, Pc.get, add, bin] at hv
      | some v =>
        rw [Pc.val_check] at hv
        simp only [Option.some.injEq] at hv
        refine key hne a 0 (v == a + slide) ?_ ?_ ?_ ?_
        · rfl
        · intro h; exact hin a (by rw [← hv]; simpa using h)
        · intro _; rw [target_zero]; trivial
        · intro _
          rw [← hform, ← hv]
          simp only [termAt, beq_iff_eq]

theorem next_mem {slide : BitVec 64} {pc : Pc} {t : Term} {b : Id} (h : t.next slide pc = some b) :
    b ∈ succsOf t := by
  cases t with
  | br t => simp only [Term.next, Option.some.injEq] at h; simp [succsOf, h]
  | cond t e =>
    simp only [Term.next] at h
    split at h
    · cases h
    · simp only [Option.some.injEq] at h
      subst h
      simp only [succsOf]
      split <;> simp

theorem run_of_start {fn : Fn P} {bs : List (Run P)} (hf : flat bs = fn.instrs) (hs : Shape bs)
    {a : Addr} (h : fn.BlockStart a) : ∃ b ∈ bs, b.1.inst.start = a := by
  obtain ⟨d, hd, ha, hn⟩ := h
  rw [← hf] at hd
  simp only [flat, List.mem_flatMap, List.mem_cons] at hd
  obtain ⟨b, hb, rfl | hd⟩ := hd
  · exact ⟨b, hb, ha⟩
  · rw [(hs b hb).2 d hd] at hn; cases hn

theorem run_mem {fn : Fn P} {bs : List (Run P)} (hf : flat bs = fn.instrs) {b : Run P}
    (hb : b ∈ bs) : ∀ x ∈ b.1 :: b.2, x ∈ fn.instrs := by
  intro x hx
  rw [← hf]
  simp only [flat, List.mem_flatMap]
  exact ⟨b, hb, hx⟩

theorem lifted_sub (L : SLifter P) : ∀ (l : List (DInstr P)), ∀ x ∈ lifted L l, x ∈ l := by
  intro l
  induction l with
  | nil => intro x hx; exact hx
  | cons y l ih =>
    intro x hx
    rw [lifted] at hx
    split at hx
    · rcases List.mem_cons.1 hx with rfl | hx
      · simp
      · exact List.mem_cons_of_mem _ (ih x hx)
    · simp only [List.mem_singleton] at hx; simp [hx]

theorem lastOf_mem (L : SLifter P) (d : DInstr P) (ds : List (DInstr P)) :
    lastOf L d ds ∈ d :: ds := by
  exact lifted_sub L _ _ (List.getLast_mem _)

/-- The flat execution agrees with the machine. -/
def SimCfg (fn : Fn P) (e : Addr) (G : Guest P MS) (slide : BitVec 64)
    (rel : MS → (R → V) → M → Prop) (m : MS) : Cfg R V M → Prop
  | .at .entry s => Agrees G slide rel m s ∧ G.pc m = e + slide
  | .at .exit s => Agrees G slide rel m s
  | .at (.at a) s => Agrees G slide rel m s ∧ G.pc m = a + slide ∧ a ≠ 0 ∧ fn.BlockStart a
  | .done _ c => rel m c.slot c.mem ∧ c.pc = some (G.pc m)

/-- The hypotheses of the simulation. -/
structure Setup (cls : Classifier P) (L : Lifter P R V M) (G : Guest P MS) (code : Decoder P)
    (slide : BitVec 64) (rel : MS → (R → V) → M → Prop) (fn : Fn P) : Prop where
  wf : WF cls fn
  genuine : ∀ i ∈ fn.insts, code i.start = some (i.len, i.payload)
  correct : ∀ i ∈ fn.insts, Correct L G slide rel i
  plain : ∀ i ∈ fn.insts, PlainFalls cls L.toSLifter G slide i

/-- Where execution stands, without the state. -/
inductive Loc where
  | at (b : Id)
  | done (viaExit : Bool)
  deriving DecidableEq

def Cfg.loc : Cfg R V M → Loc
  | .at b _ => .at b
  | .done v _ => .done v

/-- The instructions of the block where execution stands. -/
def bodyAt (g : Graph P) : Loc → List (Inst P)
  | .at (.at a) =>
    match g (.at a) with
    | some bb => bb.body
    | none => []
  | _ => []

/-- Where execution goes from a block, in terms of the guest's program counter. -/
def nextLoc (L : SLifter P) (slide : BitVec 64) (g : Graph P) (pc : BitVec 64) : Loc → Loc
  | .done v => .done v
  | .at .exit => .done true
  | .at b =>
    match g b with
    | none => .done false
    | some bb =>
      match bb.term with
      | none => .done false
      | some t => .at (termAt ((bb.body.getLast?.map L.form).getD .value) slide pc t)

/-- The walk of the guest machine through the blocks of the lifted function, starting in state `m`: after `k`
blocks and `n` instructions it stands at a place, in some state. -/
inductive Walk (L : SLifter P) (slide : BitVec 64) (g : Graph P) (G : Guest P MS) (m : MS) :
    Nat → Nat → Loc → MS → Prop where
  | start : Walk L slide g G m 0 0 (.at .entry) m
  | step {k n : Nat} {l : Loc} {m1 m2 : MS} : Walk L slide g G m k n l m1 →
      G.Follow L.ok slide (bodyAt g l) m1 m2 →
      Walk L slide g G m (k + 1) (n + (bodyAt g l).countP L.ok) (nextLoc L slide g (G.pc m2) l) m2

theorem flat_step {cls : Classifier P} {L : Lifter P R V M} {G : Guest P MS} {code : Decoder P}
    {slide : BitVec 64} {rel : MS → (R → V) → M → Prop} {fn : Fn P} {e : Addr} {bs : List (Run P)}
    {g0 : Graph P} (S : Setup cls L G code slide rel fn) (hf : flat bs = fn.instrs)
    (hs : Shape bs) (he : e ≠ 0 ∧ fn.BlockStart e)
    (H : GInv L.toSLifter (countEntry fn e) e bs g0) {m : MS} {c : Cfg R V M}
    (hc : SimCfg fn e G slide rel m c)
    (hfold : ∀ b s bb s' i v, c = .at b s → sealExit g0 b = some bb →
      execBody L slide bb.body s = some s' → bb.body.getLast? = some i → L.fold i = some v →
      pcCond slide s'.pc = some (BitVec.ofBool v)) :
    (∃ a s bb, c = .at (.at a) s ∧ sealExit g0 (.at a) = some bb ∧ G.StuckIn code slide bb.body m) ∨
    ∃ j m' c', G.run code slide j m = some m' ∧ stepBlock L slide (sealExit g0) c = some c' ∧
      SimCfg fn e G slide rel m' c' ∧
      ((∃ s, c = .at .entry s) ∨ (∀ a s, c' = .at (.at a) s → 0 < j)) ∧
      (∀ s, c' ≠ .at .entry s) ∧
      (∀ a s, c = .at (.at a) s → (∀ d ∈ fn.instrs, d.inst.start = a → L.ok d.inst = true) → 0 < j) ∧
      j = (bodyAt (sealExit g0) c.loc).countP L.ok ∧
      c'.loc = nextLoc L.toSLifter slide (sealExit g0) (G.pc m') c.loc ∧
      G.Follow L.ok slide (bodyAt (sealExit g0) c.loc) m m' := by
  cases c with
  | done v c => exact .inr ⟨0, m, .done v c, rfl, rfl, hc, .inr (by intro a s h; cases h),
      (by intro s h; cases h), (by intro a s h; cases h), rfl, rfl, rfl⟩
  | «at» b s =>
    cases b with
    | exit =>
      refine .inr ⟨0, m, .done true (s.pack slide), rfl, rfl, ?_, .inr (by intro a s h; cases h),
        (by intro s h; cases h), (by intro a s h; cases h), rfl, rfl, rfl⟩
      exact hc
    | entry =>
      refine .inr ⟨0, m, .at (.at e) s, rfl, ?_, ?_, .inl ⟨s, rfl⟩, (by intro s h; cases h),
        (by intro a s h; cases h), rfl, (by
          have : sealExit g0 .entry = _ := H.entryB
          simp only [Cfg.loc, nextLoc, this]; rfl), rfl⟩
      · have : sealExit g0 .entry = _ := H.entryB
        simp only [stepBlock, this, execBody, Term.next, Option.map_some]
      · exact ⟨hc.1, hc.2, he⟩
    | «at» a =>
      obtain ⟨⟨hrel, hv⟩, hpc, ha0, hst⟩ := hc
      obtain ⟨b, hb, rfl⟩ := run_of_start hf hs hst
      obtain ⟨-, bb, hbb, hB⟩ := H.built b hb
      have hgb : sealExit g0 (.at b.1.inst.start) = some bb := hbb
      have hmem : ∀ x ∈ b.1 :: b.2, x.inst ∈ fn.insts := by
        intro x hx
        exact List.mem_map.2 ⟨x, run_mem hf hb x hx, rfl⟩
      rcases body_sim (cls := cls) (L := L) (G := G) (code := code) (slide := slide) (rel := rel)
        b.2 b.1 m s (fun x hx => S.genuine _ (hmem x hx)) (fun x hx => S.correct _ (hmem x hx))
        (fun x hx => S.plain _ (hmem x hx)) (chain_run S.wf hf hs hb) hrel hpc with
        hstk | ⟨j, m', s', k1, k2, ⟨k3, k3'⟩, k4, k5, k6, k7, kj, kf⟩
      · exact .inl ⟨_, _, bb, rfl, hgb, by rw [hB.body]; exact hstk⟩
      · right
        have k8 : ∀ a s0, Cfg.at (.at b.1.inst.start) s = .at (.at a) s0 →
            (∀ d ∈ fn.instrs, d.inst.start = a → L.ok d.inst = true) → 0 < j := by
          intro a s0 h hok
          cases h
          exact k7 (hok b.1 (run_mem hf hb _ (by simp)) rfl)
        have hat : bodyAt (sealExit g0) (Cfg.at (.at b.1.inst.start) s : Cfg R V M).loc = bb.body := by
          simp only [Cfg.loc, bodyAt, hgb]
        have k9 : j = (bodyAt (sealExit g0) (Cfg.at (.at b.1.inst.start) s : Cfg R V M).loc).countP L.ok := by
          rw [hat, hB.body, List.countP_map]
          exact kj
        have k10 : G.Follow L.ok slide
            (bodyAt (sealExit g0) (Cfg.at (.at b.1.inst.start) s : Cfg R V M).loc) m m' := by
          rw [hat, hB.body]; exact kf
        have hbody : execBody L slide bb.body s = some s' := by rw [hB.body]; exact k2
        cases ht : termOf L.toSLifter (countEntry fn e) (lastOf L.toSLifter b.1 b.2) with
        | none =>
          have hret : L.form (lastOf L.toSLifter b.1 b.2).inst = .returned := by
            unfold termOf at ht
            split at ht <;> first | assumption | cases ht
          refine ⟨j, m', .done false (s'.pack slide), k1, ?_, ⟨k3, k3'⟩,
            .inr (by intro a s h; cases h), (by intro s h; cases h), k8, k9,
            (by simp only [Cfg.loc, nextLoc, hgb, hB.term, ht]), k10⟩
          simp only [stepBlock, hgb, hbody, hB.term, ht, hB.rf, hret]
          rfl
        | some t =>
          have hret : L.form (lastOf L.toSLifter b.1 b.2).inst ≠ .returned := by
            intro h
            simp [termOf, h] at ht
          have hlast : bb.body.getLast? = some (lastOf L.toSLifter b.1 b.2).inst := by
            rw [hB.body, List.getLast?_map,
              List.getLast?_eq_some_getLast (lifted_ne_nil L.toSLifter b.1 b.2)]
            rfl
          obtain ⟨x, hx, hin, hok, hxe⟩ := term_next k3' (k4 hret)
            (fun _ v hv => hfold _ s bb s' _ v rfl hgb hbody hlast hv) k6 ht
          refine ⟨j, m', .at x s', k1, ?_, ?_, .inr ?_, ?_, k8, k9,
            (by simp only [Cfg.loc, nextLoc, hgb, hB.term, ht, hlast]; rw [hxe]; rfl), k10⟩
          · simp only [stepBlock, hgb, hbody, hB.term, ht, hx, Option.map_some]
          · cases x with
            | entry => exact hin.elim
            | exit => exact ⟨k3, k3'⟩
            | «at» c =>
              have hm : Id.at c ∈ succsOpt (termOf L.toSLifter (countEntry fn e)
                  (lastOf L.toSLifter b.1 b.2)) := by
                rw [ht]; exact next_mem hx
              exact ⟨⟨k3, k3'⟩, hin, pcTerm_valid _ _ _ _ hm⟩
          · intro c s2 h
            cases h
            exact k5 (hok (by simp))
          · intro s2 h
            cases h
            exact hin

theorem runBlocks_succ (L : Lifter P R V M) (slide : BitVec 64) (g : Graph P) (k : Nat) :
    ∀ (c : Cfg R V M), runBlocks L slide g (k + 1) c
      = (runBlocks L slide g k c).bind (stepBlock L slide g) := by
  induction k with
  | zero => intro c; simp only [runBlocks, Option.bind_some]; cases stepBlock L slide g c <;> rfl
  | succ k ih =>
    intro c
    rw [runBlocks]
    conv => rhs; rw [runBlocks]
    cases stepBlock L slide g c with
    | none => rfl
    | some c' => simp only [Option.bind_some]; exact ih c'

/-- Two executions that start with the same guest state, and may differ in what the guest state does not
say, stand at the same place and agree with the same guest state after any number of blocks. -/
theorem flat_pair {cls : Classifier P} {L : Lifter P R V M} {G : Guest P MS} {code : Decoder P}
    {slide : BitVec 64} {rel : MS → (R → V) → M → Prop} {fn : Fn P} {e : Addr} {bs : List (Run P)}
    {g0 : Graph P} (S : Setup cls L G code slide rel fn) (hf : flat bs = fn.instrs)
    (hs : Shape bs) (he : e ≠ 0 ∧ fn.BlockStart e)
    (H : GInv L.toSLifter (countEntry fn e) e bs g0) {m : MS} {s s' : St R V M}
    (hc : SimCfg fn e G slide rel m (.at .entry s)) (hc' : SimCfg fn e G slide rel m (.at .entry s'))
    (hfold : ∀ k b s1 bb s' i v, runBlocks L slide (sealExit g0) k (.at .entry s) = some (.at b s1) →
      sealExit g0 b = some bb → execBody L slide bb.body s1 = some s' → bb.body.getLast? = some i →
      L.fold i = some v → pcCond slide s'.pc = some (BitVec.ofBool v))
    (hfold' : ∀ k b s1 bb s2 i v, runBlocks L slide (sealExit g0) k (.at .entry s') = some (.at b s1) →
      sealExit g0 b = some bb → execBody L slide bb.body s1 = some s2 → bb.body.getLast? = some i →
      L.fold i = some v → pcCond slide s2.pc = some (BitVec.ofBool v))
    (hok : ∀ d ∈ fn.instrs, d.inst.start = e → L.ok d.inst = true) (k : Nat) :
    (∃ k' < k, ∃ n m1 a s1 s1', G.run code slide n m = some m1 ∧
      Walk L.toSLifter slide (sealExit g0) G m k' n (.at (.at a)) m1 ∧
      runBlocks L slide (sealExit g0) k' (.at .entry s) = some (.at (.at a) s1) ∧
      runBlocks L slide (sealExit g0) k' (.at .entry s') = some (.at (.at a) s1') ∧
      SimCfg fn e G slide rel m1 (.at (.at a) s1) ∧ SimCfg fn e G slide rel m1 (.at (.at a) s1') ∧
      ∃ bb, sealExit g0 (.at a) = some bb ∧ G.StuckIn code slide bb.body m1) ∨
    ∃ n m1 c1 c1', G.run code slide n m = some m1 ∧
      runBlocks L slide (sealExit g0) k (.at .entry s) = some c1 ∧
      runBlocks L slide (sealExit g0) k (.at .entry s') = some c1' ∧
      SimCfg fn e G slide rel m1 c1 ∧ SimCfg fn e G slide rel m1 c1' ∧ c1.loc = c1'.loc ∧
      Walk L.toSLifter slide (sealExit g0) G m k n c1.loc m1 ∧
      (∀ a s, c1 = .at (.at a) s → k ≤ n + 1) ∧ (∀ s, c1 = .at .entry s → k = 0) ∧
      (k = 1 → ∃ s, c1 = .at (.at e) s) ∧ (2 ≤ k → 1 ≤ n) ∧
      ∀ s, c1 = .at .exit s → k ≤ n + 2 := by
  induction k with
  | zero => exact .inr ⟨0, m, _, _, rfl, rfl, rfl, hc, hc', rfl, .start, (by intro a s h; cases h), fun _ _ => rfl,
      by omega, by omega, by intro s h; cases h⟩
  | succ k ih =>
    rcases ih with ⟨k', hk, h⟩ | ⟨n, m1, c1, c1', h1, h2, h2', h3, h3', h4, hw, p4, p5, p6, p7, p8⟩
    · exact .inl ⟨k', by omega, h⟩
    · have hL := flat_step S hf hs he H h3
        (fun b s1 bb s' i v hc1 => hfold k b s1 bb s' i v (hc1 ▸ h2))
      have hR := flat_step S hf hs he H h3'
        (fun b s1 bb s' i v hc1 => hfold' k b s1 bb s' i v (hc1 ▸ h2'))
      have hstk : ∀ a bb, c1.loc = .at (.at a) → sealExit g0 (.at a) = some bb →
          G.StuckIn code slide bb.body m1 → ∃ k' < k + 1, ∃ n m1 a s1 s1', G.run code slide n m = some m1 ∧
            Walk L.toSLifter slide (sealExit g0) G m k' n (.at (.at a)) m1 ∧
            runBlocks L slide (sealExit g0) k' (.at .entry s) = some (.at (.at a) s1) ∧
            runBlocks L slide (sealExit g0) k' (.at .entry s') = some (.at (.at a) s1') ∧
            SimCfg fn e G slide rel m1 (.at (.at a) s1) ∧ SimCfg fn e G slide rel m1 (.at (.at a) s1') ∧
            ∃ bb, sealExit g0 (.at a) = some bb ∧ G.StuckIn code slide bb.body m1 := by
        intro a bb hloc hbb hst
        cases c1 with
        | done v c => cases hloc
        | «at» b s1 =>
          cases hloc
          cases c1' with
          | done v c => cases h4
          | «at» b s1' =>
            cases h4
            exact ⟨k, by omega, n, m1, a, s1, s1', h1, hw, h2, h2', h3, h3', bb, hbb, hst⟩
      rcases hL with ⟨a, s1, bb, rfl, hbb, hn⟩ | ⟨j, m2, c2, g1, g2, g3, q4, q5, q6, g4, g5, g6⟩
      · exact .inl (hstk a bb rfl hbb hn)
      · rcases hR with ⟨a, s1, bb, rfl, hbb, hn⟩ | ⟨j', m2', c2', g1', g2', g3', -, -, -, g4', g5', -⟩
        · exact .inl (hstk a bb h4 hbb hn)
        · rw [← h4] at g4' g5'
          obtain rfl : j = j' := g4.trans g4'.symm
          rw [g1] at g1'
          cases g1'
          refine .inr ⟨n + j, m2, c2, c2', ?_, ?_, ?_, g3, g3', g5.trans g5'.symm,
            (by rw [g5, g4]; exact hw.step g6), ?_,
            fun s hs => absurd hs (q5 s), ?_, ?_, ?_⟩
          · rw [run_add, h1]; exact g1
          · rw [runBlocks_succ, h2]; exact g2
          · rw [runBlocks_succ, h2']; exact g2'
          · intro a s2 hc2
            rcases q4 with ⟨s0, rfl⟩ | q4
            · have := p5 s0 rfl; omega
            · have := q4 a s2 hc2
              cases c1 with
              | done v c => cases g2; cases hc2
              | «at» b s1 =>
                cases b with
                | exit => cases g2; cases hc2
                | entry => have := p5 s1 rfl; omega
                | «at» c => have := p4 c s1 rfl; omega
          · intro hk
            obtain rfl : k = 0 := by omega
            cases h2
            have : sealExit g0 .entry = _ := H.entryB
            simp only [stepBlock, this, execBody, Term.next, Option.map_some, Option.some.injEq] at g2
            exact ⟨_, g2.symm⟩
          · intro hk
            by_cases hk1 : k = 1
            · obtain ⟨s1, rfl⟩ := p6 hk1
              have := q6 e s1 rfl hok
              omega
            · have := p7 (by omega)
              omega
          · intro s2 hc2
            cases c1 with
            | done v c => cases g2; cases hc2
            | «at» b s1 =>
              cases b with
              | exit => cases g2; cases hc2
              | entry => have := p5 s1 rfl; omega
              | «at» c => have := p4 c s1 rfl; omega

end Verif.Lift
