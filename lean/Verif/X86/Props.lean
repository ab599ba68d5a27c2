import Verif.X86.Stosb

/-!
Property theorems for the x86-64 general-purpose instructions (C18-C26, C41, C45).

The architecture is `Verif.X86.Spec.step` (Verif/X86/Spec.lean).  `Simulates cfg slide i len s s'` says:
whatever the load address, the code emitted for `i` takes every representation of the state `s` to a
representation of `s'`, without undefined behaviour.  `S.forget` drops the claim about some flags.
-/

set_option linter.unusedSimpArgs false
set_option linter.constructorNameAsVariable false

namespace Verif.X86.Spec

open Verif.IR

variable {cfg : Cfg} {slide : BitVec 64} {len : Nat} {s s' : S}

/-! ### Concrete states -/

/-- A representation of an architectural state (undefined flags are poison). -/
def S.rep (slide : BitVec 64) (s : S) : St where
  gp := fun r => some (s.gp r)
  fl := fun f => (s.fl f).map BitVec.ofBool
  pf := match s.fl .pf with
    | some b => some (if b then 0#8 else 1#8)
    | none => none
  vec := fun r => some (s.vec r)
  fs := some s.fs
  gs := some s.gs
  mem := s.mem.toV
  pc := .const (s.ip - slide)

/-- Every state has a representation. -/
theorem rep_rel (slide : BitVec 64) (s : S) : Rel slide (s.rep slide) s where
  gp _ := rfl
  vec _ := rfl
  fs := rfl
  gs := rfl
  mem := rfl
  pc := by rw [S.rep, Pc.val_const, BitVec.sub_add_cancel]
  fl f b hb := by
    cases f <;> simp only [S.rep, St.getF, hb, Option.map_some]
    cases b <;> rfl

/-- The state used in the examples: RAX = 5, RCX = 3, RDX = 0xffff…, RBX = 7, RSP = 0x1000, RSI =
0x2000, RDI = 0x3000; CF is set, all other flags are clear; the
bytes of XMM0 are their indices, some with the top bit set; memory holds its address modulo 251. -/
def s0 : S where
  gp := fun r => match r.val with
    | 0 => 5 | 1 => 3 | 2 => -1 | 3 => 7 | 4 => 0x1000 | 5 => 0x1010 | 6 => 0x2000 | 7 => 0x3000
    | 8 => 0xffffffff00000080 | _ => 0
  fl := fun f => some (f == .cf)
  vec := fun r => BitVec.ofNat 128 (0x0f0e0d0c0b0a09088706850483028100 + r.val * 0x01010101)
  fs := 0x10000
  gs := 0x20000
  mem := fun a => BitVec.ofNat 8 (a.toNat % 251)
  ip := 0x400000

/-- Register `r` after the architecture executed `i`. -/
def specGp (i : Instr) (s : S) (r : Fin 16) : Option (BitVec 64) := (step i 4 s).map (·.gp r)
/-- Flag `f` after the architecture executed `i`. -/
def specFl (i : Instr) (s : S) (f : Flag) : Option (Option Bool) := (step i 4 s).map (·.fl f)
/-- Register `r` after the lifted code ran. -/
def liftGp (i : Instr) (s : S) (r : Fin 16) : Option (Val 64) :=
  (lift {} 0 i s.ip 4 (s.rep 0)).map (·.st.gp r)
/-- Flag `f` after the lifted code ran. -/
def liftFl (i : Instr) (s : S) (f : Flag) : Option (Val 1) :=
  (lift {} 0 i s.ip 4 (s.rep 0)).map (·.st.getF f)

/-- The state in which the operands of an instruction of `len` bytes are evaluated: the instruction
pointer already is the address of the next instruction. -/
abbrev S.nx (s : S) (len : Nat) : S := { s with ip := s.ip + BitVec.ofNat 64 len }

/-- Refutation by the value of a register. -/
theorem refuted_gp {i : Instr} {s : S} (r : Fin 16)
    (h : (specGp i s r).isSome = true ∧ liftGp i s r ≠ (specGp i s r).map some) :
    ∃ s', step i 4 s = some s' ∧ ¬ Simulates {} 0 i 4 s s' := by
  obtain ⟨h1, h2⟩ := h
  unfold specGp at h1 h2
  cases hst : step i 4 s with
  | none => rw [hst] at h1; cases h1
  | some s' =>
    refine ⟨s', rfl, fun hsim => h2 ?_⟩
    obtain ⟨m', e, hr⟩ := hsim s.ip (s.rep 0) (rep_rel 0 s) (BitVec.add_zero _).symm
    rw [hst, liftGp, e]
    simp only [Option.map_some, hr.gp]

/-- Refutation by the value of a flag. -/
theorem refuted_fl {i : Instr} {s : S} (f : Flag) (b : Bool)
    (h : specFl i s f = some (some b) ∧ liftFl i s f ≠ some (some (BitVec.ofBool b))) :
    ∃ s', step i 4 s = some s' ∧ ¬ Simulates {} 0 i 4 s s' := by
  obtain ⟨h1, h2⟩ := h
  unfold specFl at h1
  cases hst : step i 4 s with
  | none => rw [hst] at h1; cases h1
  | some s' =>
    refine ⟨s', rfl, fun hsim => h2 ?_⟩
    obtain ⟨m', e, hr⟩ := hsim s.ip (s.rep 0) (rep_rel 0 s) (BitVec.add_zero _).symm
    rw [hst] at h1
    rw [liftFl, e, Option.map_some, hr.fl f b (by simpa using h1)]

/-- Refutation by undefined behaviour (or a failing assertion in the lifter). -/
theorem refuted_ub {i : Instr} {s : S}
    (h : (step i 4 s).isSome = true ∧ (lift {} 0 i s.ip 4 (s.rep 0)).isNone = true) :
    ∃ s', step i 4 s = some s' ∧ ¬ Simulates {} 0 i 4 s s' := by
  obtain ⟨h1, h2⟩ := h
  cases hst : step i 4 s with
  | none => rw [hst] at h1; cases h1
  | some s' =>
    refine ⟨s', rfl, fun hsim => ?_⟩
    obtain ⟨m', e, hr⟩ := hsim s.ip (s.rep 0) (rep_rel 0 s) (BitVec.add_zero _).symm
    rw [e] at h2
    cases h2

/-- Two instructions in a row. -/
theorem Simulates.seq {i j : Instr} {l1 l2 : Nat} {s1 s2 : S} (h1 : Simulates cfg slide i l1 s s1)
    (h2 : Simulates cfg slide j l2 s1 s2) (start next : BitVec 64) (m : St) (hr : Rel slide m s)
    (hip : s.ip = start + slide) (hn : s1.ip = next + slide) :
    ∃ m1 m2, lift cfg slide i start l1 m = some { st := m1 } ∧
      lift cfg slide j next l2 m1 = some { st := m2 } ∧ Rel slide m2 s2 := by
  obtain ⟨m1, e1, r1⟩ := h1 start m hr hip
  obtain ⟨m2, e2, r2⟩ := h2 next m1 r1 hn
  exact ⟨m1, m2, e1, e2, r2⟩

/-! ### C18: ADD, SUB, CMP, NEG, INC, DEC and logical instructions -/

/-- ADD, SUB and CMP: result and all six flags, for all operand kinds and sizes, with and without LOCK
and overflow intrinsics. -/
theorem C18_add_sub_cmp (k : Arith) (hk : k = .add ∨ k = .sub ∨ k = .cmp) (z : Sz) (lock : Bool) (d r : Op)
    (hd : Op.plain d = true) (hr : Op.plain r = true) (hl : LockOk (s.nx len) z lock d)
    (hc : lock = true → k ≠ .cmp) (hs : step (.arith k z lock d r) len s = some s') :
    Simulates cfg slide (.arith k z lock d r) len s s' := by
  refine .of_body (fun m => liftArith cfg slide m k z lock d r) (fun _ _ => rfl) (fun m h => ?_)
  obtain ⟨m', h1, h2⟩ := body_arith cfg h k (by rcases hk with rfl | rfl | rfl <;> decide) z lock d r hd hr
    hl hc hs
  refine ⟨m', h1, h2.mono rfl rfl rfl rfl rfl ?_⟩
  intro f b hb
  have : adcBad (s.nx len) k z r f = false := by
    unfold adcBad
    split
    · rcases hk with rfl | rfl | rfl <;> rfl
    · rfl
  simp only [S.forget, this, Bool.false_eq_true, if_false, hb]

theorem C18_neg (z : Sz) (d : Op) (hd : Op.plain d = true)
    (hs : step (.neg z false d) len s = some s') : Simulates cfg slide (.neg z false d) len s s' :=
  .of_body (fun m => liftNeg slide m z false d) (fun _ _ => rfl) (fun _ h => body_neg h z d hd hs)

theorem C18_inc_dec (dec : Bool) (z : Sz) (lock : Bool) (d : Op) (hd : Op.plain d = true)
    (hl : LockOk (s.nx len) z lock d) (hs : step (.incdec dec z lock d) len s = some s') :
    Simulates cfg slide (.incdec dec z lock d) len s s' :=
  .of_body (fun m => liftIncDec cfg slide m dec z lock d) (fun _ _ => rfl)
    (fun _ h => body_incdec cfg h dec z lock d hd hl hs)

/-- AND, OR, XOR, TEST (also the `XOR r,r` special case). -/
theorem C18_logic (k : Logic) (z : Sz) (lock : Bool) (d r : Op) (hd : Op.plain d = true)
    (hr : Op.plain r = true) (hl : LockOk (s.nx len) z lock d) (hc : lock = true → k ≠ .test)
    (hs : step (.logic k z lock d r) len s = some s') :
    Simulates cfg slide (.logic k z lock d r) len s s' :=
  .of_body (fun m => liftLogic slide m k z lock d r) (fun _ _ => rfl)
    (fun _ h => body_logic h k z lock d r hd hr hl hc hs)

theorem C18_not (z : Sz) (lock : Bool) (d : Op) (hd : Op.plain d = true) (hl : LockOk (s.nx len) z lock d)
    (hs : step (.not z lock d) len s = some s') : Simulates cfg slide (.not z lock d) len s s' :=
  .of_body (fun m => liftNot slide m z lock d) (fun _ _ => rfl)
    (fun _ h => body_not h z lock d hd hl hs)

-- `add al, 0xff` with AL = 5: carry and auxiliary carry, no overflow
example : specGp (.arith .add .b false (.reg 0) (.imm 0xff)) s0 0 = some 4 ∧
    specFl (.arith .add .b false (.reg 0) (.imm 0xff)) s0 .cf = some (some true) ∧
    specFl (.arith .add .b false (.reg 0) (.imm 0xff)) s0 .of = some (some false) ∧
    liftFl (.arith .add .b false (.reg 0) (.imm 0xff)) s0 .cf = some (some 1) ∧
    liftFl (.arith .add .b false (.reg 0) (.imm 0xff)) s0 .pf = some (some 0) := by decide +kernel
-- `lock sub dword ptr [rsi+8], ecx` is an instance of the theorem
example : ∃ s', step (.arith .sub .d true (.mem { base := .reg 6, off := 8 }) (.reg 1)) 4 s0 = some s' ∧
    Simulates {} 0 (.arith .sub .d true (.mem { base := .reg 6, off := 8 }) (.reg 1)) 4 s0 s' :=
  ⟨_, rfl, C18_add_sub_cmp .sub (by decide) .d true _ _ rfl rfl (fun _ => ⟨_, rfl, by decide +kernel⟩)
    (fun _ => by decide) rfl⟩
-- `dec rdx` keeps CF
example : specFl (.incdec true .q false (.reg 2)) s0 .cf = some (some true) ∧
    liftFl (.incdec true .q false (.reg 2)) s0 .cf = some (some 1) := by decide +kernel
/-- A locked NEG is not lifted (assertion failure). -/
theorem C18_locked_neg_counterexample (m : St) (start : BitVec 64) (z : Sz) (d : Op) :
    lift cfg slide (.neg z true d) start len m = none := rfl

/-! ### C19: ADC, SBB -/

/-- ADC and SBB: the result and all flags are right, except that with CF = 1 the carry flag is not
claimed for an all-ones second operand, the overflow flag not for the largest positive one, and the
auxiliary carry not for one ending in the digit 0xf (`adcBad`). -/
theorem C19_adc_sbb_partial (k : Arith) (hk : k = .adc ∨ k = .sbb) (z : Sz) (lock : Bool) (d r : Op)
    (hd : Op.plain d = true) (hr : Op.plain r = true) (hl : LockOk (s.nx len) z lock d)
    (hs : step (.arith k z lock d r) len s = some s') :
    Simulates cfg slide (.arith k z lock d r) len s (s'.forget (adcBad (s.nx len) k z r)) := by
  exact .of_body (fun m => liftArith cfg slide m k z lock d r) (fun _ _ => rfl) (fun m h =>
    body_arith cfg h k (by rcases hk with rfl | rfl <;> decide) z lock d r hd hr hl
      (fun _ => by rcases hk with rfl | rfl <;> decide) hs)

/-- In particular ADC and SBB are right whenever the carry flag is clear. -/
theorem C19_adc_sbb_no_carry (k : Arith) (hk : k = .adc ∨ k = .sbb) (z : Sz) (lock : Bool) (d r : Op)
    (hd : Op.plain d = true) (hr : Op.plain r = true) (hl : LockOk (s.nx len) z lock d)
    (hcf : s.fl .cf = some false) (hs : step (.arith k z lock d r) len s = some s') :
    Simulates cfg slide (.arith k z lock d r) len s s' := by
  have := C19_adc_sbb_partial (cfg := cfg) (slide := slide) k hk z lock d r hd hr hl hs
  intro start m hm hip
  obtain ⟨m', e, h⟩ := this start m hm hip
  refine ⟨m', e, h.mono rfl rfl rfl rfl rfl ?_⟩
  intro f b hb
  have : adcBad (s.nx len) k z r f = false := by
    unfold adcBad
    split
    · next h1 => rw [show (s.nx len).fl .cf = some false from hcf] at h1; cases h1
    · rfl
  simp only [S.forget, this, Bool.false_eq_true, if_false, hb]

-- `adc al, cl` with CF = 1: 5 + 3 + 1
example : specGp (.arith .adc .b false (.reg 0) (.reg 1)) s0 0 = some 9 ∧
    liftGp (.arith .adc .b false (.reg 0) (.reg 1)) s0 0 = some (some 9) := by decide +kernel
example : ∃ s', step (.arith .sbb .q false (.reg 0) (.reg 1)) 4 s0 = some s' ∧ s'.gp 0 = 1 ∧
    Simulates {} 0 (.arith .sbb .q false (.reg 0) (.reg 1)) 4 s0
      (s'.forget (adcBad (s0.nx 4) .sbb .q (.reg 1))) :=
  ⟨_, rfl, by decide +kernel, C19_adc_sbb_partial .sbb (.inr rfl) .q false _ _ rfl rfl (by simp [LockOk]) rfl⟩

/-- `adc rax, -1` with CF = 1: the carry out is lost. -/
theorem C19_adc_carry_counterexample : ∃ s', step (.arith .adc .q false (.reg 0) (.imm (-1))) 4 s0 = some s' ∧
    ¬ Simulates {} 0 (.arith .adc .q false (.reg 0) (.imm (-1))) 4 s0 s' :=
  refuted_fl .cf true (by decide +kernel)

/-- `sbb rax, -1` with CF = 1: the borrow is lost. -/
theorem C19_sbb_carry_counterexample : ∃ s', step (.arith .sbb .q false (.reg 0) (.imm (-1))) 4 s0 = some s' ∧
    ¬ Simulates {} 0 (.arith .sbb .q false (.reg 0) (.imm (-1))) 4 s0 s' :=
  refuted_fl .cf true (by decide +kernel)

/-- `adc eax, 0x7fffffff` with CF = 1: OF is wrong. -/
theorem C19_adc_overflow_counterexample :
    ∃ s', step (.arith .adc .d false (.reg 0) (.imm 0x7fffffff)) 4 s0 = some s' ∧
    ¬ Simulates {} 0 (.arith .adc .d false (.reg 0) (.imm 0x7fffffff)) 4 s0 s' :=
  refuted_fl .of true (by decide +kernel)

/-- `adc eax, 15` with CF = 1: AF is wrong. -/
theorem C19_adc_aux_counterexample :
    ∃ s', step (.arith .adc .d false (.reg 0) (.imm 15)) 4 s0 = some s' ∧
    ¬ Simulates {} 0 (.arith .adc .d false (.reg 0) (.imm 15)) 4 s0 s' :=
  refuted_fl .af true (by decide +kernel)

/-! ### C20: condition codes -/

/-- The relation between the operands of CMP that a condition stands for. -/
def cmpHolds (c : Cond) {w : Nat} (a b : BitVec w) : Prop :=
  match c with
  | .z => a = b
  | .nz => a ≠ b
  | .c => a.toNat < b.toNat
  | .nc => b.toNat ≤ a.toNat
  | .be => a.toNat ≤ b.toNat
  | .a => b.toNat < a.toNat
  | .l => a.toInt < b.toInt
  | .ge => b.toInt ≤ a.toInt
  | .le => a.toInt ≤ b.toInt
  | .g => b.toInt < a.toInt
  | .s => (a - b).msb = true
  | .ns => (a - b).msb = false
  | .o => (a - b).toInt ≠ a.toInt - b.toInt
  | .no => (a - b).toInt = a.toInt - b.toInt
  | .p => Bits.popcount ((a - b).setWidth 8) % 2 = 0
  | .np => Bits.popcount ((a - b).setWidth 8) % 2 = 1

/-- The opposite condition. -/
def negCond : Cond → Cond
  | .o => .no | .no => .o | .c => .nc | .nc => .c | .z => .nz | .nz => .z | .be => .a | .a => .be
  | .s => .ns | .ns => .s | .p => .np | .np => .p | .l => .ge | .ge => .l | .le => .g | .g => .le

/-- A condition and its opposite never agree: for all flags, defined or not. -/
theorem C20_negation (s : S) (c : Cond) : s.cond (negCond c) = (s.cond c).map Bool.not := by
  cases c <;> simp only [negCond, S.cond] <;> first
    | rcases s.fl .of with _ | _ | _ <;> rfl
    | rcases s.fl .cf with _ | _ | _ <;> rfl
    | rcases s.fl .zf with _ | _ | _ <;> rfl
    | rcases s.fl .sf with _ | _ | _ <;> rfl
    | rcases s.fl .pf with _ | _ | _ <;> rfl
    | rcases s.fl .cf with _ | _ | _ <;> rcases s.fl .zf with _ | _ | _ <;> rfl
    | rcases s.fl .sf with _ | _ | _ <;> rcases s.fl .of with _ | _ | _ <;> rfl
    | rcases s.fl .zf with _ | _ | _ <;> rcases s.fl .sf with _ | _ | _ <;>
        rcases s.fl .of with _ | _ | _ <;> rfl

theorem msb_sub_ne (z : Sz) (a b : BitVec z.bits) :
    ((a - b).msb ≠ subOf a b false ↔ a.toInt < b.toInt) ∧
    (subOf a b false = true ↔ (a - b).toInt ≠ a.toInt - b.toInt) := by
  have h1 : (a - b).msb = decide ((a - b).toInt < 0) := BitVec.msb_eq_toInt
  rw [h1, BitVec.toInt_sub]
  have ha1 := @BitVec.two_mul_toInt_lt _ a
  have ha2 := @BitVec.le_two_mul_toInt _ a
  have hb1 := @BitVec.two_mul_toInt_lt _ b
  have hb2 := @BitVec.le_two_mul_toInt _ b
  unfold subOf sOver
  generalize a.toInt = x at *
  generalize b.toInt = y at *
  have hd := Int.bmod_def (x - y) (2 ^ z.bits)
  simp only [Bool.toInt_false, Int.sub_zero, decide_eq_true_eq, ne_eq, decide_eq_decide]
  cases z <;> simp only [Sz.bits, Sz.bytes, Nat.reduceMul, Nat.reducePow, Nat.reduceSub, Int.reducePow,
    Int.reduceNeg] at * <;> rw [hd] <;> split <;> omega

theorem C20_cmp_condition (c : Cond) (z : Sz) (lock : Bool) (d r : Op) (a b : BitVec z.bits)
    (ha : (s.nx len).read z d = some a) (hb : (s.nx len).read z r = some b)
    (hs : step (.arith .cmp z lock d r) len s = some s') :
    ∃ t, s'.cond c = some t ∧ (t = true ↔ cmpHolds c a b) := by
  have hs' : s' = (s.nx len).subFl a b false := by
    have : (some ((s.nx len).subFl a b false) : Option S) = some s' := by
      rw [← hs]; simp only [step, exec, stepArith, ha, hb]; rfl
    exact (Option.some.inj this).symm
  have hz : (a - b = 0#z.bits) ↔ a = b := by
    constructor
    · intro h
      have h2 : a - b + b = 0#z.bits + b := by rw [h]
      rwa [BitVec.sub_add_cancel, BitVec.zero_add] at h2
    · rintro rfl; simp
  obtain ⟨hl, ho⟩ := msb_sub_ne z a b
  subst hs'
  have hsub : a - b - BitVec.ofNat z.bits (Bool.toNat false) = a - b := BitVec.sub_zero _
  simp only [S.subFl, hsub]
  have hn : a.toNat = b.toNat ↔ a = b := ⟨BitVec.eq_of_toNat_eq, fun h => by rw [h]⟩
  have hi : a.toInt = b.toInt ↔ a = b := ⟨BitVec.eq_of_toInt_eq, fun h => by rw [h]⟩
  have hb1 : (((a - b).msb != subOf a b false) = true) ↔ a.toInt < b.toInt := by
    rw [bne_iff_ne]; exact hl
  have hb2 : (((a - b).msb == subOf a b false) = true) ↔ ¬ a.toInt < b.toInt := by
    rw [← hl, beq_iff_eq]; exact Decidable.not_not.symm
  cases c <;> simp only [S.cond, S.resFl, cmpHolds, hb1, hb2, Option.map_some, Option.pure_def, Option.bind_eq_bind,
    Option.bind_some, Option.some.injEq, exists_eq_left', ho, hz, subCf, Bool.toNat_false, Nat.add_zero,
    decide_eq_true_eq, Bool.not_eq_true', decide_eq_false_iff_not, parity, Bool.or_eq_true, Bool.and_eq_true]
  case no =>
    rw [← Bool.not_eq_true, ho]; exact Decidable.not_not
  all_goals first | omega | (rw [← hn]; omega) | (rw [← hi]; omega)

/-- CMP followed by Jcc branches iff the relation between the operands holds. -/
theorem C20_cmp_jcc (c : Cond) (z : Sz) (d r : Op) (hd : Op.plain d = true) (hr : Op.plain r = true)
    (a b : BitVec z.bits) (l1 l2 : Nat) (off : BitVec 64) (ha : (s.nx l1).read z d = some a)
    (hb : (s.nx l1).read z r = some b) (start : BitVec 64) (m : St) (hrel : Rel slide m s)
    (hip : s.ip = start + slide) [Decidable (cmpHolds c a b)] :
    ∃ m1 m2, lift cfg slide (.arith .cmp z false d r) start l1 m = some { st := m1 } ∧
      lift cfg slide (.jcc c off) (start + BitVec.ofNat 64 l1) l2 m1 = some { st := m2 } ∧
      m2.pc.val slide = some (s.ip + BitVec.ofNat 64 l1 + BitVec.ofNat 64 l2
        + if cmpHolds c a b then off else 0) ∧ (∀ x, m2.gp x = some (s.gp x)) := by
  have hs : step (.arith .cmp z false d r) l1 s = some ((s.nx l1).subFl a b false) := by
    simp only [step, exec, stepArith, ha, hb]; rfl
  obtain ⟨t, ht, hiff⟩ := C20_cmp_condition c z false d r a b ha hb hs
  have h1 := C18_add_sub_cmp (cfg := cfg) (slide := slide) .cmp (by simp) z false d r hd hr
    (by simp [LockOk]) (by simp) hs
  have h2 := sim_jcc (cfg := cfg) (slide := slide) (len := l2) (s := (s.nx l1).subFl a b false) c off
    (s' := { ((s.nx l1).subFl a b false).nx l2 with
      ip := if t = true then s.ip + BitVec.ofNat 64 l1 + BitVec.ofNat 64 l2 + off
        else s.ip + BitVec.ofNat 64 l1 + BitVec.ofNat 64 l2 })
    (by
      have hc : (((s.nx l1).subFl a b false).nx l2).cond c = some t := by rw [← ht]; cases c <;> rfl
      show exec _ _ = _
      simp only [exec, hc]; rfl)
  obtain ⟨m1, m2, e1, e2, hr2⟩ := h1.seq h2 start (start + BitVec.ofNat 64 l1) m hrel hip
    (by show s.ip + BitVec.ofNat 64 l1 = _; rw [hip]; grind)
  refine ⟨m1, m2, e1, e2, ?_, hr2.gp⟩
  rw [hr2.pc]
  by_cases ht' : t = true
  · simp only [ht', if_true, if_pos (hiff.1 ht')]
  · simp only [ht', if_false, if_neg (fun h => ht' (hiff.2 h))]; simp

/-- SETcc and CMOVcc use the same conditions. -/
theorem C20_setcc (c : Cond) (d : Op) (hd : Op.plain d = true) (hs : step (.setcc c d) len s = some s') :
    Simulates cfg slide (.setcc c d) len s s' :=
  .of_body (fun m => liftSetcc slide m c d) (fun _ _ => rfl) (fun _ h => body_setcc h c d hd hs)

theorem C20_cmovcc (c : Cond) (z : Sz) (d r : Op) (hd : Op.plain d = true) (hr : Op.plain r = true)
    (hs : step (.cmov c z d r) len s = some s') : Simulates cfg slide (.cmov c z d r) len s s' :=
  .of_body (fun m => liftCmov slide m c z d r) (fun _ _ => rfl) (fun _ h => body_cmov h c z d r hd hr hs)

theorem C20_jcc (c : Cond) (off : BitVec 64) (hs : step (.jcc c off) len s = some s') :
    Simulates cfg slide (.jcc c off) len s s' := sim_jcc c off hs

-- `cmp rdx, rax; jl` with RDX = -1, RAX = 5 is taken, `cmp rdx, rax; jb` is not
example : cmpHolds .l (s0.gp 2) (s0.gp 0) ∧ ¬ cmpHolds .c (s0.gp 2) (s0.gp 0) := by
  constructor <;> simp only [cmpHolds] <;> decide +kernel
example : specGp (.setcc .c (.reg 3)) s0 3 = some 1 ∧ liftGp (.setcc .c (.reg 3)) s0 3 = some (some 1) := by
  decide +kernel

/-! ### C21: flags image -/

/-- PUSHF, LAHF, POPF, SAHF: the code agrees with the architecture.  `S.rflags` is characterised by
`rflags_image`. -/
theorem C21_pushf (z : Sz) (ha : Aligned (s.gp rsp) z.bytes) (hs : step (.pushf z) len s = some s') :
    Simulates cfg slide (.pushf z) len s s' := sim_pushf z ha hs

theorem C21_popf (ha : Aligned (s.gp rsp) 8) (hs : step (.popf .q) len s = some s') :
    Simulates cfg slide (.popf .q) len s s' := sim_popf ha hs

/-- For LAHF the overflow and direction flags must be defined: the code reads them although it
discards their bits. -/
theorem C21_lahf (hd : ∃ b, s.fl .df = some b) (ho : ∃ b, s.fl .of = some b)
    (hs : step .lahf len s = some s') : Simulates cfg slide .lahf len s s' := sim_lahf hd ho hs

theorem C21_sahf (hs : step .sahf len s = some s') : Simulates cfg slide .sahf len s s' := sim_sahf hs

/-- The position of a flag in RFLAGS. -/
def flagPos : Flag → Nat
  | .cf => 0 | .pf => 2 | .af => 4 | .zf => 6 | .sf => 7 | .df => 10 | .of => 11

/-- The image is the flags at their positions, the fixed bits 1 and 9, and zeros elsewhere. -/
theorem rflags_image {v : BitVec 64} (hv : s.rflags = some v) :
    (∀ f, s.fl f = some (v.getLsbD (flagPos f))) ∧ v &&& ~~~ 0xcd5#64 = 0x202#64 := by
  simp only [S.rflags, Option.bind_eq_bind, Option.bind_eq_some_iff, Option.pure_def,
    Option.some.injEq] at hv
  obtain ⟨cf, hcf, pf, hpf, af, haf, zf, hzf, sf, hsf, df, hdf, of, hof, rfl⟩ := hv
  constructor
  · intro f
    cases f <;> simp only [flagPos, hcf, hpf, haf, hzf, hsf, hdf, hof, Option.some.injEq]
    all_goals (clear hcf hpf haf hzf hsf hdf hof; revert cf pf af zf sf df of; decide)
  · clear hcf hpf haf hzf hsf hdf hof
    revert cf pf af zf sf df of; decide

theorem testBit_big (k : Nat) (hk : k < 2 ^ 12) (i : Nat) (hi : 12 ≤ i) :
    (BitVec.ofNat 64 k).getLsbD i = false := by
  rw [BitVec.getLsbD_ofNat]
  have : k.testBit i = false := Nat.testBit_lt_two_pow (Nat.lt_of_lt_of_le hk (Nat.pow_le_pow_right (by omega) hi))
  simp [this]

/-- Reading back a loaded image. -/
theorem rflags_setRflags (v : BitVec 64) :
    (s.setRflags v).rflags = some (v &&& 0xcd5#64 ||| 0x202#64) := by
  simp only [S.rflags, S.setRflags, Option.bind_eq_bind, Option.bind_some, Option.pure_def,
    Option.some.injEq]
  apply BitVec.eq_of_getLsbD_eq; intro i hi
  by_cases h : i < 12
  · rcases (by omega : i = 0 ∨ i = 1 ∨ i = 2 ∨ i = 3 ∨ i = 4 ∨ i = 5 ∨ i = 6 ∨ i = 7 ∨ i = 8 ∨ i = 9 ∨
      i = 10 ∨ i = 11) with rfl | rfl | rfl | rfl | rfl | rfl | rfl | rfl | rfl | rfl | rfl | rfl <;>
    (rw [BitVec.getLsbD_or, BitVec.getLsbD_and]
     generalize v.getLsbD 0 = b0, v.getLsbD 2 = b2, v.getLsbD 4 = b4, v.getLsbD 6 = b6,
       v.getLsbD 7 = b7, v.getLsbD 10 = b10, v.getLsbD 11 = b11
     generalize v.getLsbD 1 = x1
     generalize v.getLsbD 3 = x3
     generalize v.getLsbD 5 = x5
     generalize v.getLsbD 8 = x8
     generalize v.getLsbD 9 = x9
     clear hi h
     revert b0 b2 b4 b6 b7 b10 b11 x1 x3 x5 x8 x9
     decide)
  · rw [BitVec.getLsbD_or, BitVec.getLsbD_and, testBit_big 0xcd5 (by decide) i (by omega),
      testBit_big 0x202 (by decide) i (by omega), BitVec.getLsbD_setWidth,
      BitVec.getLsbD_of_ge _ _ (by omega)]
    simp

theorem pop_push (s : S) (z : Sz) (v : BitVec z.bits) : ((s.push z v).pop z).1 = v := by
  simp only [S.pop, S.push, S.setGp, S.store, if_true]
  exact Mem.read_write _ _ _ _ (by cases z <;> decide)

theorem pop_push_gp (s : S) (z : Sz) (v : BitVec z.bits) : ((s.push z v).pop z).2.gp = s.gp := by
  funext r
  simp only [S.pop, S.push, S.setGp, S.store, if_true]
  split
  · next h => rw [h]; exact BitVec.sub_add_cancel _ _
  · rfl

/-- PUSHF then POPF leaves all flags and registers as they were. -/
theorem C21_pushf_popf (l1 l2 : Nat) (ha : Aligned (s.gp rsp) 8) (hd : ∀ f, ∃ b, s.fl f = some b)
    (start : BitVec 64) (m : St) (hr : Rel slide m s) (hip : s.ip = start + slide) :
    ∃ m1 m2, lift cfg slide (.pushf .q) start l1 m = some { st := m1 } ∧
      lift cfg slide (.popf .q) (start + BitVec.ofNat 64 l1) l2 m1 = some { st := m2 } ∧
      (∀ f b, s.fl f = some b → m2.getF f = some (BitVec.ofBool b)) ∧ ∀ r, m2.gp r = some (s.gp r) := by
  obtain ⟨cf, hcf⟩ := hd .cf
  obtain ⟨pf, hpf⟩ := hd .pf
  obtain ⟨af, haf⟩ := hd .af
  obtain ⟨zf, hzf⟩ := hd .zf
  obtain ⟨sf, hsf⟩ := hd .sf
  obtain ⟨df, hdf⟩ := hd .df
  obtain ⟨of, hof⟩ := hd .of
  obtain ⟨v, hv⟩ : ∃ v, s.rflags = some v := by
    simp only [S.rflags, hcf, hpf, haf, hzf, hsf, hdf, hof, Option.bind_eq_bind, Option.bind_some,
      Option.pure_def]
    exact ⟨_, rfl⟩
  have hbits := (rflags_image hv).1
  have e1 : step (.pushf .q) l1 s = some ((s.nx l1).push .q v) := by
    have : (s.nx l1).rflags = some v := hv
    simp only [step, exec, this, Option.bind_eq_bind, Option.bind_some, Option.pure_def]
    rw [show v.setWidth (Sz.bits .q) = v from BitVec.setWidth_eq _]
  have e2 : step (.popf .q) l2 ((s.nx l1).push .q v) =
      some ((((s.nx l1).push .q v).pop .q).2.nx l2 |>.setRflags v) := by
    have : ((((s.nx l1).push .q v).nx l2).pop .q).1 = v := pop_push (s.nx l1) .q v
    show some ((((((s.nx l1).push .q v).nx l2).pop .q).2).setRflags
      ((((s.nx l1).push .q v).nx l2).pop .q).1) = _
    rw [this]; rfl
  have h1 := sim_pushf (cfg := cfg) (slide := slide) .q (len := l1) ha e1
  have h2 := sim_popf (cfg := cfg) (slide := slide) (len := l2) (s := (s.nx l1).push .q v)
    (aligned_sub (z := .q) ha) e2
  obtain ⟨m1, m2, e1, e2, hr2⟩ := h1.seq h2 start (start + BitVec.ofNat 64 l1) m hr hip
    (by show s.ip + BitVec.ofNat 64 l1 = _; rw [hip]; grind)
  refine ⟨m1, m2, e1, e2, ?_, ?_⟩
  · intro f b hb
    refine hr2.fl f b ?_
    rw [← hb, hbits f]
    cases f <;> rfl
  · intro r
    rw [hr2.gp]
    exact congrArg some (congrFun (pop_push_gp (s.nx l1) .q v) r)

/-- POPF then PUSHF pushes the popped image with the unmodelled bits replaced by the fixed ones. -/
theorem C21_popf_pushf (l1 l2 : Nat) (ha : Aligned (s.gp rsp) 8) (start : BitVec 64) (m : St)
    (hr : Rel slide m s) (hip : s.ip = start + slide) :
    ∃ m1 m2, lift cfg slide (.popf .q) start l1 m = some { st := m1 } ∧
      lift cfg slide (.pushf .q) (start + BitVec.ofNat 64 l1) l2 m1 = some { st := m2 } ∧
      m2.gp rsp = some (s.gp rsp) ∧
      m2.mem = (s.mem.write (s.gp rsp) 8 (s.mem.read (s.gp rsp) 8 &&& 0xcd5#64 ||| 0x202#64)).toV := by
  have e1 : step (.popf .q) l1 s = some (((s.nx l1).pop .q).2.setRflags ((s.nx l1).pop .q).1) := rfl
  have h1 := sim_popf (cfg := cfg) (slide := slide) (len := l1) ha e1
  have e2 : step (.pushf .q) l2 (((s.nx l1).pop .q).2.setRflags ((s.nx l1).pop .q).1) =
      some (((((s.nx l1).pop .q).2.setRflags ((s.nx l1).pop .q).1).nx l2).push .q
        (((s.nx l1).pop .q).1 &&& 0xcd5#64 ||| 0x202#64)) := by
    have : (((((s.nx l1).pop .q).2).setRflags ((s.nx l1).pop .q).1).nx l2).rflags =
        some (((s.nx l1).pop .q).1 &&& 0xcd5#64 ||| 0x202#64) :=
      rflags_setRflags (s := ((s.nx l1).pop .q).2) ((s.nx l1).pop .q).1
    simp only [step, exec, this, Option.bind_eq_bind, Option.bind_some, Option.pure_def]
    rw [show ∀ v : BitVec 64, v.setWidth (Sz.bits .q) = v from fun v => BitVec.setWidth_eq v]
  have hsp : (((s.nx l1).pop .q).2.setRflags ((s.nx l1).pop .q).1).gp rsp = s.gp rsp + 8#64 := rfl
  have h2 := sim_pushf (cfg := cfg) (slide := slide) .q (len := l2)
    (s := ((s.nx l1).pop .q).2.setRflags ((s.nx l1).pop .q).1)
    (by
      rw [hsp]
      simp only [Aligned, BitVec.toNat_add] at *
      simp only [BitVec.toNat_ofNat, Sz.bytes] at *
      omega) e2
  obtain ⟨m1, m2, e1, e2, hr2⟩ := h1.seq h2 start (start + BitVec.ofNat 64 l1) m hr hip
    (by show s.ip + BitVec.ofNat 64 l1 = _; rw [hip]; grind)
  have hback : s.gp rsp + 8#64 - 8#64 = s.gp rsp := BitVec.add_sub_cancel _ _
  refine ⟨m1, m2, e1, e2, ?_, ?_⟩
  · rw [hr2.gp]
    exact congrArg some hback
  · rw [hr2.mem]
    show (s.mem.write (s.gp rsp + 8#64 - 8#64) 8 _).toV = _
    rw [hback]; rfl

/-- SAHF then LAHF: AH keeps the bits of the five flags it holds and the fixed bits are 1, 0, 0. -/
theorem C21_sahf_lahf (l1 l2 : Nat) (hd : ∃ b, s.fl .df = some b) (ho : ∃ b, s.fl .of = some b)
    (start : BitVec 64) (m : St) (hr : Rel slide m s) (hip : s.ip = start + slide) :
    ∃ m1 m2, lift cfg slide .sahf start l1 m = some { st := m1 } ∧
      lift cfg slide .lahf (start + BitVec.ofNat 64 l1) l2 m1 = some { st := m2 } ∧
      m2.getH rax = some (s.regH 0 &&& 0xd5#8 ||| 0x02#8) ∧
      (∀ r, r ≠ rax → m2.gp r = some (s.gp r)) := by
  obtain ⟨df, hdf⟩ := hd
  obtain ⟨of, hof⟩ := ho
  have h1 := sim_sahf (cfg := cfg) (slide := slide) (len := l1) (s := s) rfl
  obtain ⟨s1, hs1⟩ : ∃ s1, step .sahf l1 s = some s1 := ⟨_, rfl⟩
  have h1 := sim_sahf (cfg := cfg) (slide := slide) hs1
  have hs1' : s1.gp = s.gp ∧ s1.ip = s.ip + BitVec.ofNat 64 l1 ∧ s1.fl .df = some df ∧ s1.fl .of = some of ∧
      s1.fl .cf = some ((s.regH 0).getLsbD 0) ∧ s1.fl .pf = some ((s.regH 0).getLsbD 2) ∧
      s1.fl .af = some ((s.regH 0).getLsbD 4) ∧ s1.fl .zf = some ((s.regH 0).getLsbD 6) ∧
      s1.fl .sf = some ((s.regH 0).getLsbD 7) := by
    cases hs1; exact ⟨rfl, rfl, hdf, hof, rfl, rfl, rfl, rfl, rfl⟩
  obtain ⟨g1, g2, g3, g4, g5, g6, g7, g8, g9⟩ := hs1'
  have hval : step .lahf l2 s1 = some ((s1.nx l2).setRegH 0 (s.regH 0 &&& 0xd5#8 ||| 0x02#8)) := by
    simp only [step, exec, S.rflags, g5, g6, g7, g8, g9, Option.bind_eq_bind, Option.bind_some,
      Option.pure_def, Option.some.injEq]
    congr 1
    apply BitVec.eq_of_getLsbD_eq; intro i hi
    generalize s.regH 0 = v
    rcases (by omega : i = 0 ∨ i = 1 ∨ i = 2 ∨ i = 3 ∨ i = 4 ∨ i = 5 ∨ i = 6 ∨ i = 7)
      with rfl | rfl | rfl | rfl | rfl | rfl | rfl | rfl <;>
    (rw [BitVec.getLsbD_or, BitVec.getLsbD_and]
     generalize v.getLsbD 0 = b0, v.getLsbD 2 = b2, v.getLsbD 4 = b4, v.getLsbD 6 = b6,
       v.getLsbD 7 = b7
     generalize v.getLsbD 1 = x1
     generalize v.getLsbD 3 = x3
     generalize v.getLsbD 5 = x5
     clear hi
     revert b0 b2 b4 b6 b7 x1 x3 x5
     decide)
  have h2 := sim_lahf (cfg := cfg) (slide := slide) ⟨_, g3⟩ ⟨_, g4⟩ hval
  obtain ⟨m1, m2, e1, e2, hr2⟩ := h1.seq h2 start (start + BitVec.ofNat 64 l1) m hr hip
    (by rw [g2, hip]; grind)
  refine ⟨m1, m2, e1, e2, ?_, ?_⟩
  · rw [show rax = hreg 0 from rfl, hr2.getH]
    simp only [S.regH, S.setRegH, S.setGp, if_true, Option.some.injEq]
    apply BitVec.eq_of_getLsbD_eq; intro i hi
    simp only [BitVec.getLsbD_append, BitVec.getLsbD_extractLsb']
    simp [hi, show ¬ 8 + i < 8 by omega]
  · intro r hr'
    rw [hr2.gp]
    show some (if r = rax then _ else s1.gp r) = _
    rw [if_neg hr', g1]

-- hypotheses are met: RSP is aligned, all flags are defined
example : Aligned (s0.gp rsp) 8 ∧ ∀ f, ∃ b, s0.fl f = some b :=
  ⟨by simp only [Aligned]; decide +kernel, fun f => ⟨_, rfl⟩⟩
example : s0.rflags = some 0x203 := by decide +kernel

/-! ### C22: shifts and rotates -/

/-- Shifts by a count that is not zero (modulo 32 or 64): result and all defined flags. -/
theorem C22_shift (k : Shift) (z : Sz) (d c : Op) (hd : Op.plain d = true) (hc : Op.plain c = true)
    (cv : BitVec 8) (hcv : (s.nx len).read .b c = some cv)
    (h0 : count z cv ≠ 0) (hs : step (.shift k z d c) len s = some s') :
    Simulates cfg slide (.shift k z d c) len s s' :=
  .of_body (fun m => liftShift slide m k z d c) (fun _ _ => rfl) (fun m h => by
    have := body_shift h k z d c hd hc cv hcv hs
    rwa [if_neg h0] at this)

/-- Shifts by any count.  Missing for a zero count: the flags (which should keep their values). -/
theorem C22_shift_partial (k : Shift) (z : Sz) (d c : Op) (hd : Op.plain d = true) (hc : Op.plain c = true)
    (cv : BitVec 8) (hcv : (s.nx len).read .b c = some cv) (hs : step (.shift k z d c) len s = some s') :
    Simulates cfg slide (.shift k z d c) len s (if count z cv = 0 then s'.forget status else s') :=
  .of_body (fun m => liftShift slide m k z d c) (fun _ _ => rfl)
    (fun _ h => body_shift h k z d c hd hc cv hcv hs)

/-- SHLD and SHRD.  Missing: CF and OF (always undefined in the lifted code), counts not below the operand
size, and for a zero count all flags, and the upper half of a 32-bit register, which is cleared. -/
theorem C22_shiftd_partial (left : Bool) (z : Sz) (d r c : Op) (hd : Op.plain d = true)
    (hr : Op.plain r = true) (hc : Op.plain c = true) (cv : BitVec 8)
    (hcv : (s.nx len).read .b c = some cv) (hdi : ∀ v, d ≠ .imm v)
    (hu : count z cv = 0 → UpperZero (s.nx len) z d) (hlt : count z cv < z.bits)
    (hs : step (.shiftd left z d r c) len s = some s') :
    Simulates cfg slide (.shiftd left z d r c) len s
      (s'.forget (if count z cv = 0 then status else cfof)) :=
  .of_body (fun m => liftShiftd slide m left z d r c) (fun _ _ => rfl)
    (fun _ h => body_shiftd h left z d r c hd hr hc cv hcv hdi hu hlt hs)

/-- ROL and ROR.  Missing: CF and OF (always undefined in the lifted code). -/
theorem C22_rotate_partial (left : Bool) (z : Sz) (d c : Op) (hd : Op.plain d = true)
    (hc : Op.plain c = true) (cv : BitVec 8) (hcv : (s.nx len).read .b c = some cv)
    (hs : step (.rotate left z d c) len s = some s') :
    Simulates cfg slide (.rotate left z d c) len s (s'.forget cfof) :=
  .of_body (fun m => liftRotate slide m left z d c) (fun _ _ => rfl)
    (fun _ h => body_rotate h left z d c hd hc cv hcv hs)

-- `sar dl, 9`: the count exceeds the operand size
example : specGp (.shift .sar .b (.reg 2) (.imm 9)) s0 2 = some (-1) ∧
    liftGp (.shift .sar .b (.reg 2) (.imm 9)) s0 2 = some (some (-1)) ∧
    specFl (.shift .sar .b (.reg 2) (.imm 9)) s0 .cf = some (some true) := by decide +kernel
-- `rol bx, cl`
example : specGp (.rotate true .w (.reg 3) (.reg 1)) s0 3 = some 56 ∧
    liftGp (.rotate true .w (.reg 3) (.reg 1)) s0 3 = some (some 56) := by decide +kernel

/-- `shl rax, 0` should keep CF, which becomes poison. -/
theorem C22_shift_zero_counterexample : ∃ s', step (.shift .shl .q (.reg 0) (.imm 0)) 4 s0 = some s' ∧
    ¬ Simulates {} 0 (.shift .shl .q (.reg 0) (.imm 0)) 4 s0 s' := refuted_fl .cf true (by decide +kernel)

/-- `shrd r8d, ecx, 0` is no operation (SDM), but clears the upper half of R8. -/
theorem C22_shiftd_upper_counterexample : ∃ s', step (.shiftd false .d (.reg 8) (.reg 1) (.imm 0)) 4 s0 = some s' ∧
    ¬ Simulates {} 0 (.shiftd false .d (.reg 8) (.reg 1) (.imm 0)) 4 s0 s' := refuted_gp 8 (by decide +kernel)

-- `shr r8d, cl` with CL = 0 clears the upper half of R8, as it should
example : specGp (.shift .shr .d (.reg 8) (.reg 9)) s0 8 = liftGp (.shift .shr .d (.reg 8) (.reg 9)) s0 8 := by decide +kernel

/-- `rol rax, 1` should set CF to the bit rotated out. -/
theorem C22_rotate_flags_counterexample :
    ∃ s', step (.rotate true .q (.reg 0) (.imm 1)) 4 s0 = some s' ∧
    ¬ Simulates {} 0 (.rotate true .q (.reg 0) (.imm 1)) 4 s0 s' := refuted_fl .cf false (by decide +kernel)

/-- `shld ax, cx, 16` should copy CX to AX. -/
theorem C22_shiftd_counterexample :
    ∃ s', step (.shiftd true .w (.reg 0) (.reg 1) (.imm 16)) 4 s0 = some s' ∧
    ¬ Simulates {} 0 (.shiftd true .w (.reg 0) (.reg 1) (.imm 16)) 4 s0 s' :=
  refuted_gp 0 (by decide +kernel)

/-! ### C23: multiplication and division -/

theorem C23_mul (signed : Bool) (z : Sz) (r : Op) (hr : Op.plain r = true)
    (hs : step (.mul1 signed z r) len s = some s') : Simulates cfg slide (.mul1 signed z r) len s s' :=
  .of_body (fun m => liftMul1 cfg slide m signed z r) (fun _ _ => rfl)
    (fun _ h => body_mul1 cfg h signed z r hr hs)

theorem C23_imul (z : Sz) (d r t : Op) (hd : Op.plain d = true) (hr : Op.plain r = true)
    (ht : Op.plain t = true) (hs : step (.imul2 z d r t) len s = some s') :
    Simulates cfg slide (.imul2 z d r t) len s s' :=
  .of_body (fun m => liftImul2 cfg slide m z d r t) (fun _ _ => rfl)
    (fun _ h => body_imul2 cfg h z d r t hd hr ht hs)

/-- DIV and IDIV whenever the architecture does not raise #DE, also with the optimisation for a known upper
half (`HighOk`: what the lifter inferred about RDX is true).  Missing: IDIV with an upper half that is an
arithmetic shift by a variable amount. -/
theorem C23_div_partial (signed : Bool) (z : Sz) (r : Op) (high : High) (hr : Op.plain r = true)
    (hh : z ≠ .b → HighOk s signed z high) (hs : step (.div signed z r high) len s = some s') :
    Simulates cfg slide (.div signed z r high) len s s' :=
  .of_body (fun m => liftDiv slide m signed z r high) (fun _ _ => rfl)
    (fun _ h => body_div h signed z r high hr hh hs)

/-- What the specification says about DIV/IDIV: the division identity, and a remainder smaller than the
divisor with the sign of the dividend. -/
theorem C23_div_identity (signed : Bool) (z : Sz) (r : Op) (high : High) (hz : z ≠ .b) (v : BitVec z.bits)
    (hv : (s.nx len).read z r = some v) (hs : step (.div signed z r high) len s = some s') :
    num signed v * num signed (s'.reg rax z) + num signed (s'.reg rdx z) = s.dividend signed z ∧
    (num signed (s'.reg rdx z)).natAbs < (num signed v).natAbs := by
  simp only [step, exec, stepDiv, hv, Option.bind_eq_bind, Option.bind_some] at hs
  split at hs
  · cases hs
  rename_i hde
  simp only [not_or, Bool.not_eq_false] at hde
  obtain ⟨hv0, hfit⟩ := hde
  simp only [Option.pure_def, Option.some.injEq] at hs
  subst hs
  have hm : ∀ x : Int, (x.tmod (num signed v)).natAbs < (num signed v).natAbs := fun x => by
    rw [Int.natAbs_tmod]
    exact Nat.mod_lt _ (by omega)
  have hx0 : signed = false → 0 ≤ (s.nx len).dividend signed z := by
    rintro rfl
    cases z with
    | b => exact absurd rfl hz
    | _ =>
      simp only [S.dividend, num, Bool.false_eq_true, if_false]
      exact Int.add_nonneg (Int.mul_nonneg (Int.natCast_nonneg _) (Int.pow_nonneg (by decide))) (Int.natCast_nonneg _)
  have hb : 0 < z.bits := by cases z <;> decide
  have hmfit : fits signed z.bits (((s.nx len).dividend signed z).tmod (num signed v)) = true := by
    have h1 := hm ((s.nx len).dividend signed z)
    cases signed
    · simp only [fits, Bool.false_eq_true, if_false, decide_eq_true_eq]
      have h2 : 0 ≤ ((s.nx len).dividend false z).tmod (num false v) := Int.tmod_nonneg _ (hx0 rfl)
      refine ⟨h2, ?_⟩
      have h3 : num false v < 2 ^ z.bits := by
        simp only [num, Bool.false_eq_true, if_false]; exact_mod_cast v.isLt
      have h4 : 0 ≤ num false v := by simp [num]
      omega
    · simp only [fits, if_true, sOver, Bool.not_eq_true', decide_eq_false_iff_not]
      have h3 := @BitVec.two_mul_toInt_lt _ v
      have h4 := @BitVec.le_two_mul_toInt _ v
      simp only [num, if_true] at h1 ⊢
      have hp2 : (2 : Int) ^ z.bits = 2 * 2 ^ (z.bits - 1) := by
        rw [← Int.pow_succ']; congr 1; omega
      omega
  have ha : ∀ q r : BitVec z.bits, (((s.nx len).setReg rax z q).setRem z r).reg rax z = q ∧
      (((s.nx len).setReg rax z q).setRem z r).reg rdx z = r := by
    intro q r
    cases z with
    | b => exact absurd rfl hz
    | _ =>
      constructor <;> simp only [S.setRem, S.setReg, S.setGp, S.reg, if_true,
        if_neg (show ¬ rax = rdx by decide)] <;>
      (apply BitVec.eq_of_getLsbD_eq; intro i hi
       simp only [Sz.bits, Sz.bytes] at hi
       simp [BitVec.getLsbD_append, BitVec.getLsbD_extractLsb', show i < _ from hi])
  have ha' := ha (BitVec.ofInt z.bits (((s.nx len).dividend signed z).tdiv (num signed v)))
    (BitVec.ofInt z.bits (((s.nx len).dividend signed z).tmod (num signed v)))
  show num signed v * num signed (S.reg (((s.nx len).setReg rax z _).setRem z _) rax z) +
      num signed (S.reg (((s.nx len).setReg rax z _).setRem z _) rdx z) = (s.nx len).dividend signed z ∧
    (num signed (S.reg (((s.nx len).setReg rax z _).setRem z _) rdx z)).natAbs < _
  rw [ha'.1, ha'.2, num_ofInt_of_range signed hb _ hfit, num_ofInt_of_range signed hb _ hmfit]
  exact ⟨Int.mul_tdiv_add_tmod _ _, hm _⟩

-- `mul r8`, `idiv cl`
example : specGp (.mul1 false .q (.reg 2)) s0 2 = some 4 ∧
    liftGp (.mul1 false .q (.reg 2)) s0 2 = some (some 4) ∧
    liftGp (.mul1 false .q (.reg 2)) s0 0 = some (some (-5)) := by decide +kernel
example : specGp (.div true .b (.reg 1) .unknown) s0 0 = some 0x201 ∧
    liftGp (.div true .b (.reg 1) .unknown) s0 0 = some (some 0x201) := by decide +kernel
-- `xor edx, edx; div rcx` takes the short form
example : specGp (.div false .q (.reg 1) .null) { s0 with gp := fun r => if r = 2 then 0 else s0.gp r } 2 =
    some 2 ∧
    liftGp (.div false .q (.reg 1) .null) { s0 with gp := fun r => if r = 2 then 0 else s0.gp r } 2 =
    some (some 2) := by decide +kernel

/-- The lifter dereferences a null pointer if RDX was computed by `sar rdx, cl`. -/
theorem C23_div_null_counterexample (r : Op) (m : St) (start : BitVec 64) (z : Sz) (hz : z ≠ .b) :
    lift cfg slide (.div true z r (.ashr none)) start len m = none := by
  simp [lift, liftDiv, divCore, hz, divShort]

/-! ### C24: string instructions -/

/-- LODS, STOS, MOVS, SCAS, CMPS with all prefixes: the lifted loop (the memset for REP STOSB) has the effect
of the architecture's loop for every count, direction and memory.  Missing: 32-bit address size, segment
overrides, and pointers not aligned to the element size (the emitted accesses claim alignment). -/
theorem C24_strings_partial (k : Str) (z : Sz) (rep : Rep) (hd : ∃ df, s.fl .df = some df)
    (ha : StrAligned s k z) (hs : step (.str k z rep false .none) len s = some s') :
    Simulates cfg slide (.str k z rep false .none) len s s' := sim_str k z rep hd ha hs

/-- The architectural loop always ends: the fuel of `repStep` is enough, `none` only stands for REPNZ on an
instruction that does not compare. -/
theorem rep_defined (k : Str) (z : Sz) (rep : Rep) (df : Bool) :
    ∀ n (s : S), s.fl .df = some df → (s.gp rcx).toNat ≤ n → (repStep k z rep false .none n s).isSome = true := by
  intro n
  induction n with
  | zero =>
    intro s _ hn
    have : s.gp rcx = 0 := BitVec.eq_of_toNat_eq (by simp at *; omega)
    simp [repStep, S.ptr, this]
  | succ n ih =>
    intro s hdf hn
    unfold repStep
    by_cases h0 : s.ptr false rcx = 0
    · simp [h0]
    rw [if_neg h0]
    have h0' : s.gp rcx ≠ 0 := h0
    have hpos : (s.gp rcx).toNat ≠ 0 := fun h => h0' (BitVec.eq_of_toNat_eq (by simpa using h))
    have hdec : (s.gp rcx - 1).toNat ≤ n := by
      rw [BitVec.toNat_sub]
      have := (s.gp rcx).isLt
      have e : (1 : BitVec 64).toNat = 1 := rfl
      rw [e]; omega
    obtain ⟨s1, hs1, h1, h2⟩ : ∃ s1, strStep s k z false .none = some s1 ∧ s1.fl .df = some df ∧
        (k.isCmp = true → ∃ b, s1.fl .zf = some b) := by
      simp only [strStep, hdf, Option.bind_eq_bind, Option.bind_some]
      cases k <;> simp [S.advance, S.setGp, S.subFl, S.resFl, S.store, S.setReg, hdf, Str.isCmp]
      case lods => cases z <;> simp [S.setGp, hdf]
      all_goals exact (Decidable.em _).symm
    simp only [hs1, Option.bind_eq_bind, Option.bind_some, Bool.false_eq_true, if_false]
    have hstop : ∃ b, repStop (s1.setGp rcx (s.ptr false rcx - 1)) k rep = some b := by
      unfold repStop
      split <;> first | exact ⟨_, rfl⟩ | (obtain ⟨b, hb⟩ := h2 rfl; exact ⟨_, by
        first
          | (show (s1.fl .zf).map Bool.not = some _; rw [hb]; rfl)
          | (show s1.fl .zf = some _; rw [hb])⟩)
    obtain ⟨b, hb⟩ := hstop
    rw [hb]
    simp only [Option.bind_some]
    cases b
    · exact ih _ h1 hdec
    · rfl

/-- With a zero count nothing happens. -/
theorem C24_zero_count (k : Str) (z : Sz) (rep : Rep) (hrep : rep ≠ .none)
    (hnz : rep = .repnz → k.isCmp = true) (hc : s.gp rcx = 0) :
    step (.str k z rep false .none) len s = some (s.nx len) := by
  cases rep with
  | none => exact absurd rfl hrep
  | rep => simp [step, exec, stepStr, repStep, S.ptr, hc]
  | repnz => simp [step, exec, stepStr, repStep, S.ptr, hc, hnz rfl]

-- `rep movsq` with RCX = 3
example : specGp (.str .movs .q .rep false .none) s0 7 = some 0x3018 ∧
    liftGp (.str .movs .q .rep false .none) s0 7 = some (some 0x3018) ∧
    liftGp (.str .movs .q .rep false .none) s0 1 = some (some 0) := by decide +kernel
example : ∃ s', step (.str .scas .b .repnz false .none) 4 s0 = some s' ∧
    Simulates {} 0 (.str .scas .b .repnz false .none) 4 s0 s' := by
  obtain ⟨s', h⟩ := Option.isSome_iff_exists.1
    (rep_defined .scas .b .repnz false (s0.gp rcx).toNat (s0.nx 4) rfl (Nat.le_refl _))
  exact ⟨s', h, C24_strings_partial .scas .b .repnz ⟨_, rfl⟩
    ⟨fun h => by simp [Str.hasSi] at h, fun _ => by simp only [Aligned, Sz.bytes]; omega⟩ h⟩

/-- `stosd` with a misaligned RDI is undefined behaviour in the lifted code. -/
theorem C24_alignment_counterexample :
    ∃ s', step (.str .stos .d .none false .none) 4 { s0 with gp := fun _ => 1 } = some s' ∧
    ¬ Simulates {} 0 (.str .stos .d .none false .none) 4 { s0 with gp := fun _ => 1 } s' :=
  refuted_ub (by decide +kernel)

/-- `lodsb gs:` ignores the segment override. -/
theorem C24_segment_counterexample :
    ∃ s', step (.str .lods .b .none false .gs) 4 s0 = some s' ∧
    ¬ Simulates {} 0 (.str .lods .b .none false .gs) 4 s0 s' := refuted_gp 0 (by decide +kernel)

/-- A string instruction with 32-bit address size uses and updates the full registers. -/
theorem C24_address_size_counterexample :
    ∃ s', step (.str .stos .b .none true .none) 4 { s0 with gp := fun _ => 0xffffffff } = some s' ∧
    ¬ Simulates {} 0 (.str .stos .b .none true .none) 4 { s0 with gp := fun _ => 0xffffffff } s' :=
  refuted_gp 7 (by decide +kernel)

/-! ### C25: stack -/

theorem C25_push (z : Sz) (r : Op) (hr : Op.plain r = true) (ha : Aligned (s.gp rsp) z.bytes)
    (hs : step (.push z r) len s = some s') : Simulates cfg slide (.push z r) len s s' := sim_push z r hr ha hs

/-- POP of 64 bits (also POP RSP and POP [RSP+x]).  Missing: 16-bit POP and a misaligned stack. -/
theorem C25_pop_partial (d : Op) (hd : Op.plain d = true) (ha : Aligned (s.gp rsp) 8)
    (hs : step (.pop .q d) len s = some s') : Simulates cfg slide (.pop .q d) len s s' := sim_pop d hd ha hs

theorem C25_leave (ha : Aligned (s.gp rbp) 8) (hs : step .leave len s = some s') :
    Simulates cfg slide .leave len s s' := sim_leave ha hs

/-- CALL without a call function (`callFl`: with `clobberFlags` the status flags are unspecified). -/
theorem C25_call (r : Op) (hr : Op.plain r = true) (hg : ∀ a, r = .mem a → a.seg = .none)
    (hf : cfg.callFunction = none) (ha : Aligned (s.gp rsp) 8) (hs : step (.call r) len s = some s') :
    Simulates cfg slide (.call r) len s (callFl cfg s') := sim_call r hr hg hf ha hs

theorem C25_call_rel (off : BitVec 64) (hf : cfg.callFunction = none) (ha : Aligned (s.gp rsp) 8)
    (hs : step (.callRel off) len s = some s') :
    Simulates cfg slide (.callRel off) len s (callFl cfg s') := sim_callRel off hf ha hs

/-- CALL with a call function: it is called in the architectural state at the callee's entry, and the result
is what it makes of that state. -/
theorem C25_call_rel_function {f : St → Option St} (off : BitVec 64) (hf : cfg.callFunction = some f)
    (ha : Aligned (s.gp rsp) 8) (hs : step (.callRel off) len s = some s') (s2 : S)
    (hcallee : ∀ m1, Rel slide m1 (callFl cfg s') → ∃ m2, f m1 = some m2 ∧ Rel slide m2 s2) :
    Simulates cfg slide (.callRel off) len s s2 := sim_callRel_function off hf ha hs s2 hcallee

theorem C25_ret (pop : Option (BitVec 64)) (ha : Aligned (s.gp rsp) 8)
    (hs : step (.ret pop) len s = some s') (start : BitVec 64) (m : St) (h : Rel slide m s) :
    ∃ m', lift cfg slide (.ret pop) start len m = some { st := m', returned := cfg.callFunction.isSome } ∧
      Rel slide m' (callFl cfg s') := sim_ret pop ha hs start m h

/-- PUSH then POP moves the value, keeps all other registers and changes only the pushed bytes. -/
theorem C25_push_pop (r : Op) (x : Fin 16) (l1 l2 : Nat) (hr : Op.plain r = true)
    (ha : Aligned (s.gp rsp) 8) (v : BitVec 64) (hv : (s.nx l1).read .q r = some v)
    (start : BitVec 64) (m : St) (hrel : Rel slide m s) (hip : s.ip = start + slide) :
    ∃ m1 m2, lift cfg slide (.push .q r) start l1 m = some { st := m1 } ∧
      lift cfg slide (.pop .q (.reg x)) (start + BitVec.ofNat 64 l1) l2 m1 = some { st := m2 } ∧
      m2.gp x = some v ∧ (∀ y, y ≠ x → m2.gp y = some (s.gp y)) ∧
      m2.mem = (s.mem.write (s.gp rsp - 8) 8 v).toV := by
  have e1 : step (.push .q r) l1 s = some ((s.nx l1).push .q v) := by
    simp only [step, exec, hv]; rfl
  have e2 : step (.pop .q (.reg x)) l2 ((s.nx l1).push .q v) =
      some (((((s.nx l1).push .q v).pop .q).2.nx l2).setGp x v) := by
    have : ((((s.nx l1).push .q v).nx l2).pop .q).1 = v := pop_push (s.nx l1) .q v
    show some (S.setReg ((((s.nx l1).push .q v).nx l2).pop .q).2 x .q
      ((((s.nx l1).push .q v).nx l2).pop .q).1) = _
    rw [this]; rfl
  have h1 := sim_push (cfg := cfg) (slide := slide) .q r hr (len := l1) ha e1
  have h2 := sim_pop (cfg := cfg) (slide := slide) (len := l2) (s := (s.nx l1).push .q v) (.reg x) rfl
    (aligned_sub (z := .q) ha) e2
  obtain ⟨m1, m2, e1, e2, hr2⟩ := h1.seq h2 start (start + BitVec.ofNat 64 l1) m hrel hip
    (by show s.ip + BitVec.ofNat 64 l1 = _; rw [hip]; grind)
  refine ⟨m1, m2, e1, e2, ?_, ?_, ?_⟩
  · rw [hr2.gp]; simp [S.setGp]
  · intro y hy
    rw [hr2.gp]
    show some (if y = x then v else (((s.nx l1).push .q v).pop .q).2.gp y) = _
    rw [if_neg hy, pop_push_gp]
  · rw [hr2.mem]; rfl

-- `push rsp` stores the old value, `pop rsp` ends with the loaded value
example : specGp (.push .q (.reg 4)) s0 4 = some 0xff8 ∧
    ((step (.push .q (.reg 4)) 4 s0).map (·.mem.read 0xff8 8)) = some 0x1000#64 := by decide +kernel
example : (specGp (.pop .q (.reg 4)) s0 4) = some (s0.mem.read 0x1000 8) ∧
    liftGp (.pop .q (.reg 4)) s0 4 = some (some (s0.mem.read 0x1000 8)) := by decide +kernel

/-- `pop word ptr [rsi]` pops and stores eight bytes. -/
theorem C25_pop16_counterexample :
    ∃ s', step (.pop .w (.mem { base := .reg 6 })) 4 s0 = some s' ∧
    ¬ Simulates {} 0 (.pop .w (.mem { base := .reg 6 })) 4 s0 s' := refuted_gp 4 (by decide +kernel)

/-- `popf` with operand size 16 pops eight bytes. -/
theorem C25_popf16_counterexample : ∃ s', step (.popf .w) 4 s0 = some s' ∧
    ¬ Simulates {} 0 (.popf .w) 4 s0 s' := refuted_gp 4 (by decide +kernel)

/-- `push rax` with a misaligned stack pointer is undefined behaviour in the lifted code. -/
theorem C25_alignment_counterexample :
    ∃ s', step (.push .q (.reg 0)) 4 { s0 with gp := fun _ => 1 } = some s' ∧
    ¬ Simulates {} 0 (.push .q (.reg 0)) 4 { s0 with gp := fun _ => 1 } s' := refuted_ub (by decide +kernel)

/-! ### C26: exchange -/

/-- XCHG for all register pairs (also identical and high-byte ones) and aligned memory. -/
theorem C26_xchg (z : Sz) (d r : Op) (hd : Op.plain d = true) (hr : ∀ o, r ≠ .mem o)
    (ha : ∀ o, d = .mem o → ((s.nx len).ea o).toNat % z.bytes = 0)
    (hs : step (.xchg z d r) len s = some s') : Simulates cfg slide (.xchg z d r) len s s' :=
  .of_body (fun m => liftXchg slide m z d r) (fun _ _ => rfl) (fun _ h => body_xchg h z d r hd hr ha hs)

/-- XADD.  Missing: identical registers (`XaddOk`). -/
theorem C26_xadd_partial (z : Sz) (lock : Bool) (d r : Op) (hd : Op.plain d = true)
    (hl : LockOk (s.nx len) z lock d) (hx : XaddOk d r) (hs : step (.arith .xadd z lock d r) len s = some s') :
    Simulates cfg slide (.arith .xadd z lock d r) len s s' :=
  .of_body (fun m => liftArith cfg slide m .xadd z lock d r) (fun _ _ => rfl)
    (fun _ h => body_xadd cfg h z lock d r hd hl hx hs)

/-- CMPXCHG.  Missing: the accumulator as destination, and for a 32-bit comparison that succeeds RAX with a non-zero
upper half (`CmpxchgOk`). -/
theorem C26_cmpxchg_partial (z : Sz) (lock : Bool) (d r : Op) (hd : Op.plain d = true)
    (hr : Op.plain r = true) (hl : LockOk (s.nx len) z lock d) (hok : CmpxchgOk (s.nx len) z d)
    (hs : step (.cmpxchg z lock d r) len s = some s') : Simulates cfg slide (.cmpxchg z lock d r) len s s' :=
  .of_body (fun m => liftCmpxchg slide m z lock d r) (fun _ _ => rfl)
    (fun _ h => body_cmpxchg h z lock d r hd hr hl hok hs)

-- `xchg al, ah`; `lock cmpxchg [rsi], rbx` succeeding and failing
example : specGp (.xchg .b (.reg 0) (.regH 0)) s0 0 = some 0x500 ∧
    liftGp (.xchg .b (.reg 0) (.regH 0)) s0 0 = some (some 0x500) := by decide +kernel
example : ∃ s', step (.cmpxchg .q true (.mem { base := .reg 6 }) (.reg 3)) 4 s0 = some s' ∧
    Simulates {} 0 (.cmpxchg .q true (.mem { base := .reg 6 }) (.reg 3)) 4 s0 s' :=
  ⟨_, rfl, C26_cmpxchg_partial .q true _ _ rfl rfl (fun _ => ⟨_, rfl, by decide +kernel⟩)
    ⟨by simp, by simp⟩ rfl⟩

/-- `xadd rax, rax` should double RAX. -/
theorem C26_xadd_counterexample : ∃ s', step (.arith .xadd .q false (.reg 0) (.reg 0)) 4 s0 = some s' ∧
    ¬ Simulates {} 0 (.arith .xadd .q false (.reg 0) (.reg 0)) 4 s0 s' := refuted_gp 0 (by decide +kernel)

/-- `cmpxchg rax, rcx` should copy RCX to RAX. -/
theorem C26_cmpxchg_counterexample : ∃ s', step (.cmpxchg .q false (.reg 0) (.reg 1)) 4 s0 = some s' ∧
    ¬ Simulates {} 0 (.cmpxchg .q false (.reg 0) (.reg 1)) 4 s0 s' := refuted_gp 0 (by decide +kernel)

/-- `cmpxchg r9d, ecx` that succeeds should not change RAX, but clears its upper half. -/
theorem C26_cmpxchg_upper_counterexample :
    ∃ s', step (.cmpxchg .d false (.reg 9) (.reg 1)) 4
      { s0 with gp := fun r => if r = 0 then 0xff00000000 else s0.gp r } = some s' ∧
    ¬ Simulates {} 0 (.cmpxchg .d false (.reg 9) (.reg 1)) 4
      { s0 with gp := fun r => if r = 0 then 0xff00000000 else s0.gp r } s' := refuted_gp 0 (by decide +kernel)

/-! ### C41: addresses -/

/-- LEA computes the offset for every addressing form.  Missing: EIP-relative operands (`LeaOk`). -/
theorem C41_lea_partial (z : Sz) (d : Op) (o : MemOp) (hd : Op.plain d = true) (ho : LeaOk o)
    (hs : step (.lea z d o) len s = some s') : Simulates cfg slide (.lea z d o) len s s' :=
  .of_body (fun m => liftLea slide m z d o) (fun _ _ => rfl) (fun _ h => body_lea h z d o hd ho hs)

/-- A load uses the address segment base + base + index * scale + displacement, truncated to the address
size.  Missing: the forms excluded by `MemOp.plain`. -/
theorem C41_load_partial (z : Sz) (x : Fin 16) (o : MemOp) (ho : MemOp.plain o = true) :
    Simulates cfg slide (.mov z z (.reg x) (.mem o)) len s
      ((s.nx len).setReg x z ((s.nx len).mem.read ((s.nx len).segBase o.seg + (s.nx len).offset o) z.bytes)) :=
  .of_body (fun m => liftMov slide m z z (.reg x) (.mem o)) (fun _ _ => rfl)
    (fun _ h => body_mov h z z (.reg x) (.mem o) rfl ho (by
      simp only [S.read, S.ea, Option.bind_eq_bind, Option.bind_some, BitVec.signExtend_eq]; rfl))

/-- Likewise a store. -/
theorem C41_store_partial (z : Sz) (x : Fin 16) (o : MemOp) (ho : MemOp.plain o = true) :
    Simulates cfg slide (.mov z z (.mem o) (.reg x)) len s
      ((s.nx len).store ((s.nx len).segBase o.seg + (s.nx len).offset o) z.bytes ((s.nx len).reg x z)) :=
  .of_body (fun m => liftMov slide m z z (.mem o) (.reg x)) (fun _ _ => rfl)
    (fun _ h => body_mov h z z (.mem o) (.reg x) ho rfl (by
      simp only [S.read, S.ea, Option.bind_eq_bind, Option.bind_some, BitVec.signExtend_eq]; rfl))

-- `lea rax, [rsi + 8*rcx - 16]`, `lea eax, [rdx + 2]` wraps, `mov al, fs:[rcx]`
example : specGp (.lea .q (.reg 0) { base := .reg 6, idx := some (1, 3), off := -16 }) s0 0 = some 0x2008 ∧
    liftGp (.lea .q (.reg 0) { base := .reg 6, idx := some (1, 3), off := -16 }) s0 0 =
      some (some 0x2008) := by decide +kernel
example : specGp (.lea .q (.reg 0) { a32 := true, base := .reg 2, off := 2 }) s0 0 = some 1 ∧
    liftGp (.lea .q (.reg 0) { a32 := true, base := .reg 2, off := 2 }) s0 0 = some (some 1) := by
  decide +kernel
example : s0.ea { seg := .fs, base := .reg 1 } = 0x10003 := by decide +kernel

/-- `lea rax, [eip + x]` is not truncated to 32 bits. -/
theorem C41_lea_eip_counterexample :
    ∃ s', step (.lea .q (.reg 0) { a32 := true, base := .ip, off := 0xfffffffff }) 4 s0 = some s' ∧
    ¬ Simulates {} 0 (.lea .q (.reg 0) { a32 := true, base := .ip, off := 0xfffffffff }) 4 s0 s' :=
  refuted_gp 0 (by decide +kernel)

/-- `mov rax, fs:[rip + x]` fails an assertion. -/
theorem C41_fs_rip_counterexample :
    ∃ s', step (.mov .q .q (.reg 0) (.mem { seg := .fs, base := .ip })) 4 s0 = some s' ∧
    ¬ Simulates {} 0 (.mov .q .q (.reg 0) (.mem { seg := .fs, base := .ip })) 4 s0 s' :=
  refuted_ub (by decide +kernel)

/-- `mov rax, gs:[esi]` mixes 32-bit and 64-bit types. -/
theorem C41_gs_addr32_counterexample :
    ∃ s', step (.mov .q .q (.reg 0) (.mem { seg := .gs, a32 := true, base := .reg 6 })) 4 s0 = some s' ∧
    ¬ Simulates {} 0 (.mov .q .q (.reg 0) (.mem { seg := .gs, a32 := true, base := .reg 6 })) 4 s0 s' :=
  refuted_ub (by decide +kernel)

/-- `xlatb fs:` ignores the segment override. -/
theorem C41_xlat_counterexample : ∃ s', step (.xlat false .fs) 4 s0 = some s' ∧
    ¬ Simulates {} 0 (.xlat false .fs) 4 s0 s' := refuted_gp 0 (by decide +kernel)

/-- `jmp fs:[rsi]` ignores the segment override. -/
theorem C41_jmp_counterexample :
    ∃ s', step (.jmp (.mem { seg := .fs, base := .reg 6 })) 4 s0 = some s' ∧
    ¬ Simulates {} 0 (.jmp (.mem { seg := .fs, base := .reg 6 })) 4 s0 s' := by
  refine ⟨_, rfl, fun hsim => ?_⟩
  obtain ⟨m', e, hr⟩ := hsim s0.ip (s0.rep 0) (rep_rel 0 s0) (BitVec.add_zero _).symm
  have h1 : ((lift {} 0 (.jmp (.mem { seg := .fs, base := .reg 6 })) s0.ip 4 (s0.rep 0)).map
      (·.st.pc.val 0)) = some (some (s0.mem.read 0x2000 8)) := by decide +kernel
  rw [e] at h1
  have h2 := hr.pc
  simp only [Option.map_some, Option.some.injEq] at h1
  rw [h1] at h2
  have : (s0.mem.read 0x2000 8) = s0.mem.read 0x12000 8 := Option.some.inj h2
  revert this
  decide +kernel

/-! ### C45: data movement, bit manipulation, jumps, flag instructions -/

/-- MOV, MOVSX, MOVSXD. -/
theorem C45_mov (z sz : Sz) (d r : Op) (hd : Op.plain d = true) (hr : Op.plain r = true)
    (hs : step (.mov z sz d r) len s = some s') : Simulates cfg slide (.mov z sz d r) len s s' :=
  .of_body (fun m => liftMov slide m z sz d r) (fun _ _ => rfl) (fun _ h => body_mov h z sz d r hd hr hs)

theorem C45_movzx (z sz : Sz) (hz : sz.bits ≤ z.bits) (d r : Op) (hd : Op.plain d = true)
    (hr : Op.plain r = true) (hs : step (.movzx z sz d r) len s = some s') :
    Simulates cfg slide (.movzx z sz d r) len s s' :=
  .of_body (fun m => liftMovzx slide m z sz d r) (fun _ _ => rfl)
    (fun _ h => body_movzx h z sz hz d r hd hr hs)

theorem C45_movbe (z : Sz) (d r : Op) (hd : Op.plain d = true) (hr : Op.plain r = true)
    (hs : step (.movbe z d r) len s = some s') : Simulates cfg slide (.movbe z d r) len s s' :=
  .of_body (fun m => liftMovbe slide m z d r) (fun _ _ => rfl) (fun _ h => body_movbe h z d r hd hr hs)

theorem C45_bswap (z : Sz) (d : Op) (hd : Op.plain d = true) (hs : step (.bswap z d) len s = some s') :
    Simulates cfg slide (.bswap z d) len s s' :=
  .of_body (fun m => liftMovbe slide m z d d) (fun _ _ => rfl) (fun _ h => body_movbe h z d d hd hd hs)

/-- CBW, CWDE, CDQE. -/
theorem C45_cext (z : Sz) (hs : step (.cext z) len s = some s') : Simulates cfg slide (.cext z) len s s' :=
  .of_body (fun m => some (liftCext m z)) (fun _ _ => rfl)
    (fun _ h => ⟨_, rfl, by cases hs; exact body_cext h z⟩)

/-- CWD, CDQ, CQO. -/
theorem C45_csep (z : Sz) (hs : step (.csep z) len s = some s') : Simulates cfg slide (.csep z) len s s' :=
  .of_body (fun m => some (liftCsep m z)) (fun _ _ => rfl)
    (fun _ h => ⟨_, rfl, by cases hs; exact body_csep h z⟩)

/-- BSF and BSR. -/
theorem C45_bitscan_partial (trailing : Bool) (z : Sz) (x : Fin 16) (r : Op) (hr : Op.plain r = true)
    (hs : step (.bitscan trailing false z (.reg x) r) len s = some s') :
    Simulates cfg slide (.bitscan trailing false z (.reg x) r) len s s' :=
  .of_body (fun m => liftBitscan slide m trailing z (.reg x) r) (fun _ _ => rfl)
    (fun _ h => body_bitscan h trailing z (.reg x) r ⟨x, rfl⟩ hr hs)

theorem C45_popcnt (z : Sz) (d r : Op) (hd : Op.plain d = true) (hr : Op.plain r = true)
    (hs : step (.popcnt z d r) len s = some s') : Simulates cfg slide (.popcnt z d r) len s s' :=
  .of_body (fun m => liftPopcnt slide m z d r) (fun _ _ => rfl) (fun _ h => body_popcnt h z d r hd hr hs)

/-- BT, BTS, BTR, BTC on registers and aligned memory bit strings. -/
theorem C45_bittest (k : BitOp) (z : Sz) (lock : Bool) (d r : Op)
    (hok : BittestOk (s.nx len) k z lock d r) (hs : step (.bittest k z lock d r) len s = some s') :
    Simulates cfg slide (.bittest k z lock d r) len s s' :=
  .of_body (fun m => liftBittest slide m k z lock d r) (fun _ _ => rfl)
    (fun _ h => body_bittest h k z lock d r hok hs)

theorem C45_xlat (hs : step (.xlat false .none) len s = some s') :
    Simulates cfg slide (.xlat false .none) len s s' :=
  .of_body (fun m => liftXlat m false) (fun _ _ => rfl) (fun m h => by
    obtain ⟨m', h1, h2⟩ := body_xlat h
    refine ⟨m', h1, ?_⟩
    cases hs
    simp only [S.segBase, Bool.false_eq_true, if_false] at *
    rw [show ∀ x : BitVec 64, 0 + x = x from BitVec.zero_add]
    exact h2)

theorem C45_jmp (r : Op) (hr : Op.plain r = true) (hg : ∀ a, r = .mem a → a.seg = .none)
    (hs : step (.jmp r) len s = some s') : Simulates cfg slide (.jmp r) len s s' := sim_jmp r hr hg hs

theorem C45_jmp_rel (off : BitVec 64) (hs : step (.jmpRel off) len s = some s') :
    Simulates cfg slide (.jmpRel off) len s s' := sim_jmpRel off hs

theorem C45_jcxz (a32 : Bool) (off : BitVec 64) (hs : step (.jcxz a32 off) len s = some s') :
    Simulates cfg slide (.jcxz a32 off) len s s' := sim_jcxz a32 off hs

theorem C45_loop (k : LoopKind) (a32 : Bool) (off : BitVec 64)
    (hs : step (.loop k a32 off) len s = some s') : Simulates cfg slide (.loop k a32 off) len s s' :=
  sim_loop k a32 off hs

/-- CLC, STC, CMC, CLD, STD. -/
theorem C45_flag_instructions (i : Instr) (hi : i = .clc ∨ i = .stc ∨ i = .cmc ∨ i = .cld ∨ i = .std)
    (hs : step i len s = some s') : Simulates cfg slide i len s s' := by
  rcases hi with rfl | rfl | rfl | rfl | rfl
  · exact sim_clc hs
  · exact sim_stc hs
  · exact sim_cmc hs
  · exact sim_cld hs
  · exact sim_std hs

-- `movsx rax, r8b`; `bsr eax, ecx`; `bt [rsi], rdx` reads below RSI; `loopz` decrements ECX
example : specGp (.mov .q .b (.reg 0) (.reg 8)) s0 0 = some 0xffffffffffffff80 ∧
    liftGp (.mov .q .b (.reg 0) (.reg 8)) s0 0 = some (some 0xffffffffffffff80) := by decide +kernel
example : specGp (.bitscan false false .d (.reg 0) (.reg 1)) s0 0 = some 1 ∧
    liftGp (.bitscan false false .d (.reg 0) (.reg 1)) s0 0 = some (some 1) := by decide +kernel
example : bitAddr s0 .q { base := .reg 6 } (.reg 2) (s0.gp 2) = 0x1ff8 := by decide +kernel
example : ∃ s', step (.bittest .bts .q true (.mem { base := .reg 6 }) (.reg 2)) 4 s0 = some s' ∧
    Simulates {} 0 (.bittest .bts .q true (.mem { base := .reg 6 }) (.reg 2)) 4 s0 s' :=
  ⟨_, rfl, C45_bittest .bts .q true _ _ ⟨rfl, .inl ⟨_, rfl⟩, fun _ => ⟨by decide, _, rfl⟩, by
    intro o i ho hi
    cases ho
    cases hi
    decide +kernel⟩ rfl⟩

/-- LZCNT is lifted as BSR. -/
theorem C45_lzcnt_counterexample :
    ∃ s', step (.bitscan false true .q (.reg 0) (.reg 1)) 4 s0 = some s' ∧
    ¬ Simulates {} 0 (.bitscan false true .q (.reg 0) (.reg 1)) 4 s0 s' := refuted_gp 0 (by decide +kernel)

/-- TZCNT of zero should be the operand size, and ZF and CF differ from BSF. -/
theorem C45_tzcnt_counterexample :
    ∃ s', step (.bitscan true true .q (.reg 0) (.reg 9)) 4 s0 = some s' ∧
    ¬ Simulates {} 0 (.bitscan true true .q (.reg 0) (.reg 9)) 4 s0 s' := refuted_gp 0 (by decide +kernel)

end Verif.X86.Spec
