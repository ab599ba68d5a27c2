import Verif.RegFile.Runs

/-!
Properties C11, C12 and C13: the register file behaves like flat registers.
-/

set_option linter.unusedSimpArgs false

namespace Verif.RegFile

/-! ### States the lifter can reach -/

/-- Register states that arise while lifting, with the flat contents they stand for (the current
block first, then the blocks it inherits from).  The flag says that no access so far used the
register as a pointer. -/
inductive Reach (c : Cls) : Base → Bool → List RState → List Bits → Prop
  /-- start of a block with PHI nodes; the PHI has the native type -/
  | phi (b : Bits) (hb : ∀ i, c.native.size ≤ i → b i = false) :
      Reach c (.phi b) true [RState.fresh] [b]
  /-- start of the entry block: the register is loaded from the CPU struct -/
  | entry (v : SV) (hv : Op.ok c (.lazy (.load v))) (hp : v.ty ≠ .ptr) :
      Reach c .entry true [⟨true, some (.load v), []⟩] [v.bits]
  /-- instructions of the block access the register -/
  | ops {base np rs flat fs rs' vs} (ops : List Op) (h : Reach c base np rs (flat :: fs))
      (hok : ∀ op ∈ ops, op.ok c)
      (hs : (∀ op ∈ ops, op.high = false) ∨ (np = true ∧ ∀ op ∈ ops, op.ptr = false))
      (hr : run c base rs ops = some (rs', vs)) :
      Reach c base (np && ops.all (fun op => !op.ptr)) rs' (Spec.final flat ops :: fs)
  /-- start of a block that inherits the register file of its only predecessor -/
  | child {base np rs flat fs} (h : Reach c base np rs (flat :: fs)) :
      Reach c base np (RState.fresh :: rs) (flat :: flat :: fs)
  /-- back in the predecessor (another successor starts, or its PHIs are filled) -/
  | back {base np r p ps flat flat' fs} (h : Reach c base np (r :: p :: ps) (flat :: flat' :: fs)) :
      Reach c base np (p :: ps) (flat' :: fs)

theorem Reach.inv {c : Cls} {base : Base} {np : Bool} {rs : List RState} {fs : List Bits}
    (h : Reach c base np rs fs) : Inv c base rs fs ∧ (np = true → NoPtr rs) := by
  induction h with
  | phi b hb =>
    refine ⟨⟨⟨by simp [RState.fresh, RState.canon], by simp [RState.fresh, RState.canon, Sorted],
      by simp [RState.fresh, RState.canon, Agree], by simp [RState.fresh, RState.canon],
      by simp [RState.fresh, RState.canon], hb, by simp [RState.fresh, RState.canon],
      fun _ => ⟨b, rfl, fun _ _ => rfl⟩⟩, ?_⟩, ?_⟩
    · intro b' hb' i hi
      simp only [Base.phi.injEq] at hb'
      subst hb'; exact hb i hi
    · intro _ r hr v hv
      simp only [List.mem_singleton] at hr
      subst hr; simp [RState.fresh, RState.canon] at hv
  | entry v hv hp =>
    refine ⟨⟨vinv_single hv.1 hv.2, fun b hb => by simp at hb⟩, ?_⟩
    intro _ r hr w hw
    simp only [List.mem_singleton] at hr
    subst hr
    simp only [RState.canon, List.mem_singleton] at hw
    subst hw; exact hp
  | @ops base np rs flat fs rs' vs ops h hok hs hr ih =>
    obtain ⟨rs'', vs', h1, h2, h3, h4⟩ := run_spec ih.1 hok (by
      rcases hs with h' | ⟨h', h''⟩
      · exact Or.inl h'
      · exact Or.inr ⟨ih.2 h', h''⟩)
    rw [h1] at hr
    simp only [Option.some.injEq, Prod.mk.injEq] at hr
    obtain ⟨rfl, rfl⟩ := hr
    refine ⟨h3, ?_⟩
    intro hnp
    simp only [Bool.and_eq_true, List.all_eq_true] at hnp
    exact h4 (ih.2 hnp.1) (fun op hop => by simpa using hnp.2 op hop)
  | @child base np rs flat fs h ih =>
    refine ⟨⟨⟨by simp [RState.fresh, RState.canon], by simp [RState.fresh, RState.canon, Sorted],
      by simp [RState.fresh, RState.canon, Agree], by simp [RState.fresh, RState.canon],
      by simp [RState.fresh, RState.canon], ?_, by simp [RState.fresh, RState.canon],
      fun _ => ⟨flat, rfl, fun _ _ => rfl⟩⟩, ih.1⟩, ?_⟩
    · cases rs with
      | nil => exact ih.1.elim
      | cons r rs => exact ih.1.1.zero
    · intro hnp r hr v hv
      rcases List.mem_cons.mp hr with rfl | hr
      · simp [RState.fresh, RState.canon] at hv
      · exact ih.2 hnp r hr v hv
  | back h ih =>
    exact ⟨ih.1.2, fun hnp r hr => ih.2 hnp r (by simp [hr])⟩

/-! ### C11 -/

/-- **C11** (one register).  For every sequence of full writes, partial writes, deferred definitions
and reads of any facets, whatever views are cached and however long the chain of inherited register
files is, every read succeeds and returns the bits a flat register would return.

Partial: reads of AH..DH are covered only if no access used the register as a pointer before, see
`C11_high_byte_counterexample`. -/
theorem C11_flat_register_partial {c : Cls} {base : Base} {np : Bool} {rs : List RState} {flat : Bits}
    {fs : List Bits} (h : Reach c base np rs (flat :: fs)) (ops : List Op) (hok : ∀ op ∈ ops, op.ok c)
    (hs : (∀ op ∈ ops, op.high = false) ∨ (np = true ∧ ∀ op ∈ ops, op.ptr = false)) :
    ∃ rs' vs, run c base rs ops = some (rs', vs) ∧ vs.map (·.bits) = Spec.reads flat ops ∧
      Reach c base (np && ops.all (fun op => !op.ptr)) rs' (Spec.final flat ops :: fs) := by
  obtain ⟨hinv, hnp⟩ := h.inv
  obtain ⟨rs', vs, h1, h2, _, _⟩ := run_spec hinv hok (by
    rcases hs with h' | ⟨h', h''⟩
    · exact Or.inl h'
    · exact Or.inr ⟨hnp h', h''⟩)
  exact ⟨rs', vs, h1, h2, Reach.ops ops h hok hs h1⟩

/-- bits of a number, for the examples -/
def nb (n : Nat) : Bits := fun i => n.testBit i

/-- The hypotheses are met: 64-bit PHI, a 16-bit and an 8-bit partial write, then reads of all sizes. -/
example : ∃ rs' vs, run .gp (.phi (nb 0x1122334455667788)) [RState.fresh]
    [.merge ⟨.int 16, nb 0xaaaa⟩, .read (.ty (.int 8)) true, .merge ⟨.int 8, nb 0xbb⟩,
     .read (.ty (.int 64)) true, .read .i8h false] = some (rs', vs) ∧
    vs.map (fun v => (List.range 64).map v.bits) =
      [0xaa, 0x112233445566aabb, 0xaa].map (fun n => (List.range 64).map (nb n)) := by
  refine ⟨_, _, rfl, ?_⟩
  decide +kernel

/-- **C11 violated for the high-byte registers**: after a register was used as a pointer (e.g. as the
base of an address), reading AH..DH of it fails the assertion "I8H from non-integer type":
`mov rcx, [rax]; mov cl, ah`. -/
theorem C11_high_byte_counterexample (b : Bits) (_hb : ∀ i, 64 ≤ i → b i = false) :
    run .gp (.phi b) [RState.fresh] [.read (.ty .ptr) true, .read .i8h true] = none := rfl

/-! ### The whole file -/

theorem slot_inj {r1 r2 : AReg} {s : Nat} (h1 : r1.slot = some s) (h2 : r2.slot = some s) : r1 = r2 := by
  cases r1 <;> cases r2 <;> simp only [AReg.slot] at h1 h2 <;> split at h1 <;> split at h2 <;>
    simp_all <;> omega

/-- Every register of the file is in a reachable state and stands for the bits `regs` gives. -/
def FileOk (arch : Arch) (np : AReg → Bool) (st : File) (regs : AReg → Bits) : Prop :=
  ∀ reg s, reg.slot = some s →
    ∃ fs, Reach (reg.cls arch) (st.base s) (np reg) (st.slots s) (regs reg :: fs)

/-- **C11** (whole file).  Interleaved accesses to any registers: every read returns the bits of a
file of independent flat registers.  Partial for AH..DH as above. -/
theorem C11_register_file_partial {arch : Arch} : ∀ (ops : List (AReg × Op)) {np : AReg → Bool} {st : File}
    {regs : AReg → Bits}, FileOk arch np st regs →
    (∀ o ∈ ops, o.1.slot.isSome ∧ o.2.ok (o.1.cls arch)) →
    (∀ reg, (∀ op, (reg, op) ∈ ops → op.high = false) ∨
      (np reg = true ∧ ∀ op, (reg, op) ∈ ops → op.ptr = false)) →
    ∃ st' vs np', st.run arch ops = some (st', vs) ∧ vs.map (·.bits) = Spec.fileReads regs ops ∧
      FileOk arch np' st' (Spec.fileFinal regs ops)
  | [], np, st, regs, h, _, _ => ⟨st, [], np, rfl, rfl, h⟩
  | (reg, op) :: ops, np, st, regs, h, hok, hs => by
    obtain ⟨hslot, hop⟩ := hok (reg, op) (by simp)
    obtain ⟨s, hs'⟩ := Option.isSome_iff_exists.mp hslot
    simp only at hs' hop
    obtain ⟨fs, hreach⟩ := h reg s hs'
    obtain ⟨rs', vs, h1, h2, h3⟩ := C11_flat_register_partial hreach [op]
      (by intro o ho; simp only [List.mem_singleton] at ho; subst ho; exact hop)
      (by
        rcases hs reg with h' | ⟨h', h''⟩
        · left; intro o ho; simp only [List.mem_singleton] at ho; subst ho; exact h' _ (by simp)
        · right; refine ⟨h', ?_⟩
          intro o ho; simp only [List.mem_singleton] at ho; subst ho; exact h'' _ (by simp))
    have hfinal : Spec.final (regs reg) [op] = Spec.step (regs reg) op := rfl
    have hok' : FileOk arch (fun r => if r = reg then np reg && !op.ptr else np r)
        { st with slots := fun t => if t = s then rs' else st.slots t } (Spec.fileStep regs reg op) := by
      intro r t hr
      by_cases hreq : r = reg
      · subst hreq
        have hts : t = s := by rw [hs'] at hr; simpa using hr.symm
        subst hts
        refine ⟨fs, ?_⟩
        simp only [if_true, Spec.fileStep]
        simpa [hfinal] using h3
      · have hts : t ≠ s := by rintro rfl; exact hreq (slot_inj hr hs')
        simp only [hreq, hts, if_false, Spec.fileStep]
        exact h r t hr
    obtain ⟨st', ws, np', h4, h5, h6⟩ := C11_register_file_partial ops hok'
      (fun o ho => hok o (by simp [ho]))
      (by
        intro r
        rcases hs r with h' | ⟨h', h''⟩
        · exact Or.inl (fun o ho => h' o (by simp [ho]))
        · refine Or.inr ⟨?_, fun o ho => h'' o (by simp [ho])⟩
          by_cases hreq : r = reg
          · subst hreq
            have := h'' op (by simp)
            simp [h', this]
          · simp [hreq, h'])
    refine ⟨st', vs ++ ws, np', ?_, ?_, h6⟩
    · simp only [File.run, File.step, hs', h1, h4]
    · rw [List.map_append, h5, h2]
      cases op <;> simp [Spec.fileReads, Spec.reads]

/-! ### C12 -/

/-- **C12**.  Writing a general-purpose register as any x86 operand size changes exactly the bits the
architecture says: afterwards the register stands for `Spec.x86Write`, so by C11 every later read sees
it.  (The value is written after an arbitrary history.) -/
theorem C12_partial_writes {base : Base} {np : Bool} {rs : List RState} {flat : Bits} {fs : List Bits}
    (h : Reach .gp base np rs (flat :: fs)) (f : Facet) (v : SV) (cache : Bool)
    (hf : f ∈ [.ty (.int 8), .ty (.int 16), .ty (.int 32), .ty (.int 64), .i8h])
    (hv : v.ty = f.type) (hz : ∀ i, v.ty.size ≤ i → v.bits i = false) :
    ∃ rs' np', storeGp base rs f v cache = some rs' ∧
      Reach .gp base np' rs' (Spec.x86Write flat f v.bits :: fs) := by
  have hset : ∀ (rs : List RState) (w : SV) (np : Bool) (flat : Bits), Reach .gp base np rs (flat :: fs) →
      Op.ok .gp (.set w) → ∃ rs' np', setReg rs w = some rs' ∧ Reach .gp base np' rs' (w.bits :: fs) := by
    intro rs w np flat hr hw
    obtain ⟨rs', h1, _, _⟩ := setReg_spec hr.inv.1 hw
    refine ⟨rs', _, h1, Reach.ops (vs := []) [.set w] hr (by simpa using hw) (Or.inl (by simp [Op.high])) ?_⟩
    simp [run, h1]
  have hmerge : ∀ w : SV, Op.ok .gp (.merge w) →
      ∃ rs' np', mergeReg rs w = some rs' ∧ Reach .gp base np' rs' (Spec.step flat (.merge w) :: fs) := by
    intro w hw
    obtain ⟨rs', h1, _, _⟩ := mergeReg_spec h.inv.1 hw
    refine ⟨rs', _, h1, Reach.ops (vs := []) [.merge w] h (by simpa using hw) (Or.inl (by simp [Op.high])) ?_⟩
    simp [run, h1]
  simp only [List.mem_cons, List.not_mem_nil, or_false] at hf
  rcases hf with rfl | rfl | rfl | rfl | rfl <;> simp only [Facet.type] at hv
  · obtain ⟨rs', np', h1, h2⟩ := hmerge v ⟨by rw [hv]; simp [Cls.okTy, IsSz], hz⟩
    refine ⟨rs', np', h1, ?_⟩
    have : Spec.x86Write flat (.ty (.int 8)) v.bits = Spec.step flat (.merge v) := by
      funext i; simp [Spec.step, Spec.x86Write, hv, Ty.size]
    rw [this]; exact h2
  · obtain ⟨rs', np', h1, h2⟩ := hmerge v ⟨by rw [hv]; simp [Cls.okTy, IsSz], hz⟩
    refine ⟨rs', np', h1, ?_⟩
    have : Spec.x86Write flat (.ty (.int 16)) v.bits = Spec.step flat (.merge v) := by
      funext i; simp [Spec.step, Spec.x86Write, hv, Ty.size]
    rw [this]; exact h2
  · obtain ⟨rs', np', h1, h2⟩ := hset rs v np flat h ⟨by rw [hv]; simp [Cls.okTy, IsSz], hz⟩
    refine ⟨rs', np', h1, ?_⟩
    have : Spec.x86Write flat (.ty (.int 32)) v.bits = v.bits := by
      funext i
      simp only [Spec.x86Write]
      split
      · rfl
      · rename_i hi
        rw [hv] at hz
        exact (hz i (by simp only [Ty.size]; omega)).symm
    rw [this]; exact h2
  · obtain ⟨rs', np', h1, h2⟩ := hset rs v np flat h ⟨by rw [hv]; simp [Cls.okTy, IsSz], hz⟩
    exact ⟨rs', np', h1, h2⟩
  · -- AH..DH: read-modify-write
    obtain ⟨rs1, old, h1, h2, h3, _, _⟩ := getReg_spec (cache := cache) (f := .ty (.int 64)) h.inv.1
      (by simp [Cls.okFacet, Cls.okTy, IsSz]) (by simp)
    have hr1 : Reach .gp base _ rs1 (flat :: fs) := Reach.ops (vs := [old]) [.read (.ty (.int 64)) cache] h
      (by simp [Op.ok, Cls.okFacet, Cls.okTy, IsSz]) (Or.inl (by simp [Op.high])) (by simp [run, h1])
    have hmask : ∀ i, (0xffffffffffff00ff : Nat).testBit i = (decide (i < 64) && !(decide (8 ≤ i) && decide (i < 16))) := by
      intro i
      by_cases hi : i < 64
      · have : ∀ j : Fin 64, (0xffffffffffff00ff : Nat).testBit j.val =
            (decide (j.val < 64) && !(decide (8 ≤ j.val) && decide (j.val < 16))) := by decide +kernel
        exact this ⟨i, hi⟩
      · rw [Nat.testBit_lt_two_pow]
        · simp [hi]
        · exact Nat.lt_of_lt_of_le (by decide : 0xffffffffffff00ff < 2 ^ 64)
            (Nat.pow_le_pow_right (by decide) (by omega))
    have hflat0 : ∀ i, 64 ≤ i → flat i = false := by
      have := h.inv.1
      cases rs with
      | nil => exact this.elim
      | cons r rs => exact this.1.zero
    obtain ⟨rs', np', h4, h5⟩ := hset rs1 ⟨.int 64, fun i =>
        low 64 (fun i => decide (8 ≤ i) && v.bits (i - 8)) i ||
          (old.bits i && (0xffffffffffff00ff : Nat).testBit i)⟩ _ flat hr1 ⟨by simp [Cls.okTy, IsSz], by
        intro i hi
        simp only [Ty.size] at hi
        have hi' : ¬ i < 64 := by omega
        simp [low, hi', hmask]⟩
    refine ⟨rs', np', ?_, ?_⟩
    · simp only [storeGp, h1]; exact h4
    · have heq : Spec.x86Write flat .i8h v.bits = fun i =>
          low 64 (fun i => decide (8 ≤ i) && v.bits (i - 8)) i ||
            (old.bits i && (0xffffffffffff00ff : Nat).testBit i) := by
        funext i
        rw [hmask, h3]
        simp only [Spec.x86Write, Spec.read, low, Ty.size]
        rw [hv] at hz
        simp only [Ty.size] at hz
        by_cases h64 : i < 64
        · by_cases h8 : 8 ≤ i
          · by_cases h16 : i < 16
            · simp [h64, h8, h16]
            · have := hz (i - 8) (by omega)
              simp [h64, h8, h16, this]
          · simp [h64, h8]
        · have h16 : ¬ i < 16 := by omega
          simp [h64, h16, hflat0 i (by omega)]
      rw [heq]; exact h5

/-- Partial writes after which every bit of the register is read back: `mov ax, 0xaaaa; mov ah, 0xbb`
and a 32-bit write. -/
example :
    (∃ rs', storeGp (.phi (nb 0x1122334455667788)) [RState.fresh] .i8h ⟨.int 8, nb 0xbb⟩ true = some rs' ∧
      ∃ rs'' v, getReg .gp (.phi (nb 0x1122334455667788)) rs' (.ty (.int 64)) true = some (rs'', v) ∧
      (List.range 70).map v.bits = (List.range 70).map (nb 0x112233445566bb88)) ∧
    (∃ rs', storeGp (.phi (nb 0x1122334455667788)) [RState.fresh] (.ty (.int 32)) ⟨.int 32, nb 0x99aabbcc⟩ true = some rs' ∧
      ∃ rs'' v, getReg .gp (.phi (nb 0x1122334455667788)) rs' (.ty (.int 64)) true = some (rs'', v) ∧
      (List.range 70).map v.bits = (List.range 70).map (nb 0x99aabbcc)) := by
  refine ⟨⟨_, rfl, _, _, rfl, ?_⟩, ⟨_, rfl, _, _, rfl, ?_⟩⟩ <;> decide +kernel

/-- **C12** for vector registers: merging a value of any size replaces exactly its low bits. -/
theorem C12_vector_merge {base : Base} {np : Bool} {rs : List RState} {flat : Bits} {fs : List Bits}
    (h : Reach .vec base np rs (flat :: fs)) (v : SV) (cache : Bool) (hv : Cls.okTy .vec v.ty)
    (hz : ∀ i, v.ty.size ≤ i → v.bits i = false) :
    ∃ rs' w, run .vec base rs [.merge v, .read (.ty (.vec false 64 2)) cache] = some (rs', [w]) ∧
      ∀ i, i < 128 → w.bits i = if i < v.ty.size then v.bits i else flat i := by
  obtain ⟨rs', vs, h1, h2, _⟩ := C11_flat_register_partial h [.merge v, .read (.ty (.vec false 64 2)) cache]
    (by intro op hop
        simp only [List.mem_cons, List.not_mem_nil, or_false] at hop
        rcases hop with rfl | rfl
        · exact ⟨hv, hz⟩
        · simp [Op.ok, Cls.okFacet, Cls.okTy, IsSz])
    (Or.inl (by simp [Op.high]))
  simp only [Spec.reads] at h2
  obtain ⟨w, rfl⟩ : ∃ w, vs = [w] := List.length_eq_one_iff.mp (by simpa using congrArg List.length h2)
  · simp only [List.map_cons, List.map_nil, List.cons.injEq, and_true] at h2
    refine ⟨rs', w, h1, ?_⟩
    intro i hi
    rw [h2]
    simp [Spec.read, Spec.step, Ty.size, hi]

/-! ### C13 -/

theorem fileReads_append (regs : AReg → Bits) (xs ys : List (AReg × Op)) :
    Spec.fileReads regs (xs ++ ys) = Spec.fileReads regs xs ++ Spec.fileReads (Spec.fileFinal regs xs) ys := by
  induction xs generalizing regs with
  | nil => rfl
  | cons x xs ih =>
    rcases x with ⟨reg, op⟩
    rw [List.cons_append]
    simp only [Spec.fileReads, Spec.fileFinal, List.foldl_cons]
    rw [ih, List.append_assoc]
    rfl

theorem fileFinal_unwritten {reg : AReg} : ∀ {ops : List (AReg × Op)} {regs : AReg → Bits},
    (∀ op, (reg, op) ∈ ops → ∃ f c, op = .read f c) → Spec.fileFinal regs ops reg = regs reg
  | [], _, _ => rfl
  | (r, op) :: ops, regs, h => by
    have ih := fileFinal_unwritten (reg := reg) (ops := ops) (regs := Spec.fileStep regs r op)
      (fun o ho => h o (by simp [ho]))
    show Spec.fileFinal (Spec.fileStep regs r op) ops reg = _
    rw [ih]
    unfold Spec.fileStep
    split
    · rename_i heq
      subst heq
      obtain ⟨f, c, rfl⟩ := h op (by simp)
      rfl
    · rfl

/-- **C13**.  A flag defined by a deferred computation: after any later accesses to any registers that
do not write this flag, reading it gives the value the computation had when the flag was defined
(`Spec.lazy`, e.g. "the result is zero", "the addition overflowed"). -/
theorem C13_lazy_flags {arch : Arch} {np : AReg → Bool} {st : File} {regs : AReg → Bits}
    (h : FileOk arch np st regs) (reg : AReg) (l : Lazy) (ops : List (AReg × Op)) (f : Facet) (cache : Bool)
    (hreg : reg.slot.isSome) (hl : Op.ok (reg.cls arch) (.lazy l))
    (hf : (reg.cls arch).okFacet f) (hfh : f ≠ .i8h)
    (hops : ∀ o ∈ ops, o.1.slot.isSome ∧ o.2.ok (o.1.cls arch) ∧ o.2.high = false)
    (hun : ∀ op, (reg, op) ∈ ops → ∃ f c, op = .read f c) :
    ∃ st' vs v, st.run arch ((reg, .lazy l) :: ops ++ [(reg, .read f cache)]) = some (st', vs ++ [v]) ∧
      v.bits = Spec.read (Spec.lazy l) f := by
  have hhigh : ∀ o ∈ (reg, Op.lazy l) :: ops ++ [(reg, Op.read f cache)], o.2.high = false := by
    intro o ho
    simp only [List.cons_append, List.mem_cons, List.mem_append, List.not_mem_nil, or_false] at ho
    rcases ho with rfl | ho | rfl
    · rfl
    · exact (hops o ho).2.2
    · cases f with
      | ty t => rfl
      | i8h => exact absurd rfl hfh
  obtain ⟨st', vs, _, h1, h2, _⟩ := C11_register_file_partial
    ((reg, Op.lazy l) :: ops ++ [(reg, Op.read f cache)]) h
    (by
      intro o ho
      simp only [List.cons_append, List.mem_cons, List.mem_append, List.not_mem_nil, or_false] at ho
      rcases ho with rfl | ho | rfl
      · exact ⟨hreg, hl⟩
      · exact ⟨(hops o ho).1, (hops o ho).2.1⟩
      · exact ⟨hreg, hf⟩)
    (fun r => Or.inl (fun op hop => hhigh (r, op) hop))
  rw [fileReads_append] at h2
  have hlast : Spec.fileReads (Spec.fileFinal regs ((reg, Op.lazy l) :: ops)) [(reg, Op.read f cache)] =
      [Spec.read (Spec.lazy l) f] := by
    have : Spec.fileFinal regs ((reg, Op.lazy l) :: ops) reg = Spec.lazy l := by
      show Spec.fileFinal (Spec.fileStep regs reg (.lazy l)) ops reg = _
      rw [fileFinal_unwritten hun]
      simp [Spec.fileStep, Spec.step]
    simp [Spec.fileReads, this]
  rw [hlast] at h2
  have hne : vs ≠ [] := by rintro rfl; simp at h2
  refine ⟨st', vs.dropLast, vs.getLast hne, ?_, ?_⟩
  · rw [List.dropLast_concat_getLast]; exact h1
  · have h3 := congrArg List.getLast? h2
    rw [List.getLast?_append, List.getLast?_map, List.getLast?_eq_some_getLast hne] at h3
    simpa using h3

/-- A file in which every register is a PHI is reachable, and OF of `0x7f + 1` is deferred and read
after unrelated writes. -/
example : FileOk .x86 (fun _ => true) ⟨fun _ => [RState.fresh], fun _ => .phi (fun _ => false)⟩
      (fun _ _ => false) ∧
    Op.ok (AReg.cls .x86 (.flag 4)) (.lazy (.addOverflow 0x80#8 0x7f#8 1#8)) ∧
    Spec.lazy (.addOverflow 0x80#8 0x7f#8 1#8) 0 = true := by
  refine ⟨?_, rfl, by decide⟩
  intro reg s _
  exact ⟨[], Reach.phi _ (fun _ _ => rfl)⟩

end Verif.RegFile
