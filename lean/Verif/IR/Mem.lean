import Verif.IR.Basic

/-!
Byte-addressed little-endian memory.  The model's memory holds `Val 8` bytes (an uninitialised or
poison byte is `none`); the specifications use plain bytes.
-/

namespace Verif.IR

abbrev Addr := BitVec 64

/-- Memory of the specifications. -/
abbrev Mem := Addr → BitVec 8

/-- `n` bytes at `a`, little-endian. -/
def Mem.read (m : Mem) (a : Addr) : (n : Nat) → BitVec (8 * n)
  | 0 => 0#0
  | n + 1 => Mem.read m (a + 1#64) n ++ m a

/-- Write `n` bytes at `a`, little-endian. -/
def Mem.write (m : Mem) (a : Addr) (n : Nat) (v : BitVec (8 * n)) : Mem :=
  fun x => if (x - a).toNat < n then v.extractLsb' (8 * (x - a).toNat) 8 else m x

/-- Memory of the model: bytes may be poison. -/
abbrev VMem := Addr → Val 8

def VMem.read (m : VMem) (a : Addr) : (n : Nat) → Val (8 * n)
  | 0 => some 0#0
  | n + 1 => bin (fun hi lo => hi ++ lo) (VMem.read m (a + 1#64) n) (m a)

def VMem.write (m : VMem) (a : Addr) (n : Nat) (v : Val (8 * n)) : VMem :=
  fun x => if (x - a).toNat < n then un (fun v => v.extractLsb' (8 * (x - a).toNat) 8) v else m x

/-- A specification memory seen as model memory. -/
def Mem.toV (m : Mem) : VMem := fun a => some (m a)

@[ir] theorem VMem.read_toV (m : Mem) (a : Addr) (n : Nat) :
    VMem.read m.toV a n = some (m.read a n) := by
  induction n generalizing a with
  | zero => rfl
  | succ n ih => simp [VMem.read, Mem.read, ih, Mem.toV, bin]

@[ir] theorem VMem.write_toV (m : Mem) (a : Addr) (n : Nat) (v : BitVec (8 * n)) :
    VMem.write m.toV a n (some v) = (m.write a n v).toV := by
  funext x
  simp only [VMem.write, Mem.toV, Mem.write, un]
  split <;> rfl

theorem Mem.getLsbD_read (m : Mem) (n : Nat) : ∀ (a : Addr) (i : Nat),
    (m.read a n).getLsbD i =
      (decide (i < 8 * n) && (m (a + BitVec.ofNat 64 (i / 8))).getLsbD (i % 8)) := by
  induction n with
  | zero => intro a i; simp [Mem.read]
  | succ n ih =>
    intro a i
    simp only [Mem.read, BitVec.getLsbD_append, ih]
    by_cases h : i < 8
    · have : i / 8 = 0 := by omega
      simp [h, show i < 8 * (n + 1) by omega, this, Nat.mod_eq_of_lt h]
    · have h1 : a + 1#64 + BitVec.ofNat 64 ((i - 8) / 8) = a + BitVec.ofNat 64 (i / 8) := by
        rw [BitVec.add_assoc, show (1#64 : BitVec 64) = BitVec.ofNat 64 1 from rfl,
          ← BitVec.ofNat_add]
        congr 2; omega
      have h2 : (i - 8) % 8 = i % 8 := by omega
      have h3 : (i - 8 < 8 * n) ↔ i < 8 * (n + 1) := by omega
      simp [h, h1, h2, h3]

/-- Reading back what was written (sizes below 2^64 bytes). -/
theorem Mem.read_write (m : Mem) (a : Addr) (n : Nat) (v : BitVec (8 * n)) (hn : n ≤ 2 ^ 64) :
    (m.write a n v).read a n = v := by
  apply BitVec.eq_of_getLsbD_eq
  intro i hi
  rw [Mem.getLsbD_read]
  have h1 : (a + BitVec.ofNat 64 (i / 8) - a).toNat = i / 8 := by
    rw [BitVec.add_comm, BitVec.add_sub_cancel, BitVec.toNat_ofNat]
    apply Nat.mod_eq_of_lt; omega
  have h2 : i / 8 < n := by omega
  simp only [hi, decide_true, Bool.true_and, Mem.write, h1, h2, if_true]
  simp only [BitVec.getLsbD_extractLsb', Nat.mod_lt i (by omega : 8 > 0), decide_true, Bool.true_and]
  congr 1; omega

/-- A write does not change a disjoint read. -/
theorem Mem.read_write_disjoint (m : Mem) (a b : Addr) (n k : Nat) (v : BitVec (8 * n))
    (h : ∀ i, i < k → ¬ (b + BitVec.ofNat 64 i - a).toNat < n) :
    (m.write a n v).read b k = m.read b k := by
  apply BitVec.eq_of_getLsbD_eq
  intro i hi
  rw [Mem.getLsbD_read, Mem.getLsbD_read]
  have := h (i / 8) (by omega)
  simp only [Mem.write, this, if_false]

end Verif.IR
