import Verif.IR.Basic

/-!
Model of one architectural register of rellume's register file (`src/regfile.cc`).

A register of the lifter is a list of SSA values of decreasing size, each a view of the low bits of
the register, some of them "dirty" (a pending partial write that larger views do not include yet).
Registers do not influence each other, so the model follows one register through the accesses of a
block and through the chain of register files inherited from parent blocks.

Generator and generated program are collapsed: an SSA value is its LLVM type together with the bits
it has at run time.  Bits are a function `Nat → Bool`; a well formed value is `false` beyond its
size.  Values are fully defined (no poison).  An assertion failure of the lifter and an ill-typed IR
instruction are both the outcome `none`.
-/

namespace Verif.RegFile

/-- Bit content of a value, least significant bit first. -/
abbrev Bits := Nat → Bool

/-- The low `n` bits. -/
def low (n : Nat) (b : Bits) : Bits := fun i => decide (i < n) && b i

/-- LLVM types occurring in the register file (`src/facet.inc`:1-47). -/
inductive Ty
  | int (n : Nat)
  | ptr
  | fp (n : Nat)
  | vec (fp : Bool) (e cnt : Nat)
deriving DecidableEq, Repr

/-- `valueSize` (`src/regfile.cc`:64-70), pointers have 64 bits. -/
def Ty.size : Ty → Nat
  | .int n => n
  | .ptr => 64
  | .fp n => n
  | .vec _ e cnt => e * cnt

def Ty.isVec : Ty → Bool
  | .vec .. => true
  | _ => false

/-- An SSA value: its type and its run-time bits. -/
structure SV where
  ty : Ty
  bits : Bits

/-! ### The IR instructions used -/

/-- `IRBuilder::CreateBitCast`: same size, no pointers (LLVM rejects others). -/
def bitCast (v : SV) (ty : Ty) : Option SV :=
  if v.ty = ty then some v
  else if v.ty = .ptr ∨ ty = .ptr then none
  else if v.ty.size = ty.size then some ⟨ty, v.bits⟩ else none

/-- `IRBuilder::CreateBitOrPointerCast`: ptrtoint / inttoptr for pointer-integer pairs, else bitcast. -/
def bitOrPtrCast (v : SV) (ty : Ty) : Option SV :=
  match v.ty, ty with
  | .ptr, .int n => if n = 64 then some ⟨.int n, v.bits⟩ else none
  | .int n, .ptr => if n = 64 then some ⟨.ptr, v.bits⟩ else none
  | _, _ => bitCast v ty

/-- `IRBuilder::CreateZExtOrTrunc` on integers; a well formed value is zero above its size. -/
def zextOrTrunc (v : SV) (n : Nat) : Option SV :=
  match v.ty with
  | .int _ => some ⟨.int n, low n v.bits⟩
  | _ => none

/-- `insertelement v, x, 0`. -/
def insertElem0 (v x : SV) : Option SV :=
  match v.ty, x.ty with
  | .vec false e _, .int n => if e = n then some ⟨v.ty, fun i => if i < e then x.bits i else v.bits i⟩ else none
  | .vec true e _, .fp n => if e = n then some ⟨v.ty, fun i => if i < e then x.bits i else v.bits i⟩ else none
  | _, _ => none

/-- `extractelement v, 0`. -/
def extractElem0 (v : SV) : Option SV :=
  match v.ty with
  | .vec false e _ => some ⟨.int e, low e v.bits⟩
  | .vec true e _ => some ⟨.fp e, low e v.bits⟩
  | _ => none

/-- `shufflevector a, b, mask`: lane `j` of the result is lane `mask[j]` of the concatenation. -/
def shuffle (a b : SV) (mask : List Nat) : Option SV :=
  match a.ty with
  | .vec f e n =>
    if b.ty = a.ty ∧ (∀ m ∈ mask, m < 2 * n) then
      some ⟨.vec f e mask.length, fun i =>
        match mask[i / e]? with
        | none => false
        | some m => if m < n then a.bits (m * e + i % e) else b.bits ((m - n) * e + i % e)⟩
    else none
  | _ => none

/-- A vector of `cnt` elements of the given scalar type (`VectorType::get`). -/
def vecOf : Ty → Nat → Option Ty
  | .int n, cnt => some (.vec false n cnt)
  | .fp n, cnt => some (.vec true n cnt)
  | _, _ => none

/-! ### Registers -/

/-- `Register::Value` (`src/regfile.cc`:77-96): `valueA`, the type of the alternative `valueB` (which
always has the same bits), the size and the dirty bit. -/
structure RVal where
  a : SV
  tyB : Option Ty
  size : Nat
  dirty : Bool

/-- Constructor of `Register::Value` (`src/regfile.cc`:88-91). -/
def RVal.mk' (v : SV) (size : Nat) : RVal := ⟨v, none, size, true⟩

/-- Deferred computations (`RegFile::Transform`, `src/regfile.h`, `src/regfile.cc`:118-143) with the
run-time values of their operands.  `load` carries the value in the CPU struct slot: that the slot
keeps it until the load is emitted is the subject of `Verif.Lift.late_load`. -/
inductive Lazy
  | isZero {n : Nat} (v : BitVec n)
  | isNeg {n : Nat} (v : BitVec n)
  | isULT {n : Nat} (a b : BitVec n)
  | addOverflow {n : Nat} (res lhs rhs : BitVec n)
  | truncI8 {n : Nat} (v : BitVec n)
  | load (v : SV)
  | x86Aux {n : Nat} (res lhs rhs : BitVec n)

open IR in
/-- `Register::canonicalize` (`src/regfile.cc`:145-189): the IR emitted for each deferred value. -/
def Lazy.force : Lazy → SV
  | @Lazy.isZero _ v => ⟨.int 1, bv (icmp .eq (some v) (some 0))⟩
  | @Lazy.isNeg _ v => ⟨.int 1, bv (icmp .slt (some v) (some 0))⟩
  | @Lazy.isULT _ a b => ⟨.int 1, bv (icmp .ult (some a) (some b))⟩
  | @Lazy.addOverflow n res lhs rhs =>
    let tmp1 := IR.not (IR.xor (some lhs) (some rhs))
    let tmp2 := IR.xor (some res) (some lhs)
    ⟨.int 1, bv (icmp .slt (IR.and tmp1 tmp2) (some (0 : BitVec n)))⟩
  | @Lazy.truncI8 _ v => ⟨.int 8, bv (trunc 8 (some v))⟩
  | .load v => v
  | @Lazy.x86Aux n res lhs rhs =>
    let tmp := IR.xor (IR.xor (some lhs) (some rhs)) (some res)
    ⟨.int 1, bv (icmp .ne (IR.and tmp (some (16 : BitVec n))) (some 0))⟩
where
  /-- bits of a (here always defined) IR value -/
  bv {n : Nat} (v : Val n) : Bits := fun i => (v.getD 0).getLsbD i

/-- `Register` (`src/regfile.cc`:72-110).  With a pending transform the C++ object keeps the operands
in `values`; the model keeps them in `lazy` and leaves `vals` unused until `canon`. -/
structure RState where
  uz : Bool
  lazy : Option Lazy
  vals : List RVal

/-- A register of a block nothing has been written to (default constructor, `src/regfile.cc`:99). -/
def RState.fresh : RState := ⟨false, none, []⟩

/-- `Register::canonicalize` (`src/regfile.cc`:145-189): replace a pending transform by its value. -/
def RState.canon (r : RState) : RState :=
  match r.lazy with
  | none => r
  | some l => ⟨true, none, [RVal.mk' l.force l.force.ty.size]⟩

/-- Where a block without own value gets the register from when it has no parent: the entry block
has nothing (`assert`), other blocks have a PHI node, whose run-time value is the given bits
(`src/regfile.cc`:350-360). -/
inductive Base
  | entry
  | phi (b : Bits)

/-- `RegFile::impl::NativeFacet` (`src/regfile.cc`:314-328). -/
inductive Cls
  /-- GP registers, native i64 -/
  | gp
  /-- VEC registers of x86-64 and AArch64, native <2 x i64> -/
  | vec
  /-- VEC registers of RV64 (scalar FP registers), native i64 -/
  | fpr
  /-- FLAG registers except PF, native i1 -/
  | flag
  /-- PF, native i8 -/
  | pf
deriving DecidableEq, Repr

def Cls.native : Cls → Ty
  | .gp => .int 64
  | .vec => .vec false 64 2
  | .fpr => .int 64
  | .flag => .int 1
  | .pf => .int 8

/-- The scan of `GetRegFold` (`src/regfile.cc`:374-383): the last index with size at least `full`, or
`none` for `goto fold` when a dirty smaller value comes along. -/
def scan (full : Nat) : List RVal → Nat → Nat → Option Nat
  | [], _, start => some start
  | v :: vs, i, start =>
    if full ≤ v.size then scan full vs (i + 1) i
    else if v.dirty then none
    else scan full vs (i + 1) start

/-- Integer branch of the fold loop (`src/regfile.cc`:394-405): and with the high mask, or. -/
def foldInt (foldSize : Nat) : Bits → List RVal → Option Bits
  | result, [] => some result
  | result, v :: vs =>
    if v.dirty then
      match bitCast v.a (.int v.size) with
      | none => none
      | some x => foldInt foldSize
          (fun i => (result i && (decide (v.size ≤ i) && decide (i < foldSize))) || low foldSize x.bits i) vs
    else foldInt foldSize result vs

/-- One vector merge step (`src/regfile.cc`:408-438). -/
def foldVecStep (resultSize : Nat) (result : SV) (v : RVal) : Option SV :=
  match v.a.ty with
  | .vec f e valueCnt =>
    let resultCnt := resultSize / e
    let mask1 := (List.range resultCnt).map fun j => if j < valueCnt then j else valueCnt
    let zero : SV := ⟨v.a.ty, fun _ => false⟩
    match shuffle v.a zero mask1 with
    | none => none
    | some ext =>
      let mask2 := (List.range resultCnt).map fun j => j + (if j < valueCnt then 0 else resultCnt)
      match bitCast result (.vec f e resultCnt) with
      | none => none
      | some result => shuffle ext result mask2
  | _ =>
    match vecOf v.a.ty (resultSize / v.size) with
    | none => none
    | some vecTy =>
      match bitCast result vecTy with
      | none => none
      | some result => insertElem0 result v.a

/-- Vector branch of the fold loop (`src/regfile.cc`:406-438). -/
def foldVec (resultSize : Nat) : SV → List RVal → Option SV
  | result, [] => some result
  | result, v :: vs =>
    if v.dirty then
      match foldVecStep resultSize result v with
      | none => none
      | some r => foldVec resultSize r vs
    else foldVec resultSize result vs

/-- Zero extension of the folded vector (`src/regfile.cc`:440-451). -/
def foldVecExt (foldSize : Nat) (result : SV) : Option SV :=
  match result.ty with
  | .vec _ e resultCnt =>
    if e * resultCnt < foldSize then
      let cnt := foldSize / e
      let mask := (List.range cnt).map fun j => if j < resultCnt then j else resultCnt
      shuffle result ⟨result.ty, fun _ => false⟩ mask
    else some result
  | _ => none

/-- The code at label `fold` (`src/regfile.cc`:385-463). -/
def fold (full : Nat) : List RVal → Option RVal
  | [] => none
  | v0 :: rest =>
    let foldSize := if full < v0.size then v0.size else full
    let result? : Option SV :=
      match v0.a.ty with
      | .ptr => bitOrPtrCast v0.a (.int v0.size)
      | .fp _ => bitOrPtrCast v0.a (.int v0.size)
      | _ => some v0.a
    match result? with
    | none => none
    | some result =>
      match result.ty with
      | .int _ =>
        match zextOrTrunc result foldSize with
        | none => none
        | some r =>
          match foldInt foldSize r.bits rest with
          | none => none
          | some b => some (RVal.mk' ⟨.int foldSize, b⟩ foldSize)
      | .vec _ e cnt =>
        match foldVec (e * cnt) result rest with
        | none => none
        | some r =>
          match foldVecExt foldSize r with
          | none => none
          | some r => some (RVal.mk' r foldSize)
      | _ => none

/-- Second half of `GetRegFold` (`src/regfile.cc`:362-463). -/
def finishFold (full : Nat) (r : RState) : Option (RState × Nat) :=
  match r.vals with
  | [] =>
    if r.uz then some ({ r with vals := [RVal.mk' ⟨.int full, fun _ => false⟩ full] }, 0) else none
  | v0 :: _ =>
    if r.uz && !v0.dirty then none
    else match scan full r.vals 0 0 with
      | some i => some (r, i)
      | none =>
        match fold full r.vals with
        | none => none
        | some v => some ({ r with vals := [v] }, 0)

/-- Condition of `src/regfile.cc`:335: the register's upper part lives outside the block. -/
def needsOuter (full : Nat) (r : RState) : Bool :=
  !r.uz && (match r.vals with | [] => true | v0 :: _ => decide (v0.size < full))

/-- Copying the parent's values (`src/regfile.cc`:338-349). -/
def inherit (r p : RState) : RState :=
  { r with
    vals := match r.vals with
      | [] => p.vals
      | v0 :: _ => p.vals.takeWhile (fun v => !decide (v.size < v0.size)) ++ r.vals
    uz := p.uz }

/-- `GetRegFold` (`src/regfile.cc`:330-463) for the first register state of the chain; the rest of
the chain are the parents' register files.  Returns the changed chain (parents change too) and the
index of the value. -/
def getFold (c : Cls) (base : Base) : List RState → Nat → Option (List RState × Nat)
  | [], _ => none
  | r :: rest, full =>
    let r := r.canon
    if needsOuter full r then
      match rest with
      | [] =>
        match base with
        | .entry => none
        | .phi b =>
          let phi : RVal := ⟨⟨c.native, b⟩, none, c.native.size, false⟩
          match finishFold full { r with vals := phi :: r.vals } with
          | none => none
          | some (r, i) => some ([r], i)
      | _ :: _ =>
        match getFold c base rest c.native.size with
        | none => none
        | some (rest, _) =>
          match rest with
          | [] => none
          | p :: ps =>
            match finishFold full (inherit r p) with
            | none => none
            | some (r, i) => some (r :: p :: ps, i)
    else
      match finishFold full r with
      | none => none
      | some (r, i) => some (r :: rest, i)

/-- Facets (`src/facet.inc`). -/
inductive Facet
  | ty (t : Ty)
  | i8h
deriving DecidableEq, Repr

/-- `Facet::Size` as used in `GetReg` (`src/regfile.cc`:466-468). -/
def Facet.readSize : Facet → Nat
  | .ty t => t.size
  | .i8h => 16

/-- The conversion switch of `GetReg` (`src/regfile.cc`:486-556). -/
def convert (v : RVal) (t : Ty) : Option SV :=
  match t with
  | .ptr => none
  | .int n =>
    if n = 1 then none else convScalar v t
  | .fp _ => convScalar v t
  | .vec f e targetCnt =>
    let nativeBits := if v.a.ty = .ptr then 0 else v.a.ty.size
    let nativeCnt := nativeBits / e
    match bitCast v.a (.vec f e nativeCnt) with
    | none => none
    | some res =>
      if targetCnt < nativeCnt then
        shuffle res ⟨res.ty, fun _ => false⟩ (List.range targetCnt)
      else some res
where
  /-- integer and floating-point facets (`src/regfile.cc`:498-522) -/
  convScalar (v : RVal) (t : Ty) : Option SV :=
    if v.a.ty.isVec then
      let nativeCnt := v.a.ty.size / t.size
      if nativeCnt = 1 then bitCast v.a t
      else
        match vecOf t nativeCnt with
        | none => none
        | some vt =>
          match bitCast v.a vt with
          | none => none
          | some x => extractElem0 x
    else
      let val? := match v.a.ty with
        | .int _ => some v.a
        | _ => bitOrPtrCast v.a (.int v.size)
      match val? with
      | none => none
      | some val =>
        let val? := if t.size < v.size then zextOrTrunc val t.size else some val
        match val? with
        | none => none
        | some val => bitOrPtrCast val t

/-- The assertion on the insert position (`src/regfile.cc`:561). -/
def nextSmaller : Option RVal → Nat → Bool
  | none, _ => true
  | some w, n => decide (w.size < n)

/-- `GetReg` (`src/regfile.cc`:465-567).  `cache` says whether the SmallVector has spare capacity
(`values.size() < values.capacity()`); the theorems hold for every choice. -/
def getReg (c : Cls) (base : Base) (chain : List RState) (f : Facet) (cache : Bool) :
    Option (List RState × SV) :=
  match getFold c base chain f.readSize with
  | none => none
  | some ([], _) => none
  | some (r :: rest, idx) =>
    match r.vals[idx]? with
    | none => none
    | some v =>
      match f with
      | .i8h =>
        match v.a.ty with
        | .int n => some (r :: rest, ⟨.int 8, low 8 (fun i => decide (i + 8 < n) && v.a.bits (i + 8))⟩)
        | _ => none
      | .ty t =>
        if v.size = t.size then
          if v.a.ty = t then some (r :: rest, v.a)
          else if v.tyB = some t then some (r :: rest, ⟨t, v.a.bits⟩)
          else
            match bitOrPtrCast v.a t with
            | none => none
            | some a => some ({ r with vals := r.vals.set idx { v with a := a, tyB := some v.a.ty } } :: rest, a)
        else
          match convert v t with
          | none => none
          | some res =>
            if cache then
              if nextSmaller r.vals[idx + 1]? t.size then
                some ({ r with vals := r.vals.insertIdx (idx + 1) ⟨res, none, t.size, false⟩ } :: rest, res)
              else none
            else some (r :: rest, res)

/-- `Set` (`src/regfile.cc`:569-573). -/
def setReg (chain : List RState) (v : SV) : Option (List RState) :=
  match chain with
  | [] => none
  | _ :: rest => some (⟨true, none, [RVal.mk' v v.ty.size]⟩ :: rest)

/-- `Merge` (`src/regfile.cc`:575-590). -/
def mergeReg (chain : List RState) (v : SV) : Option (List RState) :=
  match chain with
  | [] => none
  | r :: rest =>
    let r := r.canon
    let keep := r.vals.takeWhile (fun w => !decide (w.size ≤ v.ty.size))
    some ({ r with vals := keep ++ [RVal.mk' v v.ty.size] } :: rest)

/-- `Set` with a transform (`src/regfile.cc`:592-596). -/
def setLazy (chain : List RState) (l : Lazy) : Option (List RState) :=
  match chain with
  | [] => none
  | _ :: rest => some (⟨true, some l, []⟩ :: rest)

/-! ### Access sequences -/

/-- A register access by an instruction lifter. -/
inductive Op
  | read (f : Facet) (cache : Bool)
  | set (v : SV)
  | merge (v : SV)
  | lazy (l : Lazy)

/-- Run a sequence of accesses on the current block's register; collects the values read. -/
def run (c : Cls) (base : Base) : List RState → List Op → Option (List RState × List SV)
  | chain, [] => some (chain, [])
  | chain, .read f cache :: ops =>
    match getReg c base chain f cache with
    | none => none
    | some (chain, v) =>
      match run c base chain ops with
      | none => none
      | some (chain, vs) => some (chain, v :: vs)
  | chain, .set v :: ops =>
    match setReg chain v with
    | none => none
    | some chain => run c base chain ops
  | chain, .merge v :: ops =>
    match mergeReg chain v with
    | none => none
    | some chain => run c base chain ops
  | chain, .lazy l :: ops =>
    match setLazy chain l with
    | none => none
    | some chain => run c base chain ops

/-! ### The whole register file -/

/-- `ArchReg` (`src/regfile.h`:40-105) without the invalid register. -/
inductive AReg
  | flag (i : Nat)
  | gp (i : Nat)
  | vec (i : Nat)
deriving DecidableEq, Repr

/-- Architectures, for the native facet of vector registers (`src/regfile.cc`:195-210). -/
inductive Arch
  | x86 | rv64 | a64
deriving DecidableEq, Repr

/-- `NativeFacet` (`src/regfile.cc`:314-328); PF is FLAG(2) (`src/regfile.h`:100). -/
def AReg.cls (arch : Arch) : AReg → Cls
  | .flag i => if i = 2 then .pf else .flag
  | .gp _ => .gp
  | .vec _ => match arch with | .rv64 => .fpr | _ => .vec

/-- `AccessReg` (`src/regfile.cc`:296-312): index into the array `regs`; `none` is a failed assertion. -/
def AReg.slot : AReg → Option Nat
  | .flag i => if i < 7 then some (1 + i) else none
  | .gp i => if i < 32 then some (8 + i) else none
  | .vec i => if i < 32 then some (40 + i) else none

/-- The register files of a block and of the blocks it inherits from: per array slot, the chain of
register states, and the PHI's value. -/
structure File where
  slots : Nat → List RState
  base : Nat → Base

/-- One access to one register of the file. -/
def File.step (arch : Arch) (st : File) (reg : AReg) (op : Op) : Option (File × List SV) :=
  match reg.slot with
  | none => none
  | some s =>
    match run (reg.cls arch) (st.base s) (st.slots s) [op] with
    | none => none
    | some (chain, vs) => some ({ st with slots := fun t => if t = s then chain else st.slots t }, vs)

/-- A sequence of accesses to arbitrary registers; collects the values read. -/
def File.run (arch : Arch) : File → List (AReg × Op) → Option (File × List SV)
  | st, [] => some (st, [])
  | st, (reg, op) :: ops =>
    match st.step arch reg op with
    | none => none
    | some (st, vs) =>
      match File.run arch st ops with
      | none => none
      | some (st, ws) => some (st, vs ++ ws)

/-! ### x86-64 general-purpose register writes -/

/-- `Lifter::StoreGpFacet` (`src/x86-64/lifter-operand.cc`:180-196).  `cache` as in `getReg`. -/
def storeGp (base : Base) (chain : List RState) (f : Facet) (v : SV) (cache : Bool) :
    Option (List RState) :=
  match f with
  | .i8h =>
    match getReg .gp base chain (.ty (.int 64)) cache with
    | none => none
    | some (chain, old) =>
      let maskedOld : Bits := fun i => old.bits i && (0xffffffffffff00ff : Nat).testBit i
      -- shl (zext i8 v to i64), 8
      let value : Bits := low 64 (fun i => decide (8 ≤ i) && v.bits (i - 8))
      setReg chain ⟨.int 64, fun i => value i || maskedOld i⟩
  | .ty (.int 8) => mergeReg chain v
  | .ty (.int 16) => mergeReg chain v
  | .ty _ => setReg chain v

end Verif.RegFile
