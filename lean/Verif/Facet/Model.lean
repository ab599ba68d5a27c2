/-! The views of registers, /repo/src/facet.cc, /repo/src/facet.h and /repo/src/facet.inc: which LLVM type an operand has. -/

namespace Verif.Facet

/-- `Facet::Value`, /repo/src/facet.h:39-56, without the end marker `MAX`. -/
inductive Fc where
  | I1 | I8 | I16 | I32 | I64 | I128
  | F32 | F64
  | V1I8 | V2I8 | V4I8 | V8I8 | V16I8
  | V1I16 | V2I16 | V4I16 | V8I16
  | V1I32 | V2I32 | V4I32
  | V1I64 | V2I64
  | V1F32 | V2F32 | V4F32
  | V1F64 | V2F64
  | PTR | I8H
  | I
  | VI8 | VI16 | VI32 | VI64 | VF32 | VF64
  deriving DecidableEq, Repr

/-- The LLVM types that facets have, /repo/src/facet.inc:1-38; other LLVM types are left out. -/
inductive Ty where
  | int (bits : Nat)
  | float
  | double
  | ptr
  | vec (num : Nat) (elem : Ty)
  deriving DecidableEq, Repr

/-- `SCALAR_INT_FACET`, /repo/src/facet.inc:1-8. -/
def scalarInts : List (Fc × Nat × Ty) :=
  [(.I1, 1, .int 1), (.I8, 8, .int 8), (.I16, 16, .int 16), (.I32, 32, .int 32), (.I64, 64, .int 64), (.I128, 128, .int 128)]

/-- `SCALAR_FP_FACET`, /repo/src/facet.inc:9-12. -/
def scalarFps : List (Fc × Nat × Ty) := [(.F32, 32, .float), (.F64, 64, .double)]

/-- `VECTOR_FACET`, /repo/src/facet.inc:13-33. -/
def vectors : List (Fc × Nat × Fc) :=
  [(.V1I8, 1, .I8), (.V2I8, 2, .I8), (.V4I8, 4, .I8), (.V8I8, 8, .I8), (.V16I8, 16, .I8),
   (.V1I16, 1, .I16), (.V2I16, 2, .I16), (.V4I16, 4, .I16), (.V8I16, 8, .I16),
   (.V1I32, 1, .I32), (.V2I32, 2, .I32), (.V4I32, 4, .I32), (.V1I64, 1, .I64), (.V2I64, 2, .I64),
   (.V1F32, 1, .F32), (.V2F32, 2, .F32), (.V4F32, 4, .F32), (.V1F64, 1, .F64), (.V2F64, 2, .F64)]

/-- `SPECIAL_FACET`, /repo/src/facet.inc:34-38. -/
def specials : List (Fc × Nat × Ty) := [(.PTR, 64, .ptr), (.I8H, 8, .int 8)]

/-- `PSEUDO_VECTOR_FACET`, /repo/src/facet.inc:42-49. -/
def pseudoVectors : List (Fc × Fc) :=
  [(.VI8, .I8), (.VI16, .I16), (.VI32, .I32), (.VI64, .I64), (.VF32, .F32), (.VF64, .F64)]

/-- `Facet::In`, /repo/src/facet.cc:33-41; `none` is the failing assertion, here and below
(without assertions the code returns `MAX`, a null pointer or 0). -/
def ofBits (bits : Nat) : Option Fc := (scalarInts.find? (fun e => e.2.1 = bits)).map (·.1)

/-- `Facet::Vnt`, /repo/src/facet.cc:43-49. -/
def ofVector (num : Nat) (scalar : Fc) : Option Fc := (vectors.find? (fun e => e.2.1 = num ∧ e.2.2 = scalar)).map (·.1)

/-- The cases of `Facet::Size` and `Facet::Type` other than vectors, /repo/src/facet.cc:69-71, 86-88. -/
def scalars : List (Fc × Nat × Ty) := scalarInts ++ scalarFps ++ specials

/-- Their sizes, /repo/src/facet.cc:69-71. -/
def scalarSize (f : Fc) : Option Nat := (scalars.find? (fun e => e.1 = f)).map (·.2.1)
/-- Their types, /repo/src/facet.cc:86-88. -/
def scalarType (f : Fc) : Option Ty := (scalars.find? (fun e => e.1 = f)).map (·.2.2)

/-- `Facet::Size`, /repo/src/facet.cc:67-82. -/
def size (f : Fc) : Option Nat :=
  match vectors.find? (fun e => e.1 = f) with
  | some (_, num, sc) => (scalarSize sc).map (num * ·)
  | none => scalarSize f

/-- `Facet::Type`, /repo/src/facet.cc:84-100. -/
def type (f : Fc) : Option Ty :=
  match vectors.find? (fun e => e.1 = f) with
  | some (_, num, sc) => (scalarType sc).map (.vec num)
  | none => scalarType f

/-- `Facet::FromType`, /repo/src/facet.cc:51-65. -/
def fromType : Ty → Option Fc
  | .vec num e => (fromType e).bind (ofVector num)
  | .int bits => ofBits bits
  | .float => some .F32
  | .double => some .F64
  | .ptr => none

/-- `Facet::Resolve`, /repo/src/facet.cc:102-114. -/
def resolve (f : Fc) (bits : Nat) : Option Fc :=
  if f = .I then ofBits bits
  else match pseudoVectors.find? (fun e => e.1 = f) with
    | some (_, sc) => (scalarSize sc).bind fun n => ofVector (bits / n) sc
    | none => some f

end Verif.Facet
