import Verif.Model.Walker
import Verif.Model.Api
import Verif.Spec.Tag
import Verif.Spec.Back
/-
Programs: Go struct declarations, what memory their values occupy and which of them the library handles.
-/
namespace Pb

/-- The memory of a Go type. -/
def GoType.shape : GoType → Shape
  | .bool => .b8
  | .int32 | .uint32 | .float32 => .w32
  | .int64 | .uint64 | .float64 => .w64
  | .string => .str
  | .slice .uint8 => .bytes
  | .slice t => .slice t.shape
  | .map k v => .map k.shape v.shape
  | .ptr (.named t) => .msg t
  | .ptr t => .ptr t.shape
  | .uint8 | .other | .named _ => .opaque

/-- The type `T` of an `Option[T]`. -/
def OptBase.goType : OptBase → GoType
  | .bool => .bool
  | .int32 => .int32
  | .int64 => .int64
  | .uint32 => .uint32
  | .uint64 => .uint64
  | .float32 => .float32
  | .float64 => .float64
  | .string => .string
  | .other => .other

/-- The memory of a struct field. -/
def FieldType.shape : FieldType → Shape
  | .opt b => .opt b.goType.shape
  | .ty t => t.shape

/-- The memory of the structs of a program. -/
def layoutOf (D : Decls) : Layout := fun t => (D t).map fun f => f.ty.shape

/-- The type infos of a program. A type whose analysis panics has no fields here; this is only used for programs all of
whose types are accepted, or with the types in question accepted. -/
def envOf (D : Decls) : Env := fun t =>
  match walkStruct (D t) with
  | .ok i => i
  | .error _ => { fields := [], zero := zeroStruct (D t) }

namespace Spec

/-- `Means e z T s`: a Go field of type `T` whose tag says wire type `e` and zig-zag `z` is protobuf scalar type `s`.
(`int32` with fixed32 and `int64` with fixed64, protobuf's sfixed32 and sfixed64, are missing: the library has no codec
for them.) -/
inductive Means : Nat → Bool → GoType → Scalar → Prop
  | bool : Means 0 false .bool .bool
  | int32 : Means 0 false .int32 .int32
  | int64 : Means 0 false .int64 .int64
  | uint32 : Means 0 false .uint32 .uint32
  | uint64 : Means 0 false .uint64 .uint64
  | sint32 : Means 0 true .int32 .zigzag32
  | sint64 : Means 0 true .int64 .zigzag64
  | fixed32 : Means 5 false .uint32 .fixed32
  | fixed64 : Means 1 false .uint64 .fixed64
  | float : Means 5 false .float32 .float32
  | double : Means 1 false .float64 .float64
  | string : Means 2 false .string .string

/-- `ValueOK e z T`: what repeated fields and pointers may hold. fixed32 and fixed64 are missing, see C32;
pointers to byte slices are missing, see C53. -/
inductive ValueOK (e : Nat) (z : Bool) : GoType → Prop
  | scalar (T s) : Means e z T s → s ≠ .fixed32 → s ≠ .fixed64 → ValueOK e z T
  | bytes : e = 2 → ValueOK e z (.slice .uint8)
  | msg (t) : e = 2 → ValueOK e z (.ptr (.named t))
  | ptr (T) : ValueOK e z T → T ≠ .slice .uint8 → ValueOK e z (.ptr T)

/-- `EntryOK e T`: what maps may hold. Zig-zag coded types are missing, see C22. -/
inductive EntryOK (e : Nat) : GoType → Prop
  | scalar (T s) : Means e false T s → s ≠ .fixed32 → s ≠ .fixed64 → EntryOK e T
  | value (T) : ValueOK e false T → e ≠ 1 → e ≠ 5 → EntryOK e T

/-- Go types of map keys. -/
inductive KeyOK (e : Nat) : GoType → Prop
  | scalar (T s) : Means e false T s → s ≠ .fixed32 → s ≠ .fixed64 → s ≠ .float32 → s ≠ .float64 → KeyOK e T

/-- `FieldOK e z kt vt T`: the field types the library handles, for a field with wire type `e` and zig-zag `z` and the map
tags `kt` and `vt`. -/
inductive FieldOK (e : Nat) (z : Bool) (kt vt : Text) : FieldType → Prop
  | scalar (T s) : Means e z T s → FieldOK e z kt vt (.ty T)
  | option (b s) : Means e z (OptBase.goType b) s → FieldOK e z kt vt (.opt b)
  | value (T) : ValueOK e z T → e ≠ 1 → e ≠ 5 → FieldOK e z kt vt (.ty T)
  | repeated (T) : ValueOK e z T → FieldOK e z kt vt (.ty (.slice T))
  | map (K V ke kn kc ve vn vc) : e = 2 → SaysTag kt ke kn kc false → SaysTag vt ve vn vc false → 0 ≤ kn → 0 ≤ vn →
      kn < 2 ^ 61 → vn < 2 ^ 61 → kn ≠ vn → KeyOK ke K → EntryOK ve V → FieldOK e z kt vt (.ty (.map K V))

/-- The field is looked at by the library. -/
def _root_.Pb.FieldDecl.Active (f : FieldDecl) : Prop := f.exported = true ∧ f.tag ≠ none

/-- The field number a declaration says. -/
def Says (f : FieldDecl) (n : Int) : Prop := ∃ s e c z, f.tag = some s ∧ SaysTag s e n c z

/-- A declaration the library handles. -/
def DeclOK (f : FieldDecl) : Prop :=
  ∃ s e n c z, f.tag = some s ∧ SaysTag s e n c z ∧ 0 ≤ n ∧ n < 2 ^ 61 ∧ FieldOK e z f.keyTag f.valTag f.ty

/-- A struct type the library handles: all exported, tagged fields are handled and have different numbers. -/
structure StructOK (d : StructDecl) : Prop where
  fields : ∀ f ∈ d, f.Active → DeclOK f
  numbers : d.Pairwise fun f g => f.Active → g.Active → ∀ n m, Says f n → Says g m → n ≠ m

/-- A program the library handles. -/
def ProgramOK (D : Decls) : Prop := ∀ t, StructOK (D t)

end Spec
end Pb

namespace Pb.Spec

/-- `Pointee T B`: the type `T` is `*B`, `**B`, ... -/
inductive Pointee : GoType → GoType → Prop
  | one (B) : Pointee (.ptr B) B
  | more (T B) : Pointee T B → Pointee (.ptr T) B

/-- Go types of scalar fields. -/
inductive ScalarType : GoType → Prop
  | bool : ScalarType .bool
  | int32 : ScalarType .int32
  | int64 : ScalarType .int64
  | uint32 : ScalarType .uint32
  | uint64 : ScalarType .uint64
  | float32 : ScalarType .float32
  | float64 : ScalarType .float64
  | string : ScalarType .string

/-- Types of single values: scalars, byte slices, messages by pointer, and pointers to such. -/
inductive Single : GoType → Prop
  | scalar (T) : ScalarType T → Single T
  | bytes : Single (.slice .uint8)
  | msg (t) : Single (.ptr (.named t))
  | ptr (T) : Single T → Single (.ptr T)

/-- The types of fields that type analysis accepts, for a field with wire type `e`. -/
inductive Accepted (e : Nat) : FieldType → Prop
  | option (b) : ScalarType (OptBase.goType b) → (b = .float32 → e = 5) → (b = .float64 → e = 1) → Accepted e (.opt b)
  | single (T) : Single T → Accepted e (.ty T)
  | repeated (T) : Single T → Accepted e (.ty (.slice T))
  | map (K V) : Single K → Single V → Accepted e (.ty (.map K V))

/-- A declaration that type analysis accepts. -/
def DeclAccepted (f : FieldDecl) : Prop := ∃ s e n c z, f.tag = some s ∧ SaysTag s e n c z ∧ Accepted e f.ty

/-- Pointer types that analysis gets right, for wire type `e`: pointers to byte slices are treated as slices, and
pointers to numbers with a fixed-width tag as the numbers themselves. -/
def PointersSane (e : Nat) (T : GoType) : Prop := ∀ B, Pointee T B →
  (∀ E, B ≠ .slice E) ∧ (e = 5 → B ≠ .uint32 ∧ B ≠ .float32) ∧ (e = 1 → B ≠ .uint64 ∧ B ≠ .float64)

/-- The wire type a map tag says; 0 if it says nothing. -/
inductive MapTagWire : Text → Nat → Prop
  | says (s e n c z) : SaysTag s e n c z → MapTagWire s e
  | absent : MapTagWire [] 0

/-- Declarations whose memory analysis gets right. -/
inductive Sane (kt vt : Text) : Nat → FieldType → Prop
  | option (e b) : Sane kt vt e (.opt b)
  | ty (e T) : (∀ K V, T ≠ .map K V) → PointersSane e T → Sane kt vt e (.ty T)
  | map (e K V ke ve) : ScalarType K → K ≠ .float32 → K ≠ .float64 → MapTagWire kt ke → MapTagWire vt ve →
      PointersSane ve V → Sane kt vt e (.ty (.map K V))

/-- A program that type analysis accepts and whose memory it gets right. -/
structure ProgramSane (D : Decls) : Prop where
  accepted : ∀ t, ∀ f ∈ D t, f.Active → DeclAccepted f
  sane : ∀ t, ∀ f ∈ D t, f.Active → ∀ s e n c z, f.tag = some s → SaysTag s e n c z → Sane f.keyTag f.valTag e f.ty

end Pb.Spec
