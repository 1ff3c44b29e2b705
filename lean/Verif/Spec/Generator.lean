import Verif.Model.Generator
import Verif.Spec.Protobuf
/-
Messages of .proto files and their wire format, from the .proto file alone: no reference to generated code, struct tags or
codecs.
-/
namespace Pb.Spec

/-- The wire type of a protobuf type. -/
def kindWire : Kind → Nat
  | .bool | .enum | .int32 | .sint32 | .uint32 | .int64 | .sint64 | .uint64 => 0
  | .sfixed64 | .fixed64 | .double => 1
  | .string | .bytes | .message _ => 2
  | .group _ => 3
  | .sfixed32 | .fixed32 | .float => 5

/-- The types with zig-zag coding. -/
def kindZigzag : Kind → Bool
  | .sint32 | .sint64 => true
  | _ => false

/-- The wire type of the records of a field: map entries are messages. -/
def fieldWire (f : ProtoField) : Nat :=
  match f.label with
  | .map _ => 2
  | _ => kindWire f.kind

/-- Zig-zag coding applies to the values of a field. -/
def fieldZigzag (f : ProtoField) : Bool :=
  match f.label with
  | .map _ => false
  | _ => kindZigzag f.kind

/-- The field has a list of values. -/
def fieldRepeated (f : ProtoField) : Bool :=
  match f.label with
  | .repeated | .map _ => true
  | _ => false

/-- Protobuf's scalar types and the library's. sfixed32 and sfixed64 are missing. -/
inductive KindIs : Kind → Scalar → Prop
  | bool : KindIs .bool .bool
  | enum : KindIs .enum .int32
  | int32 : KindIs .int32 .int32
  | int64 : KindIs .int64 .int64
  | uint32 : KindIs .uint32 .uint32
  | uint64 : KindIs .uint64 .uint64
  | sint32 : KindIs .sint32 .zigzag32
  | sint64 : KindIs .sint64 .zigzag64
  | fixed32 : KindIs .fixed32 .fixed32
  | fixed64 : KindIs .fixed64 .fixed64
  | float : KindIs .float .float32
  | double : KindIs .double .float64
  | string : KindIs .string .string

/-- Types of singular fields that are handled. -/
inductive SingularKind : Kind → Prop
  | scalar (k s) : KindIs k s → SingularKind k
  | bytes : SingularKind .bytes
  | message (t) : SingularKind (.message t)

/-- Types of repeated fields that are handled: fixed32 and fixed64 are missing. -/
inductive RepeatedKind : Kind → Prop
  | mk (k) : SingularKind k → k ≠ .fixed32 → k ≠ .fixed64 → RepeatedKind k

/-- Types of map values that are handled: sint32 and sint64 are missing too. -/
inductive MapValueKind : Kind → Prop
  | mk (k) : RepeatedKind k → k ≠ .sint32 → k ≠ .sint64 → MapValueKind k

/-- Types of map keys that are handled; protobuf also has sint32, sint64, fixed32, fixed64, sfixed32, sfixed64. -/
inductive MapKeyKind : Kind → Prop
  | bool : MapKeyKind .bool
  | int32 : MapKeyKind .int32
  | int64 : MapKeyKind .int64
  | uint32 : MapKeyKind .uint32
  | uint64 : MapKeyKind .uint64
  | string : MapKeyKind .string

/-- Fields whose values the library handles. -/
inductive Handled : ProtoField → Prop
  | implicit (n k) : SingularKind k → Handled ⟨n, k, .implicit⟩
  | optional (n k) : SingularKind k → Handled ⟨n, k, .optional⟩
  | repeated (n k) : RepeatedKind k → Handled ⟨n, k, .repeated⟩
  | map (n k key) : MapKeyKind key → MapValueKind k → Handled ⟨n, k, .map key⟩

/-- The field is a member of a oneof. -/
def InOneof (f : ProtoField) : Prop := ∃ i, f.label = .oneof i

/-- The memory of a value of a protobuf type in Go. -/
def kindShape : Kind → Shape
  | .bool => .b8
  | .enum | .int32 | .sint32 | .uint32 | .fixed32 | .sfixed32 | .float => .w32
  | .int64 | .sint64 | .uint64 | .fixed64 | .sfixed64 | .double => .w64
  | .string => .str
  | .bytes => .bytes
  | .message t | .group t => .msg t

/-- The memory of a field: explicit presence of a scalar takes an `Option`, everything else can be nil. -/
def fieldShape (f : ProtoField) : Shape :=
  match f.label, f.kind with
  | .repeated, k => .slice (kindShape k)
  | .map key, k => .map (kindShape key) (kindShape k)
  | .implicit, k => kindShape k
  | _, .bytes => .bytes
  | _, .message t | _, .group t => .msg t
  | _, k => .opt (kindShape k)

/-- What protoc guarantees about a message: field numbers are positive, less than 2^29 and different. -/
structure NumbersOK (m : ProtoMessage) : Prop where
  range : ∀ f ∈ m, 0 < f.number ∧ f.number < 2 ^ 29
  distinct : m.Pairwise fun f g => f.number ≠ g.number

/-- A .proto program the library handles: fields outside of oneofs are handled. (Those in oneofs are ignored, see C39.) -/
structure ProtosOK (P : Protos) : Prop where
  numbers : ∀ t, NumbersOK (P t)
  handled : ∀ t, ∀ f ∈ P t, ¬ InOneof f → Handled f

/-- Maps with key and value types that are measured alike (see `MapsAlike`). -/
def ProtoMapsAlike (P : Protos) : Prop := ∀ t, ∀ f ∈ P t, ∀ key, f.label = .map key →
  f.kind = key ∨ (key = .int32 ∧ f.kind = .enum) ∨ (key = .int64 ∧ f.kind = .uint64) ∨ (key = .uint64 ∧ f.kind = .int64)

/-- Names of oneofs: text without characters that have a meaning in struct tags. -/
def PlainText (s : Text) : Prop := ∀ c ∈ s, c ≠ '"' ∧ c ≠ '\\' ∧ c ≠ '`' ∧ c ≠ '\n'

mutual
/-- `ProtoValue P always k v ds`: a value `v` of protobuf type `k` is represented by records with the payloads `ds` (none or
one). With `always`, zero is written too. -/
inductive ProtoValue (P : Protos) : Bool → Kind → Val → List Bytes → Prop
  | scalar (always k s v) : KindIs k s → (always = true ∨ v ≠ s.shape.zero) → ProtoValue P always k v [payload s v]
  /-- implicit presence: a zero scalar is left out -/
  | zero (k s) : KindIs k s → ProtoValue P false k s.shape.zero []
  | bytes (always s) : ProtoValue P always .bytes (.bytes (some s)) [delimited s]
  | bytesNil (always) : ProtoValue P always .bytes (.bytes none) []
  | message (always t vs body) : ProtoMsg P [] (P t) vs body → ProtoValue P always (.message t) (.ptr (.struct vs)) [delimited body]
  | messageNil (always t) : ProtoValue P always (.message t) .nilp []

/-- `ProtoFieldValue P l k v ds`: a field of type `k` with label `l`. -/
inductive ProtoFieldValue (P : Protos) : Label → Kind → Val → List Bytes → Prop
  | implicit (k v ds) : ProtoValue P false k v ds → ProtoFieldValue P .implicit k v ds
  /-- explicit presence -/
  | some (k s v) : KindIs k s → ProtoFieldValue P .optional k (.opt true v) [payload s v]
  | none (k s v) : KindIs k s → ProtoFieldValue P .optional k (.opt false v) []
  /-- types that can be nil have explicit presence anyway -/
  | optional (k v ds) : (∀ s, ¬ KindIs k s) → ProtoValue P false k v ds → ProtoFieldValue P .optional k v ds
  /-- not packed: one record per element -/
  | repeated (k isNil es spare ds) : ProtoList P k es ds → ProtoFieldValue P .repeated k (.slice isNil es spare) ds
  | map (key k isNil m ds) : m ≠ [] → ProtoEntries P key k m ds → ProtoFieldValue P (.map key) k (.map isNil m) ds
  /-- not protobuf's rule, but the library's: an empty map is one empty record -/
  | mapEmpty (key k isNil) : ProtoFieldValue P (.map key) k (.map isNil []) [[0#8]]

/-- The elements of a repeated field. -/
inductive ProtoList (P : Protos) : Kind → List Val → List Bytes → Prop
  | nil (k) : ProtoList P k [] []
  | cons (k v vs ds ds') : ProtoValue P true k v ds → ProtoList P k vs ds' → ProtoList P k (v :: vs) (ds ++ ds')

/-- The entries of a map: key number 1, value number 2. -/
inductive ProtoEntries (P : Protos) : Kind → Kind → List (Key × Val) → List Bytes → Prop
  | nil (key k) : ProtoEntries P key k [] []
  | cons (key k x v m kds vds ds) : ProtoValue P true key (Key.toVal x) kds → ProtoValue P true k v vds →
      ProtoEntries P key k m ds → ProtoEntries P key k ((x, v) :: m)
        (delimited (recordsFor 1 (kindWire key) kds ++ recordsFor 2 (kindWire k) vds) :: ds)

/-- `ProtoMsg P seen fs vs b`: the fields `fs` of a message are represented by `b`, where `vs` are the values of the struct
fields: one for each field outside of oneofs, and one for each oneof not in `seen`, at its first member. -/
inductive ProtoMsg (P : Protos) : List Nat → List ProtoField → List Val → Bytes → Prop
  | nil (seen vs) : ProtoMsg P seen [] vs []
  | field (seen f fs v vs ds b) : ¬ InOneof f → ProtoFieldValue P f.label f.kind v ds → ProtoMsg P seen fs vs b →
      ProtoMsg P seen (f :: fs) (v :: vs) (recordsFor f.number (fieldWire f) ds ++ b)
  /-- not protobuf's rule, but the library's: oneofs are left out -/
  | oneof (seen f fs i v vs b) : f.label = .oneof i → i ∉ seen → ProtoMsg P (i :: seen) fs vs b →
      ProtoMsg P seen (f :: fs) (v :: vs) b
  | oneofSeen (seen f fs i vs b) : f.label = .oneof i → i ∈ seen → ProtoMsg P seen fs vs b → ProtoMsg P seen (f :: fs) vs b
end

end Pb.Spec
