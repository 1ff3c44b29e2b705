import Verif.Model.RawTag
/-
The code generator: internal/generator/main.go:226-297 (`genMessageFields`, `genMessageField`), 353-431
(`fieldGoType`, `fieldProtobufTagValue`). What is modelled is the Go struct type a message becomes; the text
around it (comments, getters, enum constants, oneof wrapper types) does not reach the library (the whole text is in `Model/GenText`).
-/
namespace Pb

/-- protoreflect.Kind (google.golang.org/protobuf): the type of a field in a .proto file. -/
inductive Kind where
  | bool | enum | int32 | sint32 | uint32 | int64 | sint64 | uint64
  | sfixed32 | fixed32 | float | sfixed64 | fixed64 | double
  | string | bytes
  | message (t : TypeId) | group (t : TypeId)
deriving DecidableEq, Repr

/-- How a field is declared in a .proto file. -/
inductive Label where
  /-- proto3, without label -/
  | implicit
  /-- `optional`, in proto2 and in proto3 -/
  | optional
  /-- `required`, in proto2 -/
  | required
  | repeated
  /-- member of the given `oneof` of the message -/
  | oneof (i : Nat)
  /-- `map<key, kind>`: the kind of the field is that of the values -/
  | map (key : Kind)
deriving DecidableEq, Repr

/-- A field of a message in a .proto file. Extensions and weak fields are not modelled. -/
structure ProtoField where
  number : Nat
  kind : Kind
  label : Label
deriving DecidableEq, Repr

/-- A message of a .proto file. -/
abbrev ProtoMessage := List ProtoField
/-- The messages of the .proto files of a program. -/
abbrev Protos := TypeId → ProtoMessage

/-- protoreflect.Cardinality. -/
inductive Card where
  | optional | required | repeated
deriving DecidableEq, Repr

/-- `FieldDescriptor.Cardinality()`. -/
def ProtoField.card (f : ProtoField) : Card :=
  match f.label with
  | .implicit | .optional | .oneof _ => .optional
  | .required => .required
  | .repeated | .map _ => .repeated

/-- `FieldDescriptor.HasPresence()`. -/
def ProtoField.hasPresence (f : ProtoField) : Bool :=
  match f.label with
  | .optional | .required | .oneof _ => true
  | .implicit =>
    match f.kind with
    | .message _ | .group _ => true
    | _ => false
  | .repeated | .map _ => false

/-- The two fields of the entry message of a map field, `field.Message.Fields[0]` and `[1]`. -/
def ProtoField.entryFields (f : ProtoField) (key : Kind) : ProtoField × ProtoField :=
  (⟨1, key, .implicit⟩, ⟨2, f.kind, .implicit⟩)

/-- main.go:364-391 `fieldGoType`, the switch on the kind. Enum types are aliases of int32 (main.go:168-174). -/
def kindGoType : Kind → GoType
  | .bool => .bool
  | .enum => .int32
  | .int32 | .sint32 | .sfixed32 => .int32
  | .uint32 | .fixed32 => .uint32
  | .int64 | .sint64 | .sfixed64 => .int64
  | .uint64 | .fixed64 => .uint64
  | .float => .float32
  | .double => .float64
  | .string => .string
  | .bytes => .slice .uint8
  | .message t | .group t => .ptr (.named t)

/-- main.go:383-391: bytes and messages express presence by themselves. -/
def Kind.selfPresent : Kind → Bool
  | .bytes | .message _ | .group _ => true
  | _ => false

/-- main.go:357-400 `fieldGoType`: the Go type, and whether it is to be wrapped in `Option`. -/
def fieldGoType (f : ProtoField) : GoType × Bool :=
  match f.label with
  | .repeated => (.slice (kindGoType f.kind), false)
  | .map key =>
    let (k, v) := f.entryFields key
    (.map (kindGoType k.kind) (kindGoType v.kind), false)
  | _ => (kindGoType f.kind, f.hasPresence && !f.kind.selfPresent)

/-- The `Option` instance of a Go type. -/
def optBaseOf : GoType → OptBase
  | .bool => .bool
  | .int32 => .int32
  | .int64 => .int64
  | .uint32 => .uint32
  | .uint64 => .uint64
  | .float32 => .float32
  | .float64 => .float64
  | .string => .string
  | _ => .other

/-- main.go:405-420 `fieldProtobufTagValue`: the encoding name. -/
def kindTagName : Kind → Text
  | .bool | .enum | .int32 | .uint32 | .int64 | .uint64 => "varint".toList
  | .sint32 => "zigzag32".toList
  | .sint64 => "zigzag64".toList
  | .sfixed32 | .fixed32 | .float => "fixed32".toList
  | .sfixed64 | .fixed64 | .double => "fixed64".toList
  | .string | .bytes | .message _ => "bytes".toList
  | .group _ => "group".toList

/-- main.go:422-429: the cardinality. -/
def cardTagName : Card → Text
  | .optional => "opt".toList
  | .required => "req".toList
  | .repeated => "rep".toList

/-- `FieldDescriptor.Kind()`: map fields are of message kind. -/
def ProtoField.descKind (f : ProtoField) : Kind :=
  match f.label with
  | .map _ => .message 0
  | _ => f.kind

/-- main.go:402-431 `fieldProtobufTagValue`. -/
def fieldTagValue (f : ProtoField) : Text :=
  kindTagName f.descKind ++ ',' :: (decimal f.number ++ ',' :: cardTagName f.card)

/-- main.go:273-286: the tags of a struct field. `tracked` is `m.isTracked` (init.go:151-168), an option of the message. -/
def fieldTags (tracked : Bool) (f : ProtoField) : List (Text × Text) :=
  ("protobuf".toList, fieldTagValue f) ::
    ((match f.label with
      | .map key => [("protobuf_key".toList, fieldTagValue (f.entryFields key).1),
                     ("protobuf_val".toList, fieldTagValue (f.entryFields key).2)]
      | _ => []) ++
     if tracked then [("go".toList, "track".toList)] else [])

/-- main.go:247-252: the tags of the interface field that stands for a whole oneof. -/
def oneofTags (tracked : Bool) (name : Text) : List (Text × Text) :=
  ("protobuf_oneof".toList, name) :: if tracked then [("go".toList, "track".toList)] else []

/-- main.go:268-296: the struct field for a field outside of oneofs. The Go name of a field begins with an upper case
letter. -/
def genField (tracked : Bool) (f : ProtoField) : FieldDecl :=
  let (t, option) := fieldGoType f
  declOf true (renderTags (fieldTags tracked f)) (if option then .opt (optBaseOf t) else .ty t)

/-- main.go:226-235 and 237-266: the struct fields of a message, in order; `seen` lists the oneofs that have had their
interface field already, `name` gives the names of the oneofs. -/
def genFields (tracked : Bool) (name : Nat → Text) : List Nat → List ProtoField → List FieldDecl
  | _, [] => []
  | seen, f :: fs =>
    match f.label with
    | .oneof i =>
      if i ∈ seen then genFields tracked name seen fs
      else declOf true (renderTags (oneofTags tracked (name i))) (.ty .other) :: genFields tracked name (i :: seen) fs
    | _ => genField tracked f :: genFields tracked name seen fs

/-- Whether `fieldGoType` reports the Go type as comparable (main.go:363, 385, 394, 398). -/
def ProtoField.comparable (f : ProtoField) : Bool :=
  match f.label with
  | .repeated | .map _ => false
  | _ => f.kind != .bytes

/-- main.go:207-235: the Go struct of a message. A struct all of whose fields are comparable gets the unexported field
`_ [0]func()` at the end. -/
def genMessage (tracked : Bool) (name : Nat → Text) (m : ProtoMessage) : StructDecl :=
  genFields tracked name [] m ++
    if m.all (fun f => match f.label with | .oneof _ => true | _ => f.comparable) then
      [⟨false, none, [], [], .ty .other⟩]
    else []

/-- The generated program: `tracked` and `name` as above, for each message. -/
def genProgram (tracked : TypeId → Bool) (name : TypeId → Nat → Text) (P : Protos) : Decls :=
  fun t => genMessage (tracked t) (name t) (P t)

end Pb
