import Verif.Model.GenFile
/-
The text the generator writes: internal/generator/main.go:53-86 `GenerateFile`, 168-205 `genEnum`, 207-557. protogen parses this
text as Go (`GeneratedFile.Content`), adds the import declarations and prints it again in the usual layout.

Public imports (main.go:88-166) are in `Model/GenImport`. Not modelled: weak fields (main.go:358), source annotations (`g.Annotate`).
-/
namespace Pb

open Lean in
/-- `t!"abc"` is the list of the characters of `"abc"`. -/
macro:max "t!" s:str : term => do
  let cs := s.getString.toList.map fun c => Syntax.mkCharLit c
  `([$(cs.toArray),*])

/-- `g.QualifiedGoIdent` (protogen): a name, with the package in front if it is another one. -/
structure QName where
  pkg : Option Text
  name : Text

def QName.text (q : QName) : Text :=
  match q.pkg with
  | none => q.name
  | some p => p ++ '.' :: q.name

/-! ### comments -/

/-- `strings.Split(s, "\n")` (standard library). -/
def splitLines : Text → List Text
  | [] => [[]]
  | c :: cs =>
    if c = '\n' then [] :: splitLines cs
    else
      match splitLines cs with
      | l :: ls => (c :: l) :: ls
      | [] => [[c]]

/-- `strings.TrimSuffix(s, "\n")` (standard library). -/
def trimNewline (s : Text) : Text := if s.getLast? = some '\n' then s.dropLast else s

/-- `protogen.Comments.String` (google.golang.org/protobuf). -/
def commentText (c : Text) : Text :=
  if c = [] then [] else (splitLines (trimNewline c)).flatMap fun l => t!"//" ++ l ++ t!"\n"

/-- main.go:536-544 `appendDeprecationSuffix`. -/
def appendDeprecationSuffix (c : Text) (deprecated : Bool) : Text :=
  if deprecated then (if c = [] then c else c ++ t!"\n") ++ t!" Deprecated: Do not use.\n" else c

/-- main.go:547-557 `trailingComment.String`. -/
def trailingText (c : Text) : Text :=
  let s := trimNewline (commentText c)
  if '\n' ∈ s then [] else s

/-! ### input -/

/-- `strconv.Itoa` (standard library). -/
def intText (n : Int) : Text := if n < 0 then '-' :: decimal n.natAbs else decimal n.natAbs

/-- protogen.EnumValue. -/
structure TextEnumValue where
  name : Text
  number : Int
  leading : Text
  trailing : Text
  deprecated : Bool

/-- protogen.Enum. -/
structure TextEnum where
  name : Text
  leading : Text
  deprecated : Bool
  values : List TextEnumValue

/-- protogen.Field: `name` is `GoName`, `ident` the name of the wrapper type if the field is a member of a oneof (`GoIdent`), `enum` the
type of an enum field (or of the values of a map), `enumFirst` the first value of that enum with its number. -/
structure TextField where
  name : Text
  ident : Text
  leading : Text
  trailing : Text
  deprecated : Bool
  field : ProtoField
  enum : QName
  enumFirst : QName
  enumNumber : Int

/-- protogen.Oneof: `GoName`, `Desc.Name()`, `GoIdent`, comments, and the members. -/
structure TextOneof where
  name : Text
  protoName : Text
  ident : Text
  leading : Text
  members : List TextField

/-- protogen.Message. `oneofs` are those that are not synthetic; the label `oneof i` of a field refers to the `i`-th. -/
structure TextMessage where
  name : Text
  leading : Text
  deprecated : Bool
  tracked : Bool
  fields : List TextField
  oneofs : List TextOneof

/-- The names a file refers to: the package of `Option` (main.go:50), and the structs of messages. -/
structure TextNames where
  protoPkg : Text
  msg : TypeId → QName

/-- protogen.File, with enums and messages in the order of `newFileInfo` (see `Model/GenFile`), without map entries. -/
structure TextFile where
  path : Text
  deprecated : Bool
  pkg : Text
  enums : List TextEnum
  messages : List TextMessage

/-! ### types, tags and default values -/

/-- main.go:364-391 `fieldGoType`, the switch on the kind. -/
def kindText (N : TextNames) (enum : QName) : Kind → Text
  | .bool => t!"bool"
  | .enum => enum.text
  | .int32 | .sint32 | .sfixed32 => t!"int32"
  | .uint32 | .fixed32 => t!"uint32"
  | .int64 | .sint64 | .sfixed64 => t!"int64"
  | .uint64 | .fixed64 => t!"uint64"
  | .float => t!"float32"
  | .double => t!"float64"
  | .string => t!"string"
  | .bytes => t!"[]byte"
  | .message t | .group t => t!"*" ++ (N.msg t).text

/-- main.go:357-400 `fieldGoType`, the first result. -/
def goTypeText (N : TextNames) (f : TextField) : Text :=
  match f.field.label with
  | .repeated => t!"[]" ++ kindText N f.enum f.field.kind
  | .map key =>
    t!"map[" ++ kindText N f.enum (f.field.entryFields key).1.kind ++ t!"]" ++ kindText N f.enum (f.field.entryFields key).2.kind
  | _ => kindText N f.enum f.field.kind

/-- main.go:268-272: the type of a struct field. -/
def fieldTypeText (N : TextNames) (f : TextField) : Text :=
  if (fieldGoType f.field).2 then N.protoPkg ++ t!".Option[" ++ goTypeText N f ++ t!"]" else goTypeText N f

/-- main.go:520-533 `structTags.String`. -/
def tagsText (tags : List (Text × Text)) : Text :=
  if tags = [] then [] else t!"`" ++ renderTags tags ++ t!"`"

/-- main.go:433-457 `fieldDefaultValue`. The package of the enum is that of its values. -/
def defaultText (f : TextField) : Text :=
  match f.field.label with
  | .repeated | .map _ => t!"nil"
  | _ =>
    match f.field.kind with
    | .bool => t!"false"
    | .string => t!"\"\""
    | .message _ | .group _ | .bytes => t!"nil"
    | .enum =>
      match f.enumFirst.pkg with
      | none => f.enumFirst.name
      | some _ => f.enum.text ++ t!"(" ++ intText f.enumNumber ++ t!")"
    | _ => t!"0"

/-- main.go:499-501 `oneofInterfaceName`. -/
def oneofInterfaceName (o : TextOneof) : Text := t!"is" ++ o.ident

/-! ### declarations -/

/-- main.go:168-187 `genEnum`. -/
def enumText (e : TextEnum) : Text :=
  commentText (appendDeprecationSuffix e.leading e.deprecated) ++ t!"type " ++ e.name ++ t!"= int32\n" ++
  t!"const (\n" ++
  (e.values.flatMap fun v =>
    commentText (appendDeprecationSuffix v.leading v.deprecated) ++ v.name ++ t!" " ++ e.name ++ t!" = " ++ intText v.number ++
      trailingText v.trailing ++ t!"\n") ++
  t!")\n" ++ t!"\n"

/-- main.go:238-267: the interface field of a oneof. -/
def oneofFieldText (tracked : Bool) (o : TextOneof) : Text :=
  let leading := if o.leading = [] then [] else o.leading ++ t!"\n"
  let members := o.members.flatMap fun f => t!"\t*" ++ f.ident ++ t!"\n"
  commentText (leading ++ t!" Types that are assignable to " ++ o.name ++ t!":\n" ++ members) ++
    o.name ++ t!" " ++ oneofInterfaceName o ++ tagsText (oneofTags tracked o.protoName) ++ t!"\n"

/-- main.go:268-296: the struct field of a field outside of oneofs. -/
def plainFieldText (N : TextNames) (tracked : Bool) (f : TextField) : Text :=
  commentText (appendDeprecationSuffix f.leading f.deprecated) ++ f.name ++ t!" " ++ fieldTypeText N f ++
    tagsText (fieldTags tracked f.field) ++ trailingText f.trailing ++ t!"\n"

/-- main.go:237-297 `genMessageField` for all fields; `seen` are the oneofs whose first member has been met. -/
def fieldsText (N : TextNames) (m : TextMessage) : List Nat → List TextField → Text
  | _, [] => []
  | seen, f :: fs =>
    match f.field.label with
    | .oneof i =>
      if i ∈ seen then fieldsText N m seen fs
      else (match m.oneofs[i]? with
        | some o => oneofFieldText m.tracked o
        | none => []) ++ fieldsText N m (i :: seen) fs
    | _ => plainFieldText N m.tracked f ++ fieldsText N m seen fs

/-- main.go:228, 238-267, 268-269: whether a field leaves `f.comparable` set; members of oneofs are not asked. -/
def TextField.comparable (f : TextField) : Bool :=
  match f.field.label with
  | .oneof _ => true
  | _ => f.field.comparable

/-- main.go:226-235 `genMessageFields`. -/
def messageFieldsText (N : TextNames) (m : TextMessage) : Text :=
  fieldsText N m [] m.fields ++
    if m.fields.all TextField.comparable then t!"_ [0]func()\n" else []

/-- main.go:505-510 `genNoInterfacePragma`. -/
def pragmaText (tracked : Bool) : Text := if tracked then t!"//go:nointerface\n\n" else []

/-- main.go:307-318: the getter of a oneof. -/
def oneofGetterText (m : TextMessage) (o : TextOneof) : Text :=
  t!"func (m *" ++ m.name ++ t!") Get" ++ o.name ++ t!"() " ++ oneofInterfaceName o ++ t!" {\n" ++
  t!"if m != nil {\n" ++ t!"return m." ++ o.name ++ t!"\n" ++ t!"}\n" ++ t!"return nil\n" ++ t!"}\n" ++ t!"\n"

/-- main.go:320-333: the getter of a member of a oneof. -/
def memberGetterText (N : TextNames) (m : TextMessage) (o : TextOneof) (f : TextField) : Text :=
  commentText (appendDeprecationSuffix [] f.deprecated) ++
  t!"func (x *" ++ m.name ++ t!") Get" ++ f.name ++ t!"() " ++ goTypeText N f ++ t!" {\n" ++
  t!"if x, ok := x.Get" ++ o.name ++ t!"().(*" ++ f.ident ++ t!"); ok {\n" ++
  t!"return x." ++ f.name ++ t!"\n" ++ t!"}\n" ++ t!"return " ++ defaultText f ++ t!"\n" ++ t!"}\n"

/-- main.go:303-351 `genMessageGetterMethods`. -/
def gettersText (N : TextNames) (m : TextMessage) : List Nat → List TextField → Text
  | _, [] => []
  | seen, f :: fs =>
    match f.field.label with
    | .oneof i =>
      (pragmaText m.tracked ++
        match m.oneofs[i]? with
        | some o => (if i ∈ seen then [] else oneofGetterText m o) ++ memberGetterText N m o f
        | none => []) ++ t!"\n" ++ gettersText N m (i :: seen) fs
    | _ => pragmaText m.tracked ++ t!"\n" ++ gettersText N m seen fs

/-- main.go:471-489: the wrapper type of a member. -/
def wrapperText (N : TextNames) (tracked : Bool) (f : TextField) : Text :=
  t!"type " ++ f.ident ++ t!" struct {\n" ++
  commentText (appendDeprecationSuffix f.leading f.deprecated) ++ f.name ++ t!" " ++ goTypeText N f ++
    tagsText (("protobuf".toList, fieldTagValue f.field) :: if tracked then [("go".toList, "track".toList)] else []) ++
    trailingText f.trailing ++ t!"\n" ++ t!"}\n" ++ t!"\n"

/-- main.go:461-495 `genMessageOneofWrapperTypes`, one oneof. -/
def oneofTypesText (N : TextNames) (tracked : Bool) (o : TextOneof) : Text :=
  t!"type " ++ oneofInterfaceName o ++ t!" interface {\n" ++ oneofInterfaceName o ++ t!"()\n" ++ t!"}\n" ++ t!"\n" ++
  o.members.flatMap (wrapperText N tracked) ++
  o.members.flatMap fun f => t!"func (*" ++ f.ident ++ t!") " ++ oneofInterfaceName o ++ t!"() {}\n" ++ t!"\n"

/-- main.go:207-224 `genMessage`. -/
def messageText (N : TextNames) (m : TextMessage) : Text :=
  commentText (appendDeprecationSuffix m.leading m.deprecated) ++ t!"type " ++ m.name ++ t!" struct {\n" ++
  messageFieldsText N m ++ t!"}\n" ++ t!"\n" ++ gettersText N m [] m.fields ++ m.oneofs.flatMap (oneofTypesText N m.tracked)

/-- main.go:77-86 `genGeneratedHeader`, 60-62. -/
def headerText (f : TextFile) : Text :=
  t!"// Code generated by protoc-gen-golite. DO NOT EDIT.\n" ++
  (if f.deprecated then t!"// " ++ f.path ++ t!" is a deprecated file.\n" else t!"// source: " ++ f.path ++ t!"\n") ++ t!"\n" ++
  t!"package " ++ f.pkg ++ t!"\n" ++ t!"\n"

/-- main.go:67-72. -/
def bodyText (N : TextNames) (f : TextFile) : Text := f.enums.flatMap enumText ++ f.messages.flatMap (messageText N)

/-- main.go:53-75 `GenerateFile`, for a file without public imports (see `Model/GenImport`). -/
def fileText (N : TextNames) (f : TextFile) : Text := headerText f ++ bodyText N f

end Pb
