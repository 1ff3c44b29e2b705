import Verif.Spec.GoSource
/-
What a generated file should declare, and what its struct types mean.
-/
namespace Pb.Spec

/-! ### what should be declared -/

/-- The type a qualified name stands for in source. -/
def QName.expr (q : QName) : TypeExpr := .name q.pkg q.name

/-- The Go type of a kind. -/
def kindExpr (N : TextNames) (enum : QName) : Kind → TypeExpr
  | .bool => .name none t!"bool"
  | .enum => QName.expr enum
  | .int32 | .sint32 | .sfixed32 => .name none t!"int32"
  | .uint32 | .fixed32 => .name none t!"uint32"
  | .int64 | .sint64 | .sfixed64 => .name none t!"int64"
  | .uint64 | .fixed64 => .name none t!"uint64"
  | .float => .name none t!"float32"
  | .double => .name none t!"float64"
  | .string => .name none t!"string"
  | .bytes => .slice (.name none t!"byte")
  | .message t | .group t => .ptr (QName.expr (N.msg t))

/-- The Go type of a field. -/
def goTypeExpr (N : TextNames) (f : TextField) : TypeExpr :=
  match f.field.label with
  | .repeated => .slice (kindExpr N f.enum f.field.kind)
  | .map key => .map (kindExpr N f.enum key) (kindExpr N f.enum f.field.kind)
  | _ => kindExpr N f.enum f.field.kind

/-- The type of a struct field: optional scalars are wrapped. -/
def fieldTypeExpr (N : TextNames) (f : TextField) : TypeExpr :=
  if (fieldGoType f.field).2 then .inst N.protoPkg t!"Option" (goTypeExpr N f) else goTypeExpr N f

/-- The field of a oneof in the struct. -/
def oneofSrcField (tracked : Bool) (o : TextOneof) : SrcField :=
  ⟨o.name, .name none (oneofInterfaceName o), some (renderTags (oneofTags tracked o.protoName))⟩

/-- The field of a field outside of oneofs in the struct. -/
def plainSrcField (N : TextNames) (tracked : Bool) (f : TextField) : SrcField :=
  ⟨f.name, fieldTypeExpr N f, some (renderTags (fieldTags tracked f.field))⟩

/-- The fields of a struct, in order; a oneof has one at the place of its first member. -/
def srcFields (N : TextNames) (m : TextMessage) : List Nat → List TextField → List SrcField
  | _, [] => []
  | seen, f :: fs =>
    match f.field.label with
    | .oneof i =>
      if i ∈ seen then srcFields N m seen fs
      else (match m.oneofs[i]? with
        | some o => [oneofSrcField m.tracked o]
        | none => []) ++ srcFields N m (i :: seen) fs
    | _ => plainSrcField N m.tracked f :: srcFields N m seen fs

/-- The struct type of a message; without a field that cannot be compared there is one more. -/
def structDecl (N : TextNames) (m : TextMessage) : SrcDecl :=
  .struct m.name (srcFields N m [] m.fields ++
    if m.fields.all TextField.comparable then
      [⟨t!"_", .array t!"0" .func, none⟩] else [])

/-- A number as tokens. -/
def intToks (n : Int) : List Tok := (if n < 0 then [.op '-'] else []) ++ [.word (decimal n.natAbs)]

/-- The getter of a oneof: `if m != nil { return m.O }; return nil`. -/
def oneofGetter (m : TextMessage) (o : TextOneof) : SrcDecl :=
  .method (some t!"m") m.name (t!"Get" ++ o.name) (some (.name none (oneofInterfaceName o)))
    [.word t!"if", .word t!"m", .op '!', .op '=', .word t!"nil", .op '{', .word t!"return", .word t!"m", .op '.', .word o.name, .semi,
     .op '}', .semi, .word t!"return", .word t!"nil", .semi]

/-- The tokens of the default value of a getter. -/
def defaultToks (f : TextField) : List Tok :=
  match f.field.label with
  | .repeated | .map _ => [.word t!"nil"]
  | _ =>
    match f.field.kind with
    | .bool => [.word t!"false"]
    | .string => [.str []]
    | .message _ | .group _ | .bytes => [.word t!"nil"]
    | .enum =>
      match f.enumFirst.pkg, f.enum.pkg with
      | none, _ => [.word f.enumFirst.name]
      | some _, none => .word f.enum.name :: .op '(' :: (intToks f.enumNumber ++ [.op ')'])
      | some _, some p => .word p :: .op '.' :: .word f.enum.name :: .op '(' :: (intToks f.enumNumber ++ [.op ')'])
    | _ => [.word t!"0"]

/-- The getter of a member: `if x, ok := x.GetO().(*M_F); ok { return x.F }; return default`. -/
def memberGetter (N : TextNames) (m : TextMessage) (o : TextOneof) (f : TextField) : SrcDecl :=
  .method (some t!"x") m.name (t!"Get" ++ f.name) (some (goTypeExpr N f))
    ([.word t!"if", .word t!"x", .op ',', .word t!"ok", .op ':', .op '=', .word t!"x", .op '.', .word (t!"Get" ++ o.name), .op '(', .op ')',
      .op '.', .op '(', .op '*', .word f.ident, .op ')', .semi, .word t!"ok", .op '{', .word t!"return", .word t!"x", .op '.',
      .word f.name, .semi, .op '}', .semi, .word t!"return"] ++ defaultToks f ++ [.semi])

/-- The getters of a message: one for each member of a oneof, and one for the oneof before that of its first member. -/
def getterDecls (N : TextNames) (m : TextMessage) : List Nat → List TextField → List SrcDecl
  | _, [] => []
  | seen, f :: fs =>
    match f.field.label with
    | .oneof i =>
      (match m.oneofs[i]? with
        | some o => (if i ∈ seen then [] else [oneofGetter m o]) ++ [memberGetter N m o f]
        | none => []) ++ getterDecls N m (i :: seen) fs
    | _ => getterDecls N m seen fs

/-- The struct that wraps a member of a oneof. -/
def wrapperDecl (N : TextNames) (tracked : Bool) (f : TextField) : SrcDecl :=
  .struct f.ident [⟨f.name, goTypeExpr N f,
    some (renderTags (("protobuf".toList, fieldTagValue f.field) :: if tracked then [("go".toList, "track".toList)] else []))⟩]

/-- The interface of a oneof, the structs of its members, and the methods that make them implement it. -/
def oneofDecls (N : TextNames) (tracked : Bool) (o : TextOneof) : List SrcDecl :=
  .interface (oneofInterfaceName o) [oneofInterfaceName o] :: (o.members.map (wrapperDecl N tracked) ++
    o.members.map fun f => .method none f.ident (oneofInterfaceName o) none [])

/-- The declarations for a message. -/
def messageDecls (N : TextNames) (m : TextMessage) : List SrcDecl :=
  structDecl N m :: (getterDecls N m [] m.fields ++ m.oneofs.flatMap (oneofDecls N m.tracked))

/-- The declarations for an enum. -/
def enumDecls (e : TextEnum) : List SrcDecl :=
  [.alias e.name (.name none t!"int32"), .consts (e.values.map fun v => (v.name, .name none e.name, intToks v.number))]

/-- The declarations of a file. -/
def fileDecls (N : TextNames) (f : TextFile) : List SrcDecl :=
  f.enums.flatMap enumDecls ++ f.messages.flatMap (messageDecls N)

/-! ### conditions: names are identifiers, comments are legal text -/

/-- Text without NUL and byte order marks. -/
def Legal (c : Text) : Prop := ∀ x ∈ c, isIllegal x = false

/-- Text that can be written between double quotes as it is, within back quotes. -/
def PlainTag (s : Text) : Prop := ∀ c ∈ s, isWordChar c = true

structure QNameOK (q : QName) : Prop where
  pkg : ∀ p, q.pkg = some p → IsIdent p
  name : IsIdent q.name

structure TextEnumOK (e : TextEnum) : Prop where
  name : IsIdent e.name
  leading : Legal e.leading
  values : ∀ v ∈ e.values, IsIdent v.name ∧ Legal v.leading ∧ Legal v.trailing

structure TextFieldOK (f : TextField) : Prop where
  name : IsIdent f.name
  ident : IsIdent f.ident
  leading : Legal f.leading
  trailing : Legal f.trailing
  enum : QNameOK f.enum
  enumFirst : QNameOK f.enumFirst

structure TextOneofOK (o : TextOneof) : Prop where
  name : IsIdent o.name
  protoName : PlainTag o.protoName
  ident : IsIdent o.ident
  leading : Legal o.leading
  members : ∀ f ∈ o.members, TextFieldOK f

structure TextMessageOK (m : TextMessage) : Prop where
  name : IsIdent m.name
  leading : Legal m.leading
  fields : ∀ f ∈ m.fields, TextFieldOK f
  oneofs : ∀ o ∈ m.oneofs, TextOneofOK o

structure TextNamesOK (N : TextNames) : Prop where
  protoPkg : IsIdent N.protoPkg
  msg : ∀ t, QNameOK (N.msg t)

structure TextFileOK (f : TextFile) : Prop where
  path : Legal f.path
  line : '\n' ∉ f.path
  pkg : IsIdent f.pkg
  enums : ∀ e ∈ f.enums, TextEnumOK e
  messages : ∀ m ∈ f.messages, TextMessageOK m

/-! ### files without comments -/

def stripEnum (e : TextEnum) : TextEnum :=
  { e with leading := [], deprecated := false, values := e.values.map fun v => { v with leading := [], trailing := [], deprecated := false } }

def stripField (f : TextField) : TextField := { f with leading := [], trailing := [], deprecated := false }

def stripOneof (o : TextOneof) : TextOneof := { o with leading := [], members := o.members.map stripField }

def stripMessage (m : TextMessage) : TextMessage :=
  { m with leading := [], deprecated := false, fields := m.fields.map stripField, oneofs := m.oneofs.map stripOneof }

/-- The file with all comments and deprecation marks removed. -/
def stripFile (f : TextFile) : TextFile :=
  { f with path := [], deprecated := false, enums := f.enums.map stripEnum, messages := f.messages.map stripMessage }

/-! ### what struct types mean -/

/-- What names of types stand for. -/
abbrev Scope := Option Text → Text → Option GoType

/-- The predeclared types. -/
def predeclared (n : Text) : Option GoType :=
  if n = t!"bool" then some .bool
  else if n = t!"int32" then some .int32
  else if n = t!"int64" then some .int64
  else if n = t!"uint32" then some .uint32
  else if n = t!"uint64" then some .uint64
  else if n = t!"float32" then some .float32
  else if n = t!"float64" then some .float64
  else if n = t!"string" then some .string
  else if n = t!"byte" then some .uint8
  else none

/-- The type an expression denotes. Declarations of the package come before predeclared ones. -/
def typeMeans (S : Scope) : TypeExpr → Option GoType
  | .name none n =>
    match S none n with
    | some t => some t
    | none => predeclared n
  | .name (some p) n => S (some p) n
  | .inst .. => none
  | .ptr t => (typeMeans S t).map .ptr
  | .slice t => (typeMeans S t).map .slice
  | .array .. => some .other
  | .map k v =>
    match typeMeans S k, typeMeans S v with
    | some k, some v => some (.map k v)
    | _, _ => none
  | .func => some .other

/-- The type of a struct field; `proto` is the name under which the package of `Option` is imported. -/
def fieldTypeMeans (S : Scope) (proto : Text) : TypeExpr → Option FieldType
  | .inst p n t => if p = proto ∧ n = t!"Option" then (typeMeans S t).map fun t => .opt (optBaseOf t) else none
  | t => (typeMeans S t).map .ty

/-- A field is exported if its name begins with an upper case letter. -/
def isExported (n : Text) : Bool :=
  match n with
  | c :: _ => 'A' ≤ c && c ≤ 'Z'
  | [] => false

/-- A struct field, as the library sees it through reflection. -/
def srcFieldMeans (S : Scope) (proto : Text) (f : SrcField) : Option FieldDecl :=
  (fieldTypeMeans S proto f.ty).map fun t => declOf (isExported f.name) (f.tag.getD []) t

/-- A struct type, as the library sees it. -/
def structMeans (S : Scope) (proto : Text) : List SrcField → Option StructDecl
  | [] => some []
  | f :: fs =>
    match srcFieldMeans S proto f, structMeans S proto fs with
    | some d, some ds => some (d :: ds)
    | _, _ => none

/-- Predeclared names are not declared again. -/
def ScopeOK (S : Scope) : Prop := ∀ n, (predeclared n).isSome → S none n = none

/-- The field has values (or map keys) of the kind. -/
def Mentions (f : TextField) (k : Kind) : Prop := f.field.kind = k ∨ f.field.label = .map k

/-- The names that the struct of a message uses stand for what the .proto file says: messages for their structs, enums for int32, the
interfaces of oneofs for interfaces. Field names are exported. -/
structure MessageScope (S : Scope) (N : TextNames) (m : TextMessage) : Prop where
  msg : ∀ f ∈ m.fields, ∀ t, Mentions f (.message t) ∨ Mentions f (.group t) → S (N.msg t).pkg (N.msg t).name = some (.named t)
  enum : ∀ f ∈ m.fields, Mentions f .enum → S f.enum.pkg f.enum.name = some .int32
  oneof : ∀ o ∈ m.oneofs, S none (oneofInterfaceName o) = some .other
  exported : (∀ f ∈ m.fields, isExported f.name = true) ∧ ∀ o ∈ m.oneofs, isExported o.name = true
  index : ∀ f ∈ m.fields, ∀ i, f.field.label = .oneof i → i < m.oneofs.length

/-- The names of the types a file declares; Go refuses a file that declares a name twice. -/
def declaredTypes : List SrcDecl → List Text
  | [] => []
  | .alias n _ :: ds | .struct n _ :: ds | .interface n _ :: ds => n :: declaredTypes ds
  | _ :: ds => declaredTypes ds

/-- The struct types of a program are those in the generated files: each message has a file with its struct, whose names mean what they
should (the imports differ from file to file). -/
def FromSource (M : TypeId → TextMessage) (D : Decls) : Prop :=
  ∀ t, ∃ N f S ds fs, TextNamesOK N ∧ TextFileOK f ∧ M t ∈ f.messages ∧ ScopeOK S ∧ MessageScope S N (M t) ∧
    parseFile (fileText N f) = some (f.pkg, ds) ∧ (declaredTypes ds).Nodup ∧ .struct (M t).name fs ∈ ds ∧
    structMeans S N.protoPkg fs = some (D t)

/-! ### comparable types -/

/-- Types whose values can be compared with `==` (language specification, Comparison operators): not slices, maps and functions, nor
arrays of them; pointers and interfaces can. `Option[T]` is a struct of a T and a bool (proto/option.go). -/
def typeComparable : TypeExpr → Bool
  | .name .. | .ptr _ => true
  | .inst _ _ t => typeComparable t
  | .slice _ | .map .. | .func => false
  | .array _ t => typeComparable t

/-- A struct is comparable if all its fields are. -/
def structComparable (fs : List SrcField) : Bool := fs.all fun f => typeComparable f.ty

end Pb.Spec
