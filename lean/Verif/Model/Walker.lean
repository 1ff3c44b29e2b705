import Verif.Model.Tag
/-
Type analysis: proto/walker.go, read without its caches (`w.codecs`, `w.infos`, `codecCache`,
`structInfoCache`, `sliceMap`). What the caches change is the subject of `Model/Cache.lean`.
-/
namespace Pb

/-- Go types of struct fields, as `reflect.Kind` and `Elem`/`Key` present them. -/
inductive GoType where
  | bool | int32 | int64 | uint32 | uint64 | float32 | float64 | string | uint8
  /-- any type of a kind the walker has no case for (int, uint, interface, func, chan, array, ...) -/
  | other
  /-- a struct type (by value) -/
  | named (t : TypeId)
  | slice (t : GoType)
  | map (k v : GoType)
  | ptr (t : GoType)
deriving DecidableEq, Repr

/-- Type arguments of `Option[T]` (walker.go:8-17); `other` for any further one. -/
inductive OptBase where
  | bool | int32 | int64 | uint32 | uint64 | float32 | float64 | string | other
deriving DecidableEq, Repr

/-- Type of a struct field. `Option[T]` is a struct type compared by identity (walker.go:169, 182, 196-213), so it
is kept apart from the other types; `*Option[T]` and `[]Option[T]` are not modelled. -/
inductive FieldType where
  | opt (b : OptBase)
  | ty (t : GoType)
deriving DecidableEq, Repr

/-- A field of a Go struct: exported or not, its `protobuf` tag if present, the `protobuf_key` and
`protobuf_val` tags (empty when absent, as `Tag.Get` returns), and its type. -/
structure FieldDecl where
  exported : Bool := true
  tag : Option Text
  keyTag : Text := []
  valTag : Text := []
  ty : FieldType
deriving Repr

/-- A Go struct type. -/
abbrev StructDecl := List FieldDecl
/-- The struct types of a program. -/
abbrev Decls := TypeId → StructDecl

/-- Zero value of a type (what `reflect.New` points to, and `newarray` fills with). By-value structs are opaque:
the walker refuses them in tagged fields and never looks at untagged ones. -/
def zeroOf : GoType → Val
  | .bool => .b8 false
  | .int32 | .uint32 | .float32 => .w32 0#32
  | .int64 | .uint64 | .float64 => .w64 0#64
  | .string => .str []
  | .slice .uint8 => .bytes none
  | .slice _ => .slice true [] []
  | .map _ _ => .map true []
  | .ptr _ => .nilp
  | .uint8 | .other | .named _ => .opaque 0

/-- Zero value of the `value` part of an `Option[T]`. -/
def zeroOpt : OptBase → Val
  | .bool => .b8 false
  | .int32 | .uint32 | .float32 => .w32 0#32
  | .int64 | .uint64 | .float64 => .w64 0#64
  | .string => .str []
  | .other => .opaque 0

/-- Zero value of a struct field. -/
def zeroField : FieldType → Val
  | .opt b => .opt false (zeroOpt b)
  | .ty t => zeroOf t

/-- Zero value of a struct. -/
def zeroStruct (d : StructDecl) : Val := .struct (d.map fun f => zeroField f.ty)

/-- walker.go:24-27 `walkerConfig`. -/
structure Conf where
  zigzag : Bool
  required : Bool

/-- walker.go:127-132 `baseTypeOf`. -/
def baseTypeOf : GoType → GoType
  | .ptr t => baseTypeOf t
  | t => t

/-- The scalar codec walker.go:36-61 and 304-326 choose for a kind (`int32`/`int64` depending on
`conf.zigzag`); both switches agree on it. -/
def kindScalar (zigzag : Bool) : GoType → Option Scalar
  | .bool => some .bool
  | .int32 => some (if zigzag then .zigzag32 else .int32)
  | .int64 => some (if zigzag then .zigzag64 else .int64)
  | .uint32 => some .uint32
  | .uint64 => some .uint64
  | .float32 => some .float32
  | .float64 => some .float64
  | .string => some .string
  | _ => none

/-- walker.go:29-75 `codec`, 299-340 `required` and 284-297 `pointer` in one recursion over the type.
* scalar kinds: 37-61, 305-326
* `[]byte`: 62-67, 327-332
* `Struct`: 68-69 calls `structCodec`, which panics in `t.Elem()` (walker.go:86); 333-334 panics
* `Ptr`: 70-71 and 335-336, `pointer`
* anything else: 74, 339 panic. -/
def wCodec (conf : Conf) : GoType → Except Fault Codec
  | .slice .uint8 => .ok .bytes
  | .slice _ => .error .panic
  | .named _ => .error .panic
  | .ptr (.named t) => .ok (.msg t)
  | .ptr t => do
    let c ← wCodec conf t
    return .ptr (zeroOf t) c
  | t =>
    match kindScalar conf.zigzag t with
    | some s => .ok (if conf.required then .required s else .normal s)
    | none => .error .panic

/-- walker.go:166-193, the first switch: wire types fixed32 and fixed64. The switch on the base kind comes second
and also applies to pointer types. -/
def fixedCodec (wireType : Nat) (ty : FieldType) : Option Codec :=
  if wireType = wtFixed32 then
    match ty with
    | .opt .float32 => some (.option .float32)
    | .opt .uint32 => some (.option .fixed32)
    | .opt _ => none
    | .ty t =>
      match baseTypeOf t with
      | .uint32 => some (.normal .fixed32)
      | .float32 => some (.normal .float32)
      | _ => none
  else if wireType = wtFixed64 then
    match ty with
    | .opt .uint64 => some (.option .fixed64)
    | .opt .float64 => some (.option .float64)
    | .opt _ => none
    | .ty t =>
      match baseTypeOf t with
      | .uint64 => some (.normal .fixed64)
      | .float64 => some (.normal .float64)
      | _ => none
  else none

/-- walker.go:194-215, the second switch: `Option` types. -/
def optionCodec (zigzag : Bool) : OptBase → Option Codec
  | .bool => some (.option .bool)
  | .int32 => some (.option (if zigzag then .zigzag32 else .int32))
  | .int64 => some (.option (if zigzag then .zigzag64 else .int64))
  | .uint32 => some (.option .uint32)
  | .uint64 => some (.option .uint64)
  | .string => some (.option .string)
  | .float32 | .float64 | .other => none

/-- walker.go:166-259 for a field whose type is not an `Option`: which codec it gets.
`keyTag`, `valTag` are the texts of the `protobuf_key` and `protobuf_val` tags. The `map` case includes
map.go:20-28 `mapCodec` and the analysis of the entry struct in map.go:101-106. -/
def tyCodec (t : StructTag) (keyTag valTag : Text) : GoType → Except Fault Codec
  | .map k v => do
    -- the first switch never applies to a map; walker.go:235-254
    let kt := (parseStructTag keyTag).1
    let kc ← wCodec { zigzag := kt.zigzag, required := true } k
    let vt := (parseStructTag valTag).1
    let vc ← wCodec { zigzag := vt.zigzag, required := true } v
    -- map.go:101-106: struct { Key k `protobuf:"..."`; Elem v `protobuf:"..."` }
    let (et, eerr) := parseStructTag (formatWireTag kt.wiretag)
    if eerr then throw .panic
    let kd ← tyCodec et [] [] k
    let (ft, ferr) := parseStructTag (formatWireTag vt.wiretag)
    if ferr then throw .panic
    let vd ← tyCodec ft [] [] v
    return .map
      { wiretag := t.wiretag
        key := { wiretag := kt.wiretag, tagsize := sizeOfVarint kt.wiretag }
        val := { wiretag := vt.wiretag, tagsize := sizeOfVarint vt.wiretag }
        eKey := et.wiretag, eVal := ft.wiretag
        kzero := zeroOf k, vzero := zeroOf v }
      kc vc kd vd
  | ty =>
    match fixedCodec t.wireType (.ty ty) with
    | some c => .ok c
    | none =>
      match baseTypeOf ty with
      | .slice _ =>
        -- walker.go:225-233; `f.Type.Elem()` also when `f.Type` is a pointer to a slice
        match ty with
        | .slice .uint8 => .ok .bytes
        | .slice elem => do
          let c ← wCodec { zigzag := t.zigzag, required := true } elem
          return .slice (zeroOf elem) c
        | .ptr elem => do
          let c ← wCodec { zigzag := t.zigzag, required := true } elem
          return .slice (zeroOf elem) c
        | _ => .error .panic
      | .map _ _ => .error .panic  -- `f.Type.Key()` of a pointer type panics
      | _ => wCodec { zigzag := t.zigzag, required := false } ty  -- walker.go:222-223, 256-257

/-- walker.go:165-259: the codec of a field. -/
def fieldCodec (t : StructTag) (keyTag valTag : Text) : FieldType → Except Fault Codec
  | .opt b =>
    match fixedCodec t.wireType (.opt b) with
    | some c => .ok c
    | none =>
      match optionCodec t.zigzag b with
      | some c => .ok c
      | none => .error .panic  -- kind Struct: walker.go:222-223, 68-69, 86
  | .ty ty => tyCodec t keyTag valTag ty

/-- walker.go:145-262: the loop over the fields of a struct, from field index `i`. -/
def walkFields (i : Nat) : List FieldDecl → Except Fault (List Field)
  | [] => .ok []
  | f :: fs =>
    if f.exported then
      match f.tag with
      | none => walkFields (i + 1) fs
      | some text => do
        let (t, err) := parseStructTag text
        if err then throw .panic
        let c ← fieldCodec t f.keyTag f.valTag f.ty
        let rest ← walkFields (i + 1) fs
        return { offset := i
                 tag := { wiretag := t.wiretag, tagsize := sizeOfVarint t.wiretag }
                 codec := c } :: rest
    else walkFields (i + 1) fs

/-- walker.go:134-276 `structInfo`. -/
def walkStruct (d : StructDecl) : Except Fault TypeInfo := do
  let fields ← walkFields 0 d
  return { fields, zero := zeroStruct d }

end Pb
