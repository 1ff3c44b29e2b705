import Verif.Spec.GoWide
import Verif.Model.Cache
/-
What the functions that analyse types do when they run, statement by statement: Go as `Spec/GoWide` reads it, with the part of `reflect` and
of `sync.Map` they use. Unlike `Spec/GoExec`, which runs functions on messages in one memory, this is about computations that perform
operations on a state shared with other goroutines (`Prog`, in `Model/Cache`): allocations, and accesses to the global maps.

* A struct that one goroutine has for itself (`structField`, `mapField`, `walkerConfig`, `structTag`) and a pointer to it are the same. None
  of them is written to after it was stored in a second place.
* The functions of a codec are set by one operation when `decode` is assigned, the last of the three; `fields` and `fieldIndex` of a type
  info are set by one operation when it is stored in the cache. So does `Model/Cache`.
* A function literal is a value: its function, its number, and the variables. What a codec with given literals is, is `bodyOf`.
* `int` is a natural number. `stuck` stands for programs that do not compile and for what goes beyond this part of Go.
* Maps of one walker (`w.codecs`, `w.infos`) are a `Walk`, of which there is one.
-/
namespace Pb.Go.An
open Pb.Cache (InfoKey Glob CPtr FieldH CBody Prog perform Op upd)

/-- A `reflect.Type`: `Option` types and struct types made by `reflect.StructOf` apart from the others, as in `Model/Walker`. -/
inductive RT where
  | ty (t : GoType)
  | opt (b : OptBase)
  | anon (d : StructDecl)
deriving DecidableEq

/-- Values. -/
inductive V where
  | nil
  | bool (b : Bool)
  | num (n : Nat)
  /-- what `strconv.Atoi` gives -/
  | int (n : Int)
  | str (s : Text)
  | strs (l : List Text)
  /-- `uint64`, `fieldNumber` -/
  | u64 (x : U64)
  /-- `wireType` -/
  | wt (n : Nat)
  | bytes (b : Bytes)
  /-- an error that is not nil -/
  | err
  /-- a `reflect.Kind`, by its name -/
  | kind (k : Text)
  | type (t : RT)
  /-- the aligned size of a type -/
  | size (t : RT)
  /-- a `reflect.StructField`, its tag and its offset -/
  | rfield (d : FieldDecl) (i : Nat)
  | rtag (d : FieldDecl)
  | offset (i : Nat)
  | rfields (ds : StructDecl)
  /-- an element of a composite literal -/
  | kv (k : Text) (v : V)
  /-- `structTag`, `walkerConfig`, `structField` and `mapField` -/
  | stag (t : StructTag)
  | conf (c : Conf)
  | sf (offset : Option Nat) (wiretag : U64) (tagsize : Nat) (codec : Option CPtr)
  | mf (wiretag : U64) (key val : Option (FTag × CPtr))
  /-- a slice of `*structField`; one of nil pointers -/
  | sfs (fs : List FieldH)
  | blank (n : Nat)
  /-- a map without entries -/
  | emptyMap
  /-- a `*codec`; one that is being made, with the functions it has so far -/
  | codec (c : CPtr)
  | fresh (n : Nat) (size encode : Option V)
  /-- a `*structInfo`; one that is being made, with its fields and the entries put into `fieldIndex` -/
  | info (i : Nat)
  | infoNew (i : Nat) (k : InfoKey) (fs : List FieldH) (index : List (U64 × FieldH))
  | walker
  /-- a function literal -/
  | clo (f : Text) (vars : List (List (Text × V)))
  /-- a global variable or package without a value of its own -/
  | global (n : Text)
  /-- a value nothing depends on -/
  | other

/-- The variables, by blocks. -/
abbrev Vars := List (List (Text × V))

/-- A computation with a walker. -/
abbrev M (α : Type) := Cache.Walk → Prog (α × Cache.Walk)

def M.ret {α : Type} (a : α) : M α := fun w => .ret (a, w)
def M.bind {α β : Type} (x : M α) (f : α → M β) : M β := fun w => (x w).bind fun r => f r.1 r.2
def M.panic {α : Type} : M α := fun _ => .panic
def M.stuck {α : Type} : M α := fun _ => .stuck
/-- One operation. -/
def M.op (o : Op) : M o.Resp := fun w => .op o fun r => .ret (r, w)
/-- A value that may be missing. -/
def M.of {α : Type} : Option α → M α
  | some a => .ret a
  | none => .stuck

/-- Functions that are called, with their arguments (the receiver first) and results. -/
abbrev Calls := Text → List V → M (List V)

/-- How a statement ends. -/
inductive Flow where
  | next
  | cont
  | ret (vs : List V)

/-- What running a statement depends on: how calls are executed, and loops, given their condition, body and the statement after the body, and
loops over values, given their body; what a codec with three function literals is; `strconv.Atoi`. These are `iterate`, `rangeOver`, `bodyOf`
and `Pb.atoi`. -/
structure Ctx where
  call : Calls
  loop : (Vars → M Bool) → (Vars → M (Flow × Vars)) → (Vars → M (Flow × Vars)) → Vars → M (Flow × Vars)
  range : (Nat → V → Vars → M (Flow × Vars)) → Nat → List V → Vars → M (Flow × Vars)
  body : V → V → V → Option CBody
  atoi : Text → Option Int

/-! ### variables -/

def findIn (n : Text) : List (Text × V) → Option V
  | [] => none
  | p :: r => if p.1 = n then some p.2 else findIn n r

def find (n : Text) : Vars → Option V
  | [] => none
  | b :: r =>
    match findIn n b with
    | some v => some v
    | none => find n r

def putIn (n : Text) (v : V) : List (Text × V) → List (Text × V)
  | [] => []
  | p :: r => if p.1 = n then (p.1, v) :: r else p :: putIn n v r

/-- `n = v` -/
def put (n : Text) (v : V) : Vars → Vars
  | [] => []
  | b :: r =>
    match findIn n b with
    | some _ => putIn n v b :: r
    | none => b :: put n v r

/-- `n := v` -/
def declare (n : Text) (v : V) : Vars → Vars
  | [] => []
  | b :: r =>
    match findIn n b with
    | some _ => putIn n v b :: r
    | none => ((n, v) :: b) :: r

/-! ### reflect -/

/-- `Kind`, by its name; `Int` stands for all kinds that do not occur in the library. -/
def kindOf : RT → Text
  | .ty .bool => t!"Bool" | .ty .int32 => t!"Int32" | .ty .int64 => t!"Int64" | .ty .uint32 => t!"Uint32" | .ty .uint64 => t!"Uint64"
  | .ty .float32 => t!"Float32" | .ty .float64 => t!"Float64" | .ty .string => t!"String" | .ty .uint8 => t!"Uint8" | .ty .other => t!"Int"
  | .ty (.named _) => t!"Struct" | .ty (.slice _) => t!"Slice" | .ty (.map _ _) => t!"Map" | .ty (.ptr _) => t!"Ptr"
  | .opt _ => t!"Struct" | .anon _ => t!"Struct"

/-- `Elem`, which panics for types without elements. -/
def elemOf : RT → M RT
  | .ty (.slice t) | .ty (.map _ t) | .ty (.ptr t) => .ret (.ty t)
  | _ => .panic

/-- `Key` -/
def keyOf : RT → M RT
  | .ty (.map k _) => .ret (.ty k)
  | _ => .panic

/-- The fields of a struct type. -/
def structDecl (D : Decls) : RT → M StructDecl
  | .ty (.named t) => .ret (D t)
  | .anon d => .ret d
  | _ => .panic

/-- The struct type as a key of `structInfoCache`. -/
def infoKey : RT → Option InfoKey
  | .ty (.named t) => some (.named t)
  | .anon d => some (.anon d)
  | _ => none

/-- The type as a struct field has it. -/
def RT.ofField : FieldType → RT
  | .opt b => .opt b
  | .ty t => .ty t

def fieldTypeOf : RT → Option FieldType
  | .ty t => some (.ty t)
  | .opt b => some (.opt b)
  | .anon _ => none

/-! ### values -/

/-- The address of a codec. -/
def codecPtr : V → Option CPtr
  | .codec c => some c
  | .fresh n _ _ => some (.heap n)
  | _ => none

/-- The address of a type info. -/
def infoPtr : V → Option Nat
  | .info i => some i
  | .infoNew i _ _ _ => some i
  | _ => none

/-- What a caller gets: objects that were being made are done. -/
def V.done : V → V
  | .fresh n _ _ => .codec (.heap n)
  | .infoNew i _ _ _ => .info i
  | v => v

def ofCodec : Option CPtr → V
  | some c => .codec c
  | none => .nil

/-- struct.go:23-25 `fieldNumber` -/
def fieldNo (wiretag : U64) : U64 := wiretag >>> 3

/-- The entries of `fieldIndex` for these fields, in order. -/
def indexFor (fs : List FieldH) : List (U64 × FieldH) := fs.map fun f => (fieldNo f.tag.wiretag, f)

deriving instance DecidableEq for FieldH

/-- The name of a global codec (normal_codec.go, required_codec.go, option_codec.go). -/
def scalars : List (Text × Scalar) :=
  [(t!"bool", .bool), (t!"string", .string), (t!"float32", .float32), (t!"float64", .float64), (t!"int32", .int32), (t!"int64", .int64),
   (t!"uint32", .uint32), (t!"fixed32", .fixed32), (t!"uint64", .uint64), (t!"fixed64", .fixed64), (t!"zigzag32", .zigzag32),
   (t!"zigzag64", .zigzag64)]

def globals : List (Text × V) :=
  [(t!"nil", .nil), (t!"true", .bool true), (t!"false", .bool false), (t!"varint", .wt wtVarint), (t!"varlen", .wt wtVarlen),
   (t!"fixed32", .wt wtFixed32), (t!"fixed64", .wt wtFixed64),
   -- walker.go:8-17
   (t!"optionBoolType", .type (.opt .bool)), (t!"optionInt32Type", .type (.opt .int32)), (t!"optionInt64Type", .type (.opt .int64)),
   (t!"optionUInt32Type", .type (.opt .uint32)), (t!"optionUInt64Type", .type (.opt .uint64)),
   (t!"optionFloat32Type", .type (.opt .float32)), (t!"optionFloat64Type", .type (.opt .float64)),
   (t!"optionStringType", .type (.opt .string)), (t!"bytesCodec", .codec (.glob .bytes))]
  ++ scalars.map (fun s => (s.1 ++ t!"Codec", .codec (.glob (.normal s.2))))
  ++ scalars.map (fun s => (s.1 ++ t!"RequiredCodec", .codec (.glob (.required s.2))))
  ++ scalars.map (fun s => (s.1 ++ t!"OptionCodec", .codec (.glob (.option s.2))))

/-- The value of a name that is not a variable of the function. -/
def globalV (n : Text) : V :=
  match findIn n globals with
  | some v => v
  | none => .global n

/-- `a == b` -/
def eqV : V → V → Option Bool
  | .num a, .num b => some (a = b)
  | .str a, .str b => some (a = b)
  | .wt a, .wt b => some (a = b)
  | .kind a, .kind b => some (a = b)
  | .type a, .type b => some (a = b)
  | .nil, .nil => some true
  | .err, .nil => some false
  | .codec _, .nil => some false
  | _, _ => none

def binV : BinOp → V → V → Option V
  | .eq, a, b => (eqV a b).map .bool
  | .ne, a, b => (eqV a b).map fun r => .bool !r
  | .lt, .num a, .num b => some (.bool (a < b))
  | .add, .str a, .str b => some (.str (a ++ b))
  | .add, .num a, .num b => some (.num (a + b))
  | .shl, .u64 a, .num b => some (.u64 (a <<< b))
  | .or, .u64 a, .u64 b => some (.u64 (a ||| b))
  | _, _, _ => none

/-- `v.n` -/
def selV : V → Text → Option V
  | .rfield d i, n =>
    if n = t!"PkgPath" then some (.str (if d.exported then [] else t!"p"))
    else if n = t!"Tag" then some (.rtag d)
    else if n = t!"Offset" then some (.offset i)
    else if n = t!"Type" then some (.type (.ofField d.ty))
    else none
  | .stag t, n =>
    if n = t!"wireType" then some (.wt t.wireType)
    else if n = t!"fieldNumber" then some (.u64 t.fieldNumber)
    else if n = t!"zigzag" then some (.bool t.zigzag)
    else if n = t!"repeated" then some (.bool t.repeated)
    else none
  | .conf c, n =>
    if n = t!"zigzag" then some (.bool c.zigzag)
    else if n = t!"required" then some (.bool c.required)
    else none
  | .sf _ wiretag tagsize c, n =>
    if n = t!"wiretag" then some (.u64 wiretag)
    else if n = t!"tagsize" then some (.num tagsize)
    else if n = t!"codec" then some (ofCodec c)
    else none
  | .mf wiretag k v, n =>
    if n = t!"wiretag" then some (.u64 wiretag)
    else if n = t!"keyField" then k.map fun p => .sf none p.1.wiretag p.1.tagsize (some p.2)
    else if n = t!"valField" then v.map fun p => .sf none p.1.wiretag p.1.tagsize (some p.2)
    else none
  | .infoNew _ _ fs _, n => if n = t!"fields" then some (.sfs fs) else none
  | .codec c, n => if n = t!"(*codec)" then some (.codec c) else none
  | .global p, n => if p = t!"reflect" then some (.kind n) else none
  | _, _ => none

/-- `v.n = x`, for structs the goroutine has for itself, and objects that are being made. -/
def setField : V → Text → V → Option V
  | .stag t, n, .wt x => if n = t!"wireType" then some (.stag { t with wireType := x }) else none
  | .stag t, n, .u64 x => if n = t!"fieldNumber" then some (.stag { t with fieldNumber := x }) else none
  | .stag t, n, .bool x =>
    if n = t!"zigzag" then some (.stag { t with zigzag := x })
    else if n = t!"repeated" then some (.stag { t with repeated := x })
    else none
  | .conf c, n, .bool x =>
    if n = t!"zigzag" then some (.conf { c with zigzag := x })
    else if n = t!"required" then some (.conf { c with required := x })
    else none
  | .sf o w s c, n, .offset i => if n = t!"offset" ∧ o = none then some (.sf (some i) w s c) else none
  | .sf o _ s c, n, .u64 x => if n = t!"wiretag" then some (.sf o x s c) else none
  | .sf o w _ c, n, .num x => if n = t!"tagsize" then some (.sf o w x c) else none
  | .sf o w s _, n, .codec c => if n = t!"codec" then some (.sf o w s (some c)) else none
  | .mf _ k v, n, .u64 x => if n = t!"wiretag" then some (.mf x k v) else none
  | .mf w k v, n, .sf _ w' s (some c) =>
    if n = t!"keyField" then some (.mf w (some (⟨w', s⟩, c)) v)
    else if n = t!"valField" then some (.mf w k (some (⟨w', s⟩, c)))
    else none
  | .fresh i s e, n, .clo f vs =>
    if n = t!"size" then some (.fresh i (some (.clo f vs)) e)
    else if n = t!"encode" then some (.fresh i s (some (.clo f vs)))
    else none
  | .infoNew i k _ l, n, .sfs fs => if n = t!"fields" then some (.infoNew i k fs l) else none
  | .infoNew i k fs _, n, .emptyMap => if n = t!"fieldIndex" then some (.infoNew i k fs []) else none
  | .walker, n, .emptyMap => if n = t!"codecs" ∨ n = t!"infos" then some .walker else none
  | _, _, _ => none

/-- The struct before its elements are set. -/
def zeroOfType (n : Text) : Option V :=
  if n = t!"structTag" then some (.stag {})
  else if n = t!"walkerConfig" then some (.conf { zigzag := false, required := false })
  else if n = t!"structField" then some (.sf none 0#64 0 none)
  else if n = t!"mapField" then some (.mf 0#64 none none)
  else if n = t!"walker" then some .walker
  else none

def setFields : V → List V → Option V
  | v, [] => some v
  | v, .kv k x :: r =>
    match setField v k x with
    | some v => setFields v r
    | none => none
  | _, _ => none

/-- `T{...}` and `&T{...}` -/
def litV (n : Text) (kvs : List V) : Option V :=
  if n = t!"StructField" then
    match kvs with
    | [.kv k1 (.str name), .kv k2 (.type t), .kv k3 (.str tag)] =>
      if k1 = t!"Name" ∧ k2 = t!"Type" ∧ k3 = t!"Tag" then
        (fieldTypeOf t).map fun ty => .rfield { exported := (name.headD 'a').isUpper, tag := some tag, ty } 0
      else none
    | _ => none
  else
    match zeroOfType n with
    | some v => setFields v kvs
    | none => none

/-! ### function literals -/

/-- The codec a literal has as variable `n`. -/
def capturedCodec (vs : Vars) (n : Text) : Option CPtr :=
  match find n vs with
  | some (.codec c) => some c
  | _ => none

def capturedType (vs : Vars) (n : Text) : Option GoType :=
  match find n vs with
  | some (.type (.ty t)) => some t
  | _ => none

/-- The size of elements a literal has. -/
def capturedSize (vs : Vars) : Option RT :=
  match find t!"elemSize" vs with
  | some (.size t) => some t
  | _ => none

/-- The part of a `mapField` and of its tags a literal for a map uses. -/
def capturedField (vs : Vars) (n : Text) : Option (U64 × (FTag × CPtr) × (FTag × CPtr)) :=
  match find n vs with
  | some (.mf w (some k) (some v)) => some (w, k, v)
  | _ => none

/-- What a codec with these functions is: which literals they are, and the values of the variables they use.
* walker.go:88-118 in `structCodec`: `info`, and `elem` for new messages
* walker.go:342-371: `c`, and the element type `t` for new values
* slice.go:31-75: `c`, the aligned size of the elements, and `elemType`
* map.go:30-94, 100-144: the tags and codecs of key and value, and the type info of the entry struct. -/
def bodyOf : V → V → V → Option CBody
  | .clo f vs, .clo g us, .clo h ts =>
    if f = t!"structCodec#" ∧ g = t!"structCodec##" ∧ h = t!"structCodec###" then
      match find t!"info" vs, find t!"info" us, find t!"info" ts, capturedType ts t!"elem" with
      | some (.info i), some (.info j), some (.info k), some (.named t) => if i = j ∧ j = k then some (.msg t i) else none
      | _, _, _, _ => none
    else if f = t!"pointerSizeFuncOf#" ∧ g = t!"pointerEncodeFuncOf#" ∧ h = t!"pointerDecodeFuncOf#" then
      match capturedCodec vs t!"c", capturedCodec us t!"c", capturedCodec ts t!"c", capturedType ts t!"t" with
      | some c, some c', some c'', some t => if c = c' ∧ c' = c'' then some (.ptr (zeroOf t) c) else none
      | _, _, _, _ => none
    else if f = t!"sliceSizeFuncOf#" ∧ g = t!"sliceEncodeFuncOf#" ∧ h = t!"sliceDecodeFuncOf#" then
      match capturedCodec vs t!"c", capturedCodec us t!"c", capturedCodec ts t!"c", capturedType ts t!"elemType" with
      | some c, some c', some c'', some t =>
        if c = c' ∧ c' = c'' ∧ capturedSize vs = some (.ty t) ∧ capturedSize us = some (.ty t) ∧ capturedSize ts = some (.ty t) then
          some (.slice (zeroOf t) c)
        else none
      | _, _, _, _ => none
    else if f = t!"mapSizeFuncOf#" ∧ g = t!"mapEncodeFuncOf#" ∧ h = t!"mapDecodeFuncOf#" then
      match capturedField vs t!"f", capturedField us t!"f", capturedType vs t!"t", capturedType us t!"t", capturedType ts t!"t" with
      | some (w, k, v), some (w', k', v'), some (.map a b), some t, some t' =>
        if w = w' ∧ k = k' ∧ v = v' ∧ t = .map a b ∧ t' = .map a b ∧ capturedCodec vs t!"keyCodec" = some k.2 ∧
            capturedCodec us t!"keyCodec" = some k.2 ∧ capturedCodec vs t!"valCodec" = some v.2 ∧ capturedCodec us t!"valCodec" = some v.2 then
          match find t!"mapTagSize" vs, find t!"mapTag" us, find t!"zero" us, find t!"info" ts, find t!"valueType" ts with
          | some (.num n), some (.bytes x), some (.bytes z), some (.info i), some (.type vt) =>
            if n = sizeOfVarint w ∧ x = appendVarint [] w ∧ z = appendVarint [] w ++ [0#8] ∧ vt = .ty b then
              some (.map { wiretag := w, key := k.1, val := v.1, eKey := 0#64, eVal := 0#64, kzero := zeroOf a, vzero := zeroOf b } k.2 v.2 i)
            else none
          | _, _, _, _, _ => none
        else none
      | _, _, _, _, _ => none
    else none
  | _, _, _ => none

/-! ### calls -/

/-- The field of `FieldH` a finished `structField` is. -/
def fieldH : V → Option FieldH
  | .sf (some o) w s (some c) => some { offset := o, tag := ⟨w, s⟩, codec := c }
  | _ => none

/-- Calls of functions that are neither methods nor declared in the texts. -/
def builtin (n : Text) (args : List V) : Option (M (List V)) :=
  if n = t!"panic" then some .panic
  else if n = t!"pointer" then some (.ret args)
  else if n = t!"(,)" then some (.ret args)
  else if n = t!"uint64" ∨ n = t!"fieldNumber" then
    match args with
    | [.u64 x] => some (.ret [.u64 x])
    | [.wt x] => some (.ret [.u64 (BitVec.ofNat 64 x)])
    | [.int x] => some (.ret [.u64 (BitVec.ofInt 64 x)])
    | _ => some .stuck
  else if n = t!"sizeOfVarint" then
    match args with
    | [.u64 x] => some (.ret [.num (sizeOfVarint x)])
    | _ => some .stuck
  else if n = t!"appendVarint" then
    match args with
    | [.nil, .u64 x] => some (.ret [.bytes (appendVarint [] x)])
    | _ => some .stuck
  else if n = t!"alignedSize" then
    match args with
    | [.type t] => some (.ret [.size t])
    | _ => some .stuck
  else if n = t!"formatWireTag" then
    match args with
    | [.u64 x] => some (.ret [.str (formatWireTag x)])
    | _ => some .stuck
  else if n = t!"StructField[]" then
    match args with
    | [.rfield a _, .rfield b _] => some (.ret [.rfields [a, b]])
    | _ => some .stuck
  else if n = t!"len" then
    match args with
    | [.sfs fs] => some (.ret [.num fs.length])
    | _ => some .stuck
  else if n = t!"append" then
    match args with
    | [.sfs fs, v] => some (.of ((fieldH v).map fun f => [.sfs (fs ++ [f])]))
    | [.bytes b, .num 0] => some (.ret [.bytes (b ++ [0#8])])
    | _ => some .stuck
  else none

/-- `new(T)`; the type info remembers its type, for `Model/Cache`. -/
def newV (vars : Vars) : Expr → M (List V)
  | .ident n =>
    if n = t!"codec" then (M.op .newCodec).bind fun c => .ret [.fresh c none none]
    else if n = t!"structInfo" then
      match find t!"t" vars with
      | some (.type t) =>
        match infoKey t with
        | some k => (M.op (.newInfo k)).bind fun i => .ret [.infoNew i k [] []]
        | none => .panic  -- `NumField` of something that is not a struct
      | _ => .stuck
    else .stuck
  | .sel (.ident p) n => if p = t!"sync" ∧ n = t!"Pool" then .ret [.other] else .stuck
  | _ => .stuck

/-- `make(T, args)` -/
def makeV : Expr → List V → M (List V)
  | .un .sliceOf _, [.num 0, .num _] => .ret [.sfs []]
  | .un .sliceOf _, [.num n] => .ret [.blank n]
  | .bin .mul (.index (.ident m) _) _, _ => if m = t!"map[]" then .ret [.emptyMap] else .stuck
  | _, _ => .stuck

/-- Calls of methods and of functions of other packages. -/
def method (C : Ctx) (D : Decls) : V → Text → List V → M (List V)
  | .walker, n, args => C.call n (.walker :: args)
  | .type t, n, args =>
    if n = t!"Kind" then .ret [.kind (kindOf t)]
    else if n = t!"Elem" then (elemOf t).bind fun t => .ret [.type t]
    else if n = t!"Key" then (keyOf t).bind fun t => .ret [.type t]
    else if n = t!"String" then .ret [.str []]
    else if n = t!"NumField" then (structDecl D t).bind fun d => .ret [.num d.length]
    else if n = t!"Field" then
      match args with
      | [.num i] => (structDecl D t).bind fun d =>
        match d[i]? with
        | some f => .ret [.rfield f i]
        | none => .panic
      | _ => .stuck
    else .stuck
  | .rtag d, n, [.str k] =>
    if n = t!"Lookup" ∧ k = t!"protobuf" then
      match d.tag with
      | some s => .ret [.str s, .bool true]
      | none => .ret [.str [], .bool false]
    else if n = t!"Get" ∧ k = t!"protobuf_key" then .ret [.str d.keyTag]
    else if n = t!"Get" ∧ k = t!"protobuf_val" then .ret [.str d.valTag]
    else .stuck
  | .sf _ w _ _, n, [] => if n = t!"fieldNumber" then .ret [.u64 (fieldNo w)] else .stuck
  | .other, _, _ => .ret [.other]
  | .global p, n, args =>
    if p = t!"structInfoCache" then
      match args with
      | [.type t] =>
        if n = t!"Load" then
          match infoKey t with
          | some k => (M.op (.infoLoad k)).bind fun r =>
            match r with
            | some i => .ret [.info i, .bool true]
            | none => .ret [.nil, .bool false]
          | none => .ret [.nil, .bool false]  -- only struct types are stored
        else .stuck
      | [.type t, v] =>
        match infoKey t, v with
        | some k, .infoNew i _ fs l =>
          if n = t!"Store" ∧ l = indexFor fs then
            (M.op (.setInfo i fs)).bind fun _ => (M.op (.infoStore k i)).bind fun _ => .ret []
          else .stuck
        | some k, .info i =>
          if n = t!"LoadOrStore" then (M.op (.infoLoadOrStore k i)).bind fun j => .ret [.info j, .other] else .stuck
        | _, _ => .stuck
      | _ => .stuck
    else if p = t!"codecCache" then
      match args with
      | [.type t] =>
        if n = t!"Load" then
          match t with
          | .ty (.ptr (.named t)) => (M.op (.codecLoad t)).bind fun r =>
            match r with
            | some c => .ret [.codec c, .bool true]
            | none => .ret [.nil, .bool false]
          | _ => .ret [.nil, .bool false]  -- only pointers to structs are stored: below, and walker.go:86
        else .stuck
      | [.type t, v] =>
        match t, codecPtr v with
        | .ty (.ptr (.named t)), some c =>
          if n = t!"LoadOrStore" then (M.op (.codecLoadOrStore t c)).bind fun c => .ret [.codec c, .other] else .stuck
        | _, _ => .stuck
      | _ => .stuck
    else if p = t!"sliceMap" then
      match args with
      | [.codec c] =>
        if n = t!"Load" then (M.op (.sliceLoad c)).bind fun r =>
          match r with
          | some s => .ret [.codec s, .bool true]
          | none => .ret [.nil, .bool false]
        else .stuck
      | [.codec c, v] =>
        match codecPtr v with
        | some s =>
          if n = t!"LoadOrStore" then (M.op (.sliceLoadOrStore c s)).bind fun c => .ret [.codec c, .other] else .stuck
        | none => .stuck
      | _ => .stuck
    else if p = t!"reflect" then
      match args with
      | [.rfields ds] => if n = t!"StructOf" then .ret [.type (.anon ds)] else .stuck
      | _ => if n = t!"Zero" then .ret [.other] else .stuck
    else if p = t!"strings" then
      match args with
      | [.str s, .str c] => if n = t!"Split" ∧ c = t!"," then .ret [.strs (splitFields s)] else .stuck
      | _ => .stuck
    else if p = t!"strconv" then
      match args with
      | [.str s] =>
        if n = t!"Atoi" then
          match C.atoi s with
          | some x => .ret [.int x, .nil]
          | none => .ret [.int 0, .err]
        else .stuck
      | _ => .stuck
    else if p = t!"fmt" ∧ n = t!"Errorf" then .ret [.err]
    else .stuck
  | _, _, _ => .stuck

/-- `w.codecs[t]`; types that are no keys of `Walk` have no entries, see `setCodecs`. -/
def codecsAt (t : RT) : M (Option CPtr) := fun w =>
  match t with
  | .ty t => .ret (w.codecs t, w)
  | _ => .ret (none, w)

/-- `w.codecs[t] = c`. This is done for an `Option` type before a panic only (walker.go:85-86). -/
def setCodecs (t : RT) (c : CPtr) : M Unit := fun w =>
  match t with
  | .ty t => .ret ((), w.setCodec t c)
  | _ => .ret ((), w)

/-- `w.infos[t]` -/
def infosAt (t : RT) : M (Option Nat) := fun w =>
  match infoKey t with
  | some k => .ret (w.infos k, w)
  | none => .ret (none, w)

/-- `w.infos[t] = i` -/
def setInfos (t : RT) (i : Nat) : M Unit := fun w =>
  match infoKey t with
  | some k => .ret ((), { w with infos := upd w.infos k (some i) })
  | none => .stuck

/-- An entry of a map of the walker: its value, or nil, and whether it is there. -/
def entryOf (m : Text) (t : V) : M (List V) :=
  match t with
  | .type t =>
    if m = t!"codecs" then (codecsAt t).bind fun r =>
      match r with
      | some c => .ret [.codec c, .bool true]
      | none => .ret [.nil, .bool false]
    else if m = t!"infos" then (infosAt t).bind fun r =>
      match r with
      | some i => .ret [.info i, .bool true]
      | none => .ret [.nil, .bool false]
    else .stuck
  | _ => .stuck

def oneOf : List V → M V
  | [v] => .ret v
  | _ => .stuck

/-- What a word with marks for a function literal is in a function: the literal with this number. -/
def literal? (me n : Text) (vars : Vars) : Option V :=
  if n = t!"func#" then some (.clo (me ++ t!"#") vars)
  else if n = t!"func##" then some (.clo (me ++ t!"##") vars)
  else if n = t!"func###" then some (.clo (me ++ t!"###") vars)
  else none

/-- The value of a name. -/
def nameV (me n : Text) (vars : Vars) : V :=
  match literal? me n vars with
  | some v => v
  | none =>
    match find n vars with
    | some v => v
    | none => globalV n

/-- The values of an expression; `me` is the function it stands in. -/
def eval (C : Ctx) (D : Decls) (me : Text) (vars : Vars) : Expr → M (List V)
  | .none => .ret []
  | .arg e r => (eval C D me vars e).bind fun vs => (eval C D me vars r).bind fun us => .ret (vs ++ us)
  | .ident n => .ret [nameV me n vars]
  | .num n => .ret [.num n]
  | .str s => .ret [.str s]
  | .un .addr e => eval C D me vars e
  | .un .not e => (eval C D me vars e).bind fun vs =>
    match vs with
    | [.bool b] => .ret [.bool !b]
    | _ => .stuck
  | .bin o a b => (eval C D me vars a).bind fun vs => (eval C D me vars b).bind fun us =>
    match vs, us with
    | [v], [u] => (M.of (binV o v u)).bind fun r => .ret [r]
    | _, _ => .stuck
  | .sel e n => (eval C D me vars e).bind fun vs => (oneOf vs).bind fun v => (M.of (selV v n)).bind fun r => .ret [r]
  | .lit (.ident n) es => (eval C D me vars es).bind fun kvs => (M.of (litV n kvs)).bind fun v =>
    -- the maps of a new walker are empty
    if n = t!"walker" then fun _ => .ret ([v], Cache.Walk.init) else .ret [v]
  | .kv (.ident k) e => (eval C D me vars e).bind fun vs => (oneOf vs).bind fun v => .ret [.kv k v]
  | .index (.sel _ m) t => (eval C D me vars t).bind fun vs => (oneOf vs).bind fun t => (entryOf m t).bind fun r => .ret (r.take 1)
  | .call (.ident f) args =>
    if f = t!"new" then
      match args with
      | .arg t .none => newV vars t
      | _ => .stuck
    else if f = t!"make" then
      match args with
      | .arg t r => (eval C D me vars r).bind fun vs => makeV t vs
      | _ => .stuck
    else (eval C D me vars args).bind fun vs =>
      match builtin f vs with
      | some r => r
      | none => C.call f vs
  | .call (.sel e m) args => (eval C D me vars e).bind fun vs => (oneOf vs).bind fun v => (eval C D me vars args).bind fun us =>
    method C D v m us
  | _ => .stuck

/-- The values of an expression that gives `k` values: an entry of a map, and whether it is there. -/
def evalFor (C : Ctx) (D : Decls) (me : Text) (vars : Vars) (k : Nat) : Expr → M (List V)
  | .index (.sel e m) t =>
    if k = 2 then (eval C D me vars t).bind fun vs => (oneOf vs).bind fun t => entryOf m t
    else eval C D me vars (.index (.sel e m) t)
  | e => eval C D me vars e

/-- The number of expressions in a list. -/
def countOf : Expr → Nat
  | .arg _ r => countOf r + 1
  | _ => 0

/-! ### statements -/

/-- `l := vs` -/
def defineAll : Expr → List V → Vars → Option Vars
  | .none, [], vars => some vars
  | .arg (.ident n) r, v :: vs, vars => defineAll r vs (if n = t!"_" then vars else declare n v vars)
  | _, _, _ => none

/-- `l = v` for one `l`. -/
def assignOne (C : Ctx) (D : Decls) (me : Text) (l : Expr) (v : V) (vars : Vars) : M Vars :=
  match l with
  | .ident n => .ret (if n = t!"_" then vars else put n v vars)
  | .sel (.ident x) n =>
    match find x vars with
    | some (.fresh i s e) =>
      if n = t!"decode" then
        match s, e with
        | some s, some e => (M.of (C.body s e v)).bind fun b => (M.op (.setCodec i b)).bind fun _ => .ret vars
        | _, _ => .stuck
      else (M.of (setField (.fresh i s e) n v)).bind fun y => .ret (put x y vars)
    | some y => (M.of (setField y n v)).bind fun y => .ret (put x y vars)
    | none => .stuck
  | .index (.sel (.ident x) m) k =>
    (eval C D me vars k).bind fun ks => (oneOf ks).bind fun k =>
      match find x vars, k with
      | some .walker, .type t =>
        if m = t!"codecs" then (M.of (codecPtr v)).bind fun c => (setCodecs t c).bind fun _ => .ret vars
        else if m = t!"infos" then (M.of (infoPtr v)).bind fun i => (setInfos t i).bind fun _ => .ret vars
        else .stuck
      | some (.infoNew i key fs idx), .u64 n =>
        if m = t!"fieldIndex" then (M.of (fieldH v)).bind fun f => .ret (put x (.infoNew i key fs (idx ++ [(n, f)])) vars)
        else .stuck
      | _, _ => .stuck
  | _ => .stuck

def assignAll (C : Ctx) (D : Decls) (me : Text) : Expr → List V → Vars → M Vars
  | .none, [], vars => .ret vars
  | .arg l r, v :: vs, vars => (assignOne C D me l v vars).bind fun vars => assignAll C D me r vs vars
  | _, _, _ => .stuck

/-- `copy(dst, src)` -/
def copyTo (vars : Vars) : Expr → Option Vars
  | .arg (.ident d) (.arg (.ident s) .none) =>
    match find d vars, find s vars with
    | some (.blank n), some (.sfs fs) => if n = fs.length then some (put d (.sfs fs) vars) else none
    | _, _ => none
  | _ => none

/-- Statements in a block of their own. -/
def inBlock (body : Vars → M (Flow × Vars)) (vars : Vars) : M (Flow × Vars) :=
  (body ([] :: vars)).bind fun r => .ret (r.1, r.2.tail)

def truth : List V → M Bool
  | [.bool b] => .ret b
  | _ => .stuck

/-- A loop, of at most `n` iterations. -/
def iterate (c : Vars → M Bool) (body post : Vars → M (Flow × Vars)) : Nat → Vars → M (Flow × Vars)
  | 0, _ => .stuck
  | n + 1, vars => (c vars).bind fun b =>
    if b then
      (body vars).bind fun r =>
        match r.1 with
        | .ret vs => .ret (.ret vs, r.2)
        | _ => (post r.2).bind fun r => iterate c body post n r.2
    else .ret (.next, vars)

/-- A loop over values. -/
def rangeOver (body : Nat → V → Vars → M (Flow × Vars)) : Nat → List V → Vars → M (Flow × Vars)
  | _, [], vars => .ret (.next, vars)
  | i, v :: vs, vars => (body i v vars).bind fun r =>
    match r.1 with
    | .ret us => .ret (.ret us, r.2)
    | _ => rangeOver body (i + 1) vs r.2

/-- What a range clause goes over. -/
def elements : List V → Option (List V)
  | [.strs l] => some (l.map .str)
  | [.sfs fs] => some (fs.map fun f => .sf (some f.offset) f.tag.wiretag f.tag.tagsize (some f.codec))
  | _ => none

def declareUnless (n : Text) (v : V) (vars : Vars) : Vars := if n = t!"_" then vars else declare n v vars

def anyEq (v : V) : List V → Option Bool
  | [] => some false
  | u :: us =>
    match eqV v u, anyEq v us with
    | some a, some b => some (a || b)
    | _, _ => none

mutual
/-- Runs a statement. -/
def exec (C : Ctx) (D : Decls) (me : Text) : Stmt → Vars → M (Flow × Vars)
  | .skip, vars => .ret (.next, vars)
  | .seq a b, vars => (exec C D me a vars).bind fun r =>
    match r.1 with
    | .next => exec C D me b r.2
    | _ => .ret r
  | .define l e, vars => (evalFor C D me vars (countOf l) e).bind fun vs => (M.of (defineAll l vs vars)).bind fun vars => .ret (.next, vars)
  | .assign l e, vars => (eval C D me vars e).bind fun vs => (assignAll C D me l vs vars).bind fun vars => .ret (.next, vars)
  | .opAssign o (.ident x) e, vars => (eval C D me vars (.bin o (.ident x) e)).bind fun vs => (oneOf vs).bind fun v =>
    .ret (.next, put x v vars)
  | .ret es, vars => (eval C D me vars es).bind fun vs => .ret (.ret (vs.map V.done), vars)
  | .ite i c t e, vars => inBlock (fun vars => (exec C D me i vars).bind fun r => (eval C D me r.2 c).bind fun vs => (truth vs).bind fun b =>
      if b then inBlock (exec C D me t) r.2 else inBlock (exec C D me e) r.2) vars
  | .switch e cs, vars => (eval C D me vars e).bind fun vs => (oneOf vs).bind fun v => execCases C D me v cs vars
  | .loop i c p b, vars => inBlock (fun vars => (exec C D me i vars).bind fun r =>
      C.loop (fun vars => (eval C D me vars c).bind truth) (inBlock (exec C D me b)) (exec C D me p) r.2) vars
  | .range k v e b, vars => (eval C D me vars e).bind fun vs => (M.of (elements vs)).bind fun es =>
      C.range (fun i x => inBlock fun vars => exec C D me b (declareUnless v x (declareUnless k (.num i) vars))) 0 es vars
  | .expr (.call (.ident f) args), vars =>
    if f = t!"copy" then (M.of (copyTo vars args)).bind fun vars => .ret (.next, vars)
    else (eval C D me vars (.call (.ident f) args)).bind fun _ => .ret (.next, vars)
  | .expr e, vars => (eval C D me vars e).bind fun _ => .ret (.next, vars)
  | .cont, vars => .ret (.cont, vars)
  | _, _ => .stuck
/-- The cases of a switch; `default` is the last. -/
def execCases (C : Ctx) (D : Decls) (me : Text) (v : V) : Stmt → Vars → M (Flow × Vars)
  | .skip, vars => .ret (.next, vars)
  | .case es b r, vars => (eval C D me vars es).bind fun us => (M.of (anyEq v us)).bind fun h =>
    if h then inBlock (exec C D me b) vars else execCases C D me v r vars
  | .default b .skip, vars => inBlock (exec C D me b) vars
  | _, _ => .stuck
end

/-! ### functions -/

def bindParams : List (Text × Expr) → List V → Option (List (Text × V))
  | [], [] => some []
  | p :: ps, v :: vs => (bindParams ps vs).map ((p.1, v) :: ·)
  | _, _ => none

/-- Runs a function. -/
def runFunc (C : Ctx) (D : Decls) (f : FuncDecl) (args : List V) : M (List V) :=
  (M.of (bindParams (match f.recv with | some r => r :: f.params | none => f.params) args)).bind fun ps =>
    (exec C D f.name f.body [ps]).bind fun r =>
      match r.1 with
      | .ret vs => .ret vs
      | _ => .stuck

def findFunc (n : Text) : List FuncDecl → Option FuncDecl
  | [] => none
  | f :: fs => if f.name = n then some f else findFunc n fs

/-- Calls of functions of a program, nested at most so deep, with loops of at most `n` iterations, `structInfo` being given. -/
def invoke (P : List FuncDecl) (D : Decls) (n : Nat) (I : List V → M (List V)) : Nat → Calls
  | 0, _, _ => .stuck
  | d + 1, f, args =>
    if f = t!"structInfo" then I args
    else
      match findFunc f P with
      | some g => runFunc ⟨invoke P D n I d, fun c b p => iterate c b p n, rangeOver, bodyOf, Pb.atoi⟩ D g args
      | none => .stuck

/-- `w.structInfo`, with struct types nested at most `d` deep, loops of at most `n` iterations, and other calls nested at most `n` deep. -/
def runInfo (P : List FuncDecl) (D : Decls) (n : Nat) : Nat → List V → M (List V)
  | 0, _ => .stuck
  | d + 1, args =>
    match findFunc t!"structInfo" P with
    | some g => runFunc ⟨invoke P D n (runInfo P D n d) n, fun c b p => iterate c b p n, rangeOver, bodyOf, Pb.atoi⟩ D g args
    | none => .stuck

/-- A function of the program. -/
def run (P : List FuncDecl) (D : Decls) (n d : Nat) (f : Text) (args : List V) : M (List V) := invoke P D n (runInfo P D n d) n f args

end Pb.Go.An
