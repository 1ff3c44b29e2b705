import Verif.Model.Scalar
/-
Composite codecs and the struct loop: proto/struct.go, proto/slice.go, proto/map.go and the closures
built in proto/walker.go.
-/
namespace Pb

/-- A Go struct type with protobuf tags. -/
abbrev TypeId := Nat

/-- Constants captured by the closures of a map codec (map.go:14-18 `mapField`, 30-33, 59-62, 100-115).
`eKey`, `eVal` are the wire tags of the two fields of the anonymous entry struct used for decoding
(map.go:101-104), `kzero`, `vzero` the zero values of the key and element types. -/
structure MapInfo where
  wiretag : U64
  key : FTag
  val : FTag
  eKey : U64
  eVal : U64
  kzero : Val
  vzero : Val
deriving Repr

/-- Which codec (proto.go:102-106: a record of size, encode and decode functions) a field uses.
* `normal s`, `required s`, `option s`, `bytes`: the global variables of `*_codec.go`
* `ptr zero c`: walker.go:284-297, pointer to something that is not a struct; `zero` is what
  `reflect.New(t)` points to
* `msg t`: walker.go:77-121 `structCodec` for type `*t`
* `slice zero c`: slice.go:13-29; `zero` is the zero value of the element type
* `map i kc vc kd vd`: map.go:20-28; `kc`, `vc` the key and value codecs used for size and encode,
  `kd`, `vd` those of the fields of the entry struct, used for decode. -/
inductive Codec where
  | normal (s : Scalar)
  | required (s : Scalar)
  | option (s : Scalar)
  | bytes
  | ptr (zero : Val) (c : Codec)
  | msg (t : TypeId)
  | slice (zero : Val) (c : Codec)
  | map (i : MapInfo) (kc vc kd vd : Codec)
deriving Repr

/-- struct.go:16-21 `structField`; `offset` is the index of the field in the struct. -/
structure Field where
  offset : Nat
  tag : FTag
  codec : Codec
deriving Repr

/-- struct.go:11-14 `structInfo` (the `fieldIndex` is computed from `fields`, see `fieldIndex`),
together with the zero value of the struct type, which `reflect.New(elem)` yields. -/
structure TypeInfo where
  fields : List Field
  zero : Val
deriving Repr

/-- The type infos of all message types. -/
abbrev Env := TypeId → TypeInfo

/-- struct.go:23-25 -/
def wtNumber (wiretag : U64) : Nat := (wiretag >>> 3).toNat
/-- struct.go:27-29 -/
def wtType (wiretag : U64) : Nat := (wiretag &&& 7#64).toNat

/-- proto.go:81-84 -/
abbrev wtVarint : Nat := 0
/-- proto.go:81-84 -/
abbrev wtFixed64 : Nat := 1
/-- proto.go:81-84 -/
abbrev wtVarlen : Nat := 2
/-- proto.go:81-84 -/
abbrev wtFixed32 : Nat := 5

/-- struct.go:31-33 `f.pointer(p)`: the slot of a field. -/
def slotOf (p : Val) (offset : Nat) : Except Fault Val :=
  match p with
  | .struct fs =>
    match fs[offset]? with
    | some v => .ok v
    | none => .error .confused
  | _ => .error .confused

/-! ### size -/

/-- struct.go:39-43 (and slice.go:36-39): `for ... { n += size(x) }` from `n`. -/
def sumSizes {α} (size : α → Except Fault Nat) : Nat → List α → Except Fault Nat
  | n, [] => .ok n
  | n, x :: xs => do
    let s ← size x
    sumSizes size (n + s) xs

/-- Size functions of all codecs. `rec` is `info.size` for nested messages.
scalars: `*_codec.go`; `ptr`: walker.go:342-350; `msg`: walker.go:88-96; `slice`: slice.go:31-43;
`map`: map.go:30-56. -/
def codecSize (rec : TypeId → Val → Except Fault Nat) : Codec → Val → FTag → Except Fault Nat
  | .normal s, p, f => sizeNormal s p f
  | .required s, p, f => sizeRequired s p f
  | .option s, p, f => sizeOption s p f
  | .bytes, p, f => sizeOfBytes p f
  | .ptr _ c, p, f =>
    match p with
    | .nilp => .ok 0
    | .ptr v => codecSize rec c v f
    | _ => .error .confused
  | .msg t, p, f =>
    match p with
    | .nilp => .ok 0
    | .ptr v => do
      let n ← rec t v
      return n + (sizeOfVarint (BitVec.ofNat 64 n) + f.tagsize)
    | _ => .error .confused
  | .slice _ c, p, f =>
    match p with
    | .slice _ es _ => sumSizes (fun e => codecSize rec c e f) 0 es
    | _ => .error .confused
  | .map i kc vc _ _, p, _ =>
    match p with
    | .map _ m => do
      let mapTagSize := sizeOfVarint i.wiretag
      let n ← sumSizes (fun (e : Key × Val) => do
        let keySize ← codecSize rec kc e.1.toVal i.key
        let valSize ← codecSize rec vc e.2 i.val
        return mapTagSize + sizeOfVarint (BitVec.ofNat 64 (keySize + valSize)) + keySize + valSize) 0 m
      if n = 0 then return mapTagSize + 1  -- map.go:12 `zeroSize`
      return n
    | _ => .error .confused

/-- struct.go:35-44 `structInfo.size` for a non-nil pointer. -/
def structSize (size : Codec → Val → FTag → Except Fault Nat) (fields : List Field) (p : Val) :
    Except Fault Nat :=
  sumSizes (fun (f : Field) => do
    let v ← slotOf p f.offset
    size f.codec v f.tag) 0 fields

/-- `info.size` with recursion depth at most `d`. -/
def sizeMsg (env : Env) : Nat → TypeId → Val → Except Fault Nat
  | 0, _, _ => .error .depth
  | d + 1, t, v => structSize (codecSize (sizeMsg env d)) (env t).fields v

/-! ### encode -/

/-- struct.go:50-52 (and slice.go:49-52): `for ... { b = encode(b, x) }`. -/
def appendAll {α} (enc : Bytes → α → Except Fault Bytes) : Bytes → List α → Except Fault Bytes
  | b, [] => .ok b
  | b, x :: xs => do
    let b ← enc b x
    appendAll enc b xs

/-- Encode functions of all codecs. `sz` is `info.size`, `rec` is `info.encode` for nested messages.
scalars: `*_codec.go`; `ptr`: walker.go:352-360; `msg`: walker.go:97-106; `slice`: slice.go:45-56;
`map`: map.go:58-94. Note that map.go:80 computes the size of the *value* with the *key* codec. -/
def codecEncode (sz : TypeId → Val → Except Fault Nat)
    (rec : TypeId → Bytes → Val → Except Fault Bytes) :
    Codec → Bytes → Val → FTag → Except Fault Bytes
  | .normal s, b, p, f => encodeNormal s b p f
  | .required s, b, p, f => encodeRequired s b p f
  | .option s, b, p, f => encodeOption s b p f
  | .bytes, b, p, f => encodeBytes b p f
  | .ptr _ c, b, p, f =>
    match p with
    | .nilp => .ok b
    | .ptr v => codecEncode sz rec c b v f
    | _ => .error .confused
  | .msg t, b, p, f =>
    match p with
    | .nilp => .ok b
    | .ptr v => do
      let b := appendVarint b f.wiretag
      let n ← sz t v
      let b := appendVarint b (BitVec.ofNat 64 n)
      rec t b v
    | _ => .error .confused
  | .slice _ c, b, p, f =>
    match p with
    | .slice _ es _ => appendAll (fun b e => codecEncode sz rec c b e f) b es
    | _ => .error .confused
  | .map i kc vc _ _, b, p, _ =>
    match p with
    | .map _ m => do
      let mapTag := appendVarint [] i.wiretag
      let zero := mapTag ++ [0#8]
      let origLen := b.length
      let b ← appendAll (fun b (e : Key × Val) => do
        let keySize ← codecSize sz kc e.1.toVal i.key
        let valSize ← codecSize sz kc e.2 i.val  -- map.go:80, sic: `keyCodec.size(val, f.valField)`
        let elemSize := keySize + valSize
        let b := b ++ mapTag
        let b := appendVarint b (BitVec.ofNat 64 elemSize)
        let b ← codecEncode sz rec kc b e.1.toVal i.key
        codecEncode sz rec vc b e.2 i.val) b m
      if b.length = origLen then return b ++ zero
      return b
    | _ => .error .confused

/-- struct.go:46-54 `structInfo.encode` for a non-nil pointer. -/
def structEncode (enc : Codec → Bytes → Val → FTag → Except Fault Bytes) (fields : List Field)
    (b : Bytes) (p : Val) : Except Fault Bytes :=
  appendAll (fun b (f : Field) => do
    let v ← slotOf p f.offset
    enc f.codec b v f.tag) b fields

/-- `info.encode` with recursion depth at most `d`. -/
def encodeMsg (env : Env) : Nat → TypeId → Bytes → Val → Except Fault Bytes
  | 0, _, _, _ => .error .depth
  | d + 1, t, b, v =>
    structEncode (codecEncode (sizeMsg env d) (encodeMsg env d)) (env t).fields b v

/-! ### decode -/

/-- What `structInfo.decode` uses of a field. -/
structure DField where
  num : Nat
  wt : Nat
  offset : Nat
  dec : Bytes → Val → Except Fault DRes

/-- struct.go:13 and walker.go:269-272: the index map, filled in field order, so that for equal
numbers the last field stays. -/
def fieldIndex (fields : List DField) : Nat → Option DField :=
  fields.foldl (fun m f => fun n => if n = f.num then some f else m n) (fun _ => none)

/-- struct.go:66-96, the `if f == nil` block: the new offset, and the error if any (not yet wrapped). -/
def skipUnknown (b : Bytes) (offset : Nat) (wt : Nat) : Except Fault (Nat × Option Err) := do
  -- struct.go:67-87, the switch, giving `skip` and `err`
  let (skip, err) ←
    if wt = wtVarint then do
      let (_, skip, err) := decodeVarint (← goFrom b offset)
      pure (skip, err)
    else if wt = wtVarlen then do
      let (size, skip, err) := decodeVarint (← goFrom b offset)
      match err with
      | some e => pure (skip, some e)
      | none =>
        -- struct.go:75: `len(b)-skip`, not `len(b)-(offset+skip)`
        if size.toNat > b.length - skip then pure (skip, some .unexpectedEOF)
        else pure (skip + size.toNat, none)
    else if wt = wtFixed32 then pure (4, none)
    else if wt = wtFixed64 then pure (8, none)
    else pure (0, some .wireTypeUnknown)
  -- struct.go:88-92
  if offset + skip ≤ b.length then return (offset + skip, err)
  else return (b.length, some .unexpectedEOF)

/-- struct.go:106-139: the section `data` of the buffer for the next field, or an error (not yet
wrapped). -/
def fieldData (b : Bytes) (offset : Nat) (wt : Nat) : Except Fault (Except Err Bytes) := do
  if wt = wtVarint then
    let (_, n, err) := decodeVarint (← goFrom b offset)
    match err with
    | some e => return .error e
    | none => return .ok (← goSlice b offset (offset + n))
  else if wt = wtVarlen then
    let (l, n, err) := decodeVarint (← goFrom b offset)
    match err with
    | some e => return .error e
    | none =>
      if l.toNat > b.length - (offset + n) then return .error .unexpectedEOF
      else return .ok (← goSlice b offset (offset + n + l.toNat))
  else if wt = wtFixed32 then
    if offset + 4 > b.length then return .error .unexpectedEOF
    else return .ok (← goSlice b offset (offset + 4))
  else if wt = wtFixed64 then
    if offset + 8 > b.length then return .error .unexpectedEOF
    else return .ok (← goSlice b offset (offset + 8))
  else return .error .wireTypeUnknown

/-- struct.go:56-149 `structInfo.decode`, the loop. `idx` is `info.fieldIndex`, `vs` the slots of the struct.
The first argument bounds the number of iterations. -/
def structLoop (idx : Nat → Option DField) (b : Bytes) : Nat → Nat → List Val → Except Fault DRes
  | fuel, offset, vs =>
    if offset < b.length then
      match fuel with
      | 0 => .error .depth
      | fuel + 1 => do
        let (num, wt, n, err) := decodeTag (← goFrom b offset)
        let offset := offset + n
        match err with
        | some e => return .err (.struct vs) e
        | none =>
          match idx num with
          | none =>
            let (offset, err) ← skipUnknown b offset wt
            match err with
            | some e => return .err (.struct vs) (.field num wt e)
            | none => structLoop idx b fuel offset vs
          | some f =>
            if wt ≠ f.wt then
              return .err (.struct vs) (.field num wt (.expectedWireType f.wt))
            else
              match ← fieldData b offset wt with
              | .error e => return .err (.struct vs) (.field num wt e)
              | .ok data => do
                let v ← slotOf (.struct vs) f.offset
                match ← f.dec data v with
                | .ok v n => structLoop idx b fuel (offset + n) (vs.set f.offset v)
                | .err v e => return .err (.struct (vs.set f.offset v)) (.field num wt e)
    else return .ok (.struct vs) offset

/-- struct.go:56-149 `structInfo.decode`. Every iteration consumes at least one byte, so `b.length`
bounds their number. -/
def structDecode (fields : List DField) (b : Bytes) (p : Val) : Except Fault DRes :=
  match p with
  | .struct vs => structLoop (fieldIndex fields) b b.length 0 vs
  | _ => .error .confused

/-- slice.go:90-99 `growSlice` and the guard at slice.go:65-67, on (elements, spare slots): when the length has
reached the capacity, the capacity is doubled (10 if it was 0) with zeroed new slots. -/
def growIfFull (zero : Val) (es spare : List Val) : List Val :=
  if spare = [] then
    let cap := 2 * (es.length + spare.length)
    let cap := if cap = 0 then 10 else cap
    List.replicate (cap - es.length) zero
  else spare

/-- `MapAssign` (runtime `mapassign`) followed by the copy of the value (map.go:137-138): replaces the value of an
existing key, otherwise adds an entry. -/
def mapAssign (m : List (Key × Val)) (k : Key) (v : Val) : List (Key × Val) :=
  match m with
  | [] => [(k, v)]
  | (k', v') :: m => if k' = k then (k', v) :: m else (k', v') :: mapAssign m k v

/-- Decode functions of all codecs. `rec` is `info.decode`, `zeros` what `reflect.New` gives for a
struct type.
scalars: `*_codec.go`; `ptr`: walker.go:362-371; `msg`: walker.go:107-118; `slice`: slice.go:58-75;
`map`: map.go:117-143 (the scratch struct taken from the pool is zero, see `Model/Pool.lean`). -/
def codecDecode (zeros : TypeId → Val) (rec : TypeId → Bytes → Val → Except Fault DRes) :
    Codec → Bytes → Val → Except Fault DRes
  | .normal s, b, p => decodeScalar s b p
  | .required s, b, p => decodeScalar s b p
  | .option s, b, p => decodeOption s b p
  | .bytes, b, p => decodeBytes b p
  | .ptr zero c, b, p =>
    match p with
    | .nilp => do return (← codecDecode zeros rec c b zero).wrap .ptr
    | .ptr v => do return (← codecDecode zeros rec c b v).wrap .ptr
    | _ => .error .confused
  | .msg t, b, p => do
    let v ← match p with
      | .nilp => pure (zeros t)
      | .ptr v => pure v
      | _ => .error .confused
    let (_, n, err) := decodeVarint b
    match err with
    | some e => return .err (.ptr v) e
    | none =>
      match ← rec t (← goFrom b n) v with
      | .ok v l => return .ok (.ptr v) (n + l)
      | .err v e => return .err (.ptr v) e
  | .slice zero c, b, p =>
    match p with
    | .slice isNil es spare =>
      let isNil := if spare = [] then false else isNil
      match growIfFull zero es spare with
      | [] => .error .oob
      | slot :: spare => do
        match ← codecDecode zeros rec c b slot with
        | .ok v n => return .ok (.slice isNil (es ++ [v]) spare) n
        | .err v e => return .err (.slice isNil es (v :: spare)) e
    | _ => .error .confused
  | .map i _ _ kd vd, b, p =>
    match p with
    | .map _ m =>
      if b = [] then .ok (.ok (.map false m) 0)
      else
        let (_, nl, err) := decodeVarint b
        match err with
        | some e => .ok (.err (.map false m) e)
        | none => do
          let entry : List DField :=
            [{ num := wtNumber i.eKey, wt := wtType i.eKey, offset := 0, dec := codecDecode zeros rec kd },
             { num := wtNumber i.eVal, wt := wtType i.eVal, offset := 1, dec := codecDecode zeros rec vd }]
          match ← structDecode entry (← goFrom b nl) (.struct [i.kzero, i.vzero]) with
          | .ok (.struct [k, v]) n =>
            match k.toKey? with
            | some k => return .ok (.map false (mapAssign m k v)) (n + nl)
            | none => .error .confused
          | .ok _ _ => .error .confused
          | .err _ e => return .err (.map false m) e
    | _ => .error .confused

/-- The decode view of the fields of a struct. -/
def dfields (zeros : TypeId → Val) (rec : TypeId → Bytes → Val → Except Fault DRes)
    (fields : List Field) : List DField :=
  fields.map fun f =>
    { num := wtNumber f.tag.wiretag, wt := wtType f.tag.wiretag, offset := f.offset,
      dec := codecDecode zeros rec f.codec }

/-- `info.decode` with recursion depth at most `d`. -/
def decodeMsg (env : Env) : Nat → TypeId → Bytes → Val → Except Fault DRes
  | 0, _, _, _ => .error .depth
  | d + 1, t, b, v =>
    structDecode (dfields (fun t => (env t).zero) (decodeMsg env d) (env t).fields) b v

end Pb
