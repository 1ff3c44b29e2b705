import Verif.Model.Api
/-
Step counts: the functions of `Model/Codec.lean` with a counter. The code is the same (`Proofs/Cost.lean` proves that dropping
the counter gives back `codecSize`, `codecEncode` and `codecDecode`).

Counted when decoding (struct.go:56-149, slice.go:58-99, map.go:117-143, normal_codec.go:66-102):
* 1 for every iteration of the loop of `structInfo.decode`, at every level, also inside map entries
* 1 for every byte that `decodeVarint` looks at, each time it does
* 1 for every byte copied into a string or byte slice
* 1 for every slot zeroed and every slot copied when `growSlice` allocates
All other work of an iteration is bounded by a constant: one look-up in the field index, at most one allocation of a struct, one
assignment to a map. The cost of the Go allocator and of the map implementation is not modelled.

Counted when sizing and encoding (struct.go:35-54, slice.go:31-56, map.go:30-94): 1 for every field, element and map entry
visited. Copying the bytes of strings to the output is not counted.
-/
namespace Pb

/-! ### decode -/

/-- The bytes `decodeVarint` looks at (decode.go:18-42): up to the first one below 0x80, or all. There may be any number of them,
also if the varint is then refused for its length. -/
def scanned : Bytes → Nat
  | [] => 0
  | c :: cs => if c < 0x80#8 then 1 else 1 + scanned cs

/-- What the loop scans behind the tag (struct.go:69-77, 105-119). -/
def scannedPayload (s : Bytes) (wt : Nat) : Nat := if wt = wtVarint ∨ wt = wtVarlen then scanned s else 0

/-- What a scalar codec scans (normal_codec.go): fixed-width values and bools are not varints to it. -/
def scannedScalar (s : Scalar) (b : Bytes) : Nat :=
  match s with
  | .bool | .fixed32 | .fixed64 | .float32 | .float64 => 0
  | _ => scanned b

/-- Bytes copied by `decodeString` (normal_codec.go:96-107, `string(v)`) and none by the other scalars. -/
def copiedScalar (s : Scalar) (b : Bytes) : Nat :=
  match s, decodeVarlen b with
  | .string, .ok (v, _, _) => v.length
  | _, _ => 0

/-- Bytes copied by `decodeBytes` (normal_codec.go:66-74, `append((*pb)[:0], v...)`). -/
def copiedBytes (b : Bytes) : Nat :=
  match decodeVarlen b with
  | .ok (v, _, _) => v.length
  | .error _ => 0

/-- `DField` with a counting decode function. -/
structure CostField where
  num : Nat
  wt : Nat
  offset : Nat
  dec : Bytes → Val → Except Fault (DRes × Nat)

/-- As `fieldIndex`. -/
def fieldIndexK (fields : List CostField) : Nat → Option CostField :=
  fields.foldl (fun m f => fun n => if n = f.num then some f else m n) (fun _ => none)

/-- struct.go:56-149, the loop, as `structLoop`; `k` is the count so far. -/
def structLoopK (idx : Nat → Option CostField) (b : Bytes) : Nat → Nat → List Val → Nat → Except Fault (DRes × Nat)
  | fuel, offset, vs, k =>
    if offset < b.length then
      match fuel with
      | 0 => .error .depth
      | fuel + 1 => do
        let rest ← goFrom b offset
        let k := k + 1 + scanned rest
        let (num, wt, n, err) := decodeTag rest
        let offset := offset + n
        match err with
        | some e => return (.err (.struct vs) e, k)
        | none =>
          match idx num with
          | none =>
            let k := k + scannedPayload (b.drop offset) wt
            let (offset, err) ← skipUnknown b offset wt
            match err with
            | some e => return (.err (.struct vs) (.field num wt e), k)
            | none => structLoopK idx b fuel offset vs k
          | some f =>
            if wt ≠ f.wt then
              return (.err (.struct vs) (.field num wt (.expectedWireType f.wt)), k)
            else
              let k := k + scannedPayload (b.drop offset) wt
              match ← fieldData b offset wt with
              | .error e => return (.err (.struct vs) (.field num wt e), k)
              | .ok data => do
                let v ← slotOf (.struct vs) f.offset
                match ← f.dec data v with
                | (.ok v n, c) => structLoopK idx b fuel (offset + n) (vs.set f.offset v) (k + c)
                | (.err v e, c) => return (.err (.struct (vs.set f.offset v)) (.field num wt e), k + c)
    else return (.ok (.struct vs) offset, k)

/-- As `structDecode`. -/
def structDecodeK (fields : List CostField) (b : Bytes) (p : Val) : Except Fault (DRes × Nat) :=
  match p with
  | .struct vs => structLoopK (fieldIndexK fields) b b.length 0 vs 0
  | _ => .error .confused

/-- slice.go:90-99 `growSlice`: the new array (old slots and new ones) is zeroed (runtime `newarray`) and the old slots are
copied (`typedslicecopy`); nothing when there is a spare slot. -/
def growCost (zero : Val) (es spare : List Val) : Nat :=
  if spare = [] then (es.length + (growIfFull zero es spare).length) + es.length else 0

/-- As `codecDecode`. -/
def codecDecodeK (zeros : TypeId → Val) (rec : TypeId → Bytes → Val → Except Fault (DRes × Nat)) :
    Codec → Bytes → Val → Except Fault (DRes × Nat)
  | .normal s, b, p => do return (← decodeScalar s b p, scannedScalar s b + copiedScalar s b)
  | .required s, b, p => do return (← decodeScalar s b p, scannedScalar s b + copiedScalar s b)
  | .option s, b, p => do return (← decodeOption s b p, scannedScalar s b + copiedScalar s b)
  | .bytes, b, p => do return (← decodeBytes b p, scanned b + copiedBytes b)
  | .ptr zero c, b, p =>
    match p with
    | .nilp => do
      let (r, k) ← codecDecodeK zeros rec c b zero
      return (r.wrap .ptr, k)
    | .ptr v => do
      let (r, k) ← codecDecodeK zeros rec c b v
      return (r.wrap .ptr, k)
    | _ => .error .confused
  | .msg t, b, p => do
    let v ← match p with
      | .nilp => pure (zeros t)
      | .ptr v => pure v
      | _ => .error .confused
    let (_, n, err) := decodeVarint b
    match err with
    | some e => return (.err (.ptr v) e, scanned b)
    | none =>
      match ← rec t (← goFrom b n) v with
      | (.ok v l, k) => return (.ok (.ptr v) (n + l), scanned b + k)
      | (.err v e, k) => return (.err (.ptr v) e, scanned b + k)
  | .slice zero c, b, p =>
    match p with
    | .slice isNil es spare =>
      let g := growCost zero es spare
      let isNil := if spare = [] then false else isNil
      match growIfFull zero es spare with
      | [] => .error .oob
      | slot :: spare => do
        match ← codecDecodeK zeros rec c b slot with
        | (.ok v n, k) => return (.ok (.slice isNil (es ++ [v]) spare) n, g + k)
        | (.err v e, k) => return (.err (.slice isNil es (v :: spare)) e, g + k)
    | _ => .error .confused
  | .map i _ _ kd vd, b, p =>
    match p with
    | .map _ m =>
      if b = [] then .ok (.ok (.map false m) 0, 0)
      else
        let (_, nl, err) := decodeVarint b
        match err with
        | some e => .ok (.err (.map false m) e, scanned b)
        | none => do
          let entry : List CostField :=
            [{ num := wtNumber i.eKey, wt := wtType i.eKey, offset := 0, dec := codecDecodeK zeros rec kd },
             { num := wtNumber i.eVal, wt := wtType i.eVal, offset := 1, dec := codecDecodeK zeros rec vd }]
          match ← structDecodeK entry (← goFrom b nl) (.struct [i.kzero, i.vzero]) with
          | (.ok (.struct [a, v]) n, k) =>
            match a.toKey? with
            | some key => return (.ok (.map false (mapAssign m key v)) (n + nl), scanned b + k)
            | none => .error .confused
          | (.ok _ _, _) => .error .confused
          | (.err _ e, k) => return (.err (.map false m) e, scanned b + k)
    | _ => .error .confused

/-- As `dfields`. -/
def dfieldsK (zeros : TypeId → Val) (rec : TypeId → Bytes → Val → Except Fault (DRes × Nat))
    (fields : List Field) : List CostField :=
  fields.map fun f =>
    { num := wtNumber f.tag.wiretag, wt := wtType f.tag.wiretag, offset := f.offset,
      dec := codecDecodeK zeros rec f.codec }

/-- As `decodeMsg`. -/
def decodeMsgK (env : Env) : Nat → TypeId → Bytes → Val → Except Fault (DRes × Nat)
  | 0, _, _, _ => .error .depth
  | d + 1, t, b, v =>
    structDecodeK (dfieldsK (fun t => (env t).zero) (decodeMsgK env d) (env t).fields) b v

/-! ### size -/

/-- As `sumSizes`; `k` is the count so far. -/
def sumSizesK {α} (size : α → Except Fault (Nat × Nat)) : Nat → Nat → List α → Except Fault (Nat × Nat)
  | n, k, [] => .ok (n, k)
  | n, k, x :: xs => do
    let (s, c) ← size x
    sumSizesK size (n + s) (k + 1 + c) xs

/-- As `codecSize`. -/
def codecSizeK (rec : TypeId → Val → Except Fault (Nat × Nat)) : Codec → Val → FTag → Except Fault (Nat × Nat)
  | .normal s, p, f => do return (← sizeNormal s p f, 0)
  | .required s, p, f => do return (← sizeRequired s p f, 0)
  | .option s, p, f => do return (← sizeOption s p f, 0)
  | .bytes, p, f => do return (← sizeOfBytes p f, 0)
  | .ptr _ c, p, f =>
    match p with
    | .nilp => .ok (0, 0)
    | .ptr v => codecSizeK rec c v f
    | _ => .error .confused
  | .msg t, p, f =>
    match p with
    | .nilp => .ok (0, 0)
    | .ptr v => do
      let (n, k) ← rec t v
      return (n + (sizeOfVarint (BitVec.ofNat 64 n) + f.tagsize), k)
    | _ => .error .confused
  | .slice _ c, p, f =>
    match p with
    | .slice _ es _ => sumSizesK (fun e => codecSizeK rec c e f) 0 0 es
    | _ => .error .confused
  | .map i kc vc _ _, p, _ =>
    match p with
    | .map _ m => do
      let mapTagSize := sizeOfVarint i.wiretag
      let (n, k) ← sumSizesK (fun (e : Key × Val) => do
        let (keySize, k1) ← codecSizeK rec kc e.1.toVal i.key
        let (valSize, k2) ← codecSizeK rec vc e.2 i.val
        return (mapTagSize + sizeOfVarint (BitVec.ofNat 64 (keySize + valSize)) + keySize + valSize, k1 + k2)) 0 0 m
      if n = 0 then return (mapTagSize + 1, k)
      return (n, k)
    | _ => .error .confused

/-- As `structSize`. -/
def structSizeK (size : Codec → Val → FTag → Except Fault (Nat × Nat)) (fields : List Field) (p : Val) :
    Except Fault (Nat × Nat) :=
  sumSizesK (fun (f : Field) => do
    let v ← slotOf p f.offset
    size f.codec v f.tag) 0 0 fields

/-- As `sizeMsg`. -/
def sizeMsgK (env : Env) : Nat → TypeId → Val → Except Fault (Nat × Nat)
  | 0, _, _ => .error .depth
  | d + 1, t, v => structSizeK (codecSizeK (sizeMsgK env d)) (env t).fields v

/-! ### encode -/

/-- As `appendAll`; `k` is the count so far. -/
def appendAllK {α} (enc : Bytes → α → Except Fault (Bytes × Nat)) : Bytes → Nat → List α → Except Fault (Bytes × Nat)
  | b, k, [] => .ok (b, k)
  | b, k, x :: xs => do
    let (b, c) ← enc b x
    appendAllK enc b (k + 1 + c) xs

/-- As `codecEncode`. The encode function of a message codec calls `info.size` before `info.encode` (walker.go:101-104): the
steps of both count. -/
def codecEncodeK (sz : TypeId → Val → Except Fault (Nat × Nat))
    (rec : TypeId → Bytes → Val → Except Fault (Bytes × Nat)) :
    Codec → Bytes → Val → FTag → Except Fault (Bytes × Nat)
  | .normal s, b, p, f => do return (← encodeNormal s b p f, 0)
  | .required s, b, p, f => do return (← encodeRequired s b p f, 0)
  | .option s, b, p, f => do return (← encodeOption s b p f, 0)
  | .bytes, b, p, f => do return (← encodeBytes b p f, 0)
  | .ptr _ c, b, p, f =>
    match p with
    | .nilp => .ok (b, 0)
    | .ptr v => codecEncodeK sz rec c b v f
    | _ => .error .confused
  | .msg t, b, p, f =>
    match p with
    | .nilp => .ok (b, 0)
    | .ptr v => do
      let b := appendVarint b f.wiretag
      let (n, k1) ← sz t v
      let b := appendVarint b (BitVec.ofNat 64 n)
      let (b, k2) ← rec t b v
      return (b, k1 + k2)
    | _ => .error .confused
  | .slice _ c, b, p, f =>
    match p with
    | .slice _ es _ => appendAllK (fun b e => codecEncodeK sz rec c b e f) b 0 es
    | _ => .error .confused
  | .map i kc vc _ _, b, p, _ =>
    match p with
    | .map _ m => do
      let mapTag := appendVarint [] i.wiretag
      let zero := mapTag ++ [0#8]
      let origLen := b.length
      let (b, k) ← appendAllK (fun b (e : Key × Val) => do
        let (keySize, k1) ← codecSizeK sz kc e.1.toVal i.key
        let (valSize, k2) ← codecSizeK sz kc e.2 i.val
        let elemSize := keySize + valSize
        let b := b ++ mapTag
        let b := appendVarint b (BitVec.ofNat 64 elemSize)
        let (b, k3) ← codecEncodeK sz rec kc b e.1.toVal i.key
        let (b, k4) ← codecEncodeK sz rec vc b e.2 i.val
        return (b, k1 + k2 + k3 + k4)) b 0 m
      if b.length = origLen then return (b ++ zero, k)
      return (b, k)
    | _ => .error .confused

/-- As `structEncode`. -/
def structEncodeK (enc : Codec → Bytes → Val → FTag → Except Fault (Bytes × Nat)) (fields : List Field)
    (b : Bytes) (p : Val) : Except Fault (Bytes × Nat) :=
  appendAllK (fun b (f : Field) => do
    let v ← slotOf p f.offset
    enc f.codec b v f.tag) b 0 fields

/-- As `encodeMsg`. -/
def encodeMsgK (env : Env) : Nat → TypeId → Bytes → Val → Except Fault (Bytes × Nat)
  | 0, _, _, _ => .error .depth
  | d + 1, t, b, v =>
    structEncodeK (codecEncodeK (sizeMsgK env d) (encodeMsgK env d)) (env t).fields b v

/-! ### API -/

/-- proto.go:15-23 `Size`, as `size`. -/
def sizeK (env : Env) (a : Arg) : Except Fault (Nat × Nat) :=
  match a with
  | .nilIface => .error .panic
  | .nonPtr => .error .panic
  | .ptrOther _ => .error .panic
  | .nilMsg _ => .ok (0, 0)
  | .msg t v => sizeMsgK env (v.depth + 1) t v

/-- proto.go:25-35 `Marshal`, as `marshal`: `info.size` for the capacity of the buffer, then `info.encode`. -/
def marshalK (env : Env) (a : Arg) : Except Fault (Except ApiErr Bytes × Nat) :=
  match a with
  | .nilIface => .error .panic
  | .nonPtr => .ok (.error .notPointer, 0)
  | .ptrOther _ => .error .panic
  | .nilMsg _ => .ok (.ok [], 0)
  | .msg t v => do
    let (_, k1) ← sizeMsgK env (v.depth + 1) t v
    let (b, k2) ← encodeMsgK env (v.depth + 1) t [] v
    return (.ok b, k1 + k2)

/-- proto.go:37-61 `Unmarshal`, as `unmarshal`. -/
def unmarshalK (env : Env) (b : Bytes) (a : Arg) : Except Fault (UnmarshalRes × Nat) :=
  if b.length = 0 then .ok (⟨a, none⟩, 0)
  else
    match a with
    | .nilIface => .error .panic
    | .nonPtr => .ok (⟨a, some .invalidUnmarshal⟩, 0)
    | .ptrOther _ => .ok (⟨a, some .invalidUnmarshal⟩, 0)
    | .nilMsg _ => .ok (⟨a, some .invalidUnmarshal⟩, 0)
    | .msg t v => do
      match ← decodeMsgK env (b.length + 1) t b v with
      | (.err v e, k) => return (⟨.msg t v, some (.decode e)⟩, k)
      | (.ok v n, k) =>
        if n < b.length then return (⟨.msg t v, some (.shortRead n b.length)⟩, k)
        else return (⟨.msg t v, none⟩, k)

end Pb
