import Verif.Model.Api
/-
Unmarshal and Size with machine integers: offsets, counts and sizes are Go `int`s of `w` bits that wrap around.

In `Model/Codec.lean` they are natural numbers. Here every addition and subtraction of proto/struct.go:56-149, decode.go:68-77,
walker.go:107-118, map.go:117-143 is done in `w` bits, the conversions between `int` and `uint64` are those of Go, and slice
expressions panic for negative indices. A slice has at most `2^(w-1) - 1` bytes.
-/
namespace Pb

/-- The `int` of `w` bits that results when `x` is the mathematical result. -/
def wrapInt (w : Nat) (x : Int) : Int := (BitVec.ofInt w x).toInt

/-- Go `uint64(x)` of an `int`. -/
def intToU64 (x : Int) : U64 := BitVec.ofInt 64 x

/-- Go `int(v)` of a `uint64`. -/
def u64ToInt (w : Nat) (v : U64) : Int := wrapInt w v.toNat

/-- A Go slice expression `b[i:j]`. -/
def sliceI (b : Bytes) (i j : Int) : Except Fault Bytes :=
  if 0 ≤ i ∧ i ≤ j ∧ j ≤ b.length then .ok ((b.take j.toNat).drop i.toNat) else .error .oob

/-- A Go slice expression `b[i:]`. -/
def fromI (b : Bytes) (i : Int) : Except Fault Bytes :=
  if 0 ≤ i ∧ i ≤ b.length then .ok (b.drop i.toNat) else .error .oob

/-- As `DRes`, the count is an `int`. -/
inductive DResI where
  | ok (v : Val) (n : Int)
  | err (v : Val) (e : Err)
deriving Repr

/-- Go `return n, err` -/
def DResI.mk (v : Val) (n : Int) : Option Err → DResI
  | none => .ok v n
  | some e => .err v e

/-- Re-wrap the slot of a decode result. -/
def DResI.wrap (w : Val → Val) : DResI → DResI
  | .ok v n => .ok (w v) n
  | .err v e => .err (w v) e

/-- A result whose count, not computed here, is small. -/
def DRes.toI : DRes → DResI
  | .ok v n => .ok v n
  | .err v e => .err v e

/-- decode.go:68-77 `decodeVarlen`. -/
def decodeVarlenI (w : Nat) (b : Bytes) : Except Fault (Bytes × Int × Option Err) :=
  match decodeVarint b with
  | (v, n, err) =>
    match err with
    | some e => .ok ([], n, some e)
    | none =>
      if v > intToU64 (wrapInt w (b.length - n)) then .ok ([], n, some .unexpectedEOF)
      else do
        let d ← sliceI b n (wrapInt w (n + u64ToInt w v))
        return (d, wrapInt w (n + u64ToInt w v), none)

/-- The decode functions of scalars (see `decodeScalar`); only `decodeString` (normal_codec.go:91-103) computes with `int`s. -/
def decodeScalarI (w : Nat) : Scalar → Bytes → Val → Except Fault DResI
  | .string, b, p => do
    let (v, n, err) ← decodeVarlenI w b
    if n = 0 then
      let p ← writeStr p []
      return DResI.mk p 0 err
    let p ← writeStr p v
    return DResI.mk p n err
  | s, b, p => do return (← decodeScalar s b p).toI

/-- option_codec.go: `decode*Option`. -/
def decodeOptionI (w : Nat) (s : Scalar) (b : Bytes) (p : Val) : Except Fault DResI :=
  match p with
  | .opt _ v => do
    let r ← decodeScalarI w s b v
    return r.wrap (Val.opt true)
  | _ => .error .confused

/-- normal_codec.go:66-74 `decodeBytes`. -/
def decodeBytesI (w : Nat) (b : Bytes) (p : Val) : Except Fault DResI := do
  let (v, n, err) ← decodeVarlenI w b
  match p with
  | .bytes _ => return DResI.mk (.bytes (some v)) n err
  | _ => .error .confused

/-- As `DField`. -/
structure DFieldI where
  num : Nat
  wt : Nat
  offset : Nat
  dec : Bytes → Val → Except Fault DResI

/-- As `fieldIndex`. -/
def fieldIndexI (fields : List DFieldI) : Nat → Option DFieldI :=
  fields.foldl (fun m f => fun n => if n = f.num then some f else m n) (fun _ => none)

/-- decode.go:63-66 `decodeTag`; `fieldNumber` is a `uint` (proto.go:76), which has `w` bits. -/
def decodeTagI (w : Nat) (b : Bytes) : Nat × Nat × Nat × Option Err :=
  match decodeVarint b with
  | (v, n, err) => ((v >>> 3).toNat % 2 ^ w, (v &&& 7#64).toNat, n, err)

/-- struct.go:66-96, the `if f == nil` block. -/
def skipUnknownI (w : Nat) (b : Bytes) (offset : Int) (wt : Nat) : Except Fault (Int × Option Err) := do
  let (skip, err) ←
    if wt = wtVarint then do
      let (_, skip, err) := decodeVarint (← fromI b offset)
      pure ((skip : Int), err)
    else if wt = wtVarlen then do
      let (size, skip, err) := decodeVarint (← fromI b offset)
      match err with
      | some e => pure ((skip : Int), some e)
      | none =>
        -- struct.go:75
        if size > intToU64 (wrapInt w (b.length - skip)) then pure ((skip : Int), some .unexpectedEOF)
        else pure (wrapInt w (skip + u64ToInt w size), none)
    else if wt = wtFixed32 then pure (4, none)
    else if wt = wtFixed64 then pure (8, none)
    else pure (0, some .wireTypeUnknown)
  -- struct.go:88-92
  if wrapInt w (offset + skip) ≤ b.length then return (wrapInt w (offset + skip), err)
  else return ((b.length : Int), some .unexpectedEOF)

/-- struct.go:106-139 -/
def fieldDataI (w : Nat) (b : Bytes) (offset : Int) (wt : Nat) : Except Fault (Except Err Bytes) := do
  if wt = wtVarint then
    let (_, n, err) := decodeVarint (← fromI b offset)
    match err with
    | some e => return .error e
    | none => return .ok (← sliceI b offset (wrapInt w (offset + n)))
  else if wt = wtVarlen then
    let (l, n, err) := decodeVarint (← fromI b offset)
    match err with
    | some e => return .error e
    | none =>
      if l > intToU64 (wrapInt w (b.length - wrapInt w (offset + n))) then return .error .unexpectedEOF
      else return .ok (← sliceI b offset (wrapInt w (wrapInt w (offset + n) + u64ToInt w l)))
  else if wt = wtFixed32 then
    if wrapInt w (offset + 4) > b.length then return .error .unexpectedEOF
    else return .ok (← sliceI b offset (wrapInt w (offset + 4)))
  else if wt = wtFixed64 then
    if wrapInt w (offset + 8) > b.length then return .error .unexpectedEOF
    else return .ok (← sliceI b offset (wrapInt w (offset + 8)))
  else return .error .wireTypeUnknown

/-- struct.go:56-149 `structInfo.decode`, the loop. -/
def structLoopI (w : Nat) (idx : Nat → Option DFieldI) (b : Bytes) : Nat → Int → List Val → Except Fault DResI
  | fuel, offset, vs =>
    if offset < b.length then
      match fuel with
      | 0 => .error .depth
      | fuel + 1 => do
        let (num, wt, n, err) := decodeTagI w (← fromI b offset)
        let offset := wrapInt w (offset + n)
        match err with
        | some e => return .err (.struct vs) e
        | none =>
          match idx num with
          | none =>
            let (offset, err) ← skipUnknownI w b offset wt
            match err with
            | some e => return .err (.struct vs) (.field num wt e)
            | none => structLoopI w idx b fuel offset vs
          | some f =>
            if wt ≠ f.wt then
              return .err (.struct vs) (.field num wt (.expectedWireType f.wt))
            else
              match ← fieldDataI w b offset wt with
              | .error e => return .err (.struct vs) (.field num wt e)
              | .ok data => do
                let v ← slotOf (.struct vs) f.offset
                match ← f.dec data v with
                | .ok v n => structLoopI w idx b fuel (wrapInt w (offset + n)) (vs.set f.offset v)
                | .err v e => return .err (.struct (vs.set f.offset v)) (.field num wt e)
    else return .ok (.struct vs) offset

/-- As `structDecode`; one more iteration than bytes, for the panic after a wrap-around. -/
def structDecodeI (w : Nat) (fields : List DFieldI) (b : Bytes) (p : Val) : Except Fault DResI :=
  match p with
  | .struct vs => structLoopI w (fieldIndexI fields) b (b.length + 1) 0 vs
  | _ => .error .confused

/-- As `codecDecode`. -/
def codecDecodeI (w : Nat) (zeros : TypeId → Val) (rec : TypeId → Bytes → Val → Except Fault DResI) :
    Codec → Bytes → Val → Except Fault DResI
  | .normal s, b, p => decodeScalarI w s b p
  | .required s, b, p => decodeScalarI w s b p
  | .option s, b, p => decodeOptionI w s b p
  | .bytes, b, p => decodeBytesI w b p
  | .ptr zero c, b, p =>
    match p with
    | .nilp => do return (← codecDecodeI w zeros rec c b zero).wrap .ptr
    | .ptr v => do return (← codecDecodeI w zeros rec c b v).wrap .ptr
    | _ => .error .confused
  | .msg t, b, p => do
    let v ← match p with
      | .nilp => pure (zeros t)
      | .ptr v => pure v
      | _ => .error .confused
    let (_, n, err) := decodeVarint b
    match err with
    | some e => return .err (.ptr v) e
    | none =>
      match ← rec t (← fromI b n) v with
      | .ok v l => return .ok (.ptr v) (wrapInt w (n + l))
      | .err v e => return .err (.ptr v) e
  | .slice zero c, b, p =>
    match p with
    | .slice isNil es spare =>
      let isNil := if spare = [] then false else isNil
      match growIfFull zero es spare with
      | [] => .error .oob
      | slot :: spare => do
        match ← codecDecodeI w zeros rec c b slot with
        | .ok v n => return .ok (.slice isNil (es ++ [v]) spare) n
        | .err v e => return .err (.slice isNil es (v :: spare)) e
    | _ => .error .confused
  | .map i _ _ kd vd, b, p =>
    match p with
    | .map _ m =>
      if b = [] then .ok (.ok (.map false m) 0)
      else
        let (_, nl, err) := decodeVarint b
        match err with
        | some e => .ok (.err (.map false m) e)
        | none => do
          let entry : List DFieldI :=
            [{ num := wtNumber i.eKey, wt := wtType i.eKey, offset := 0, dec := codecDecodeI w zeros rec kd },
             { num := wtNumber i.eVal, wt := wtType i.eVal, offset := 1, dec := codecDecodeI w zeros rec vd }]
          match ← structDecodeI w entry (← fromI b nl) (.struct [i.kzero, i.vzero]) with
          | .ok (.struct [k, v]) n =>
            match k.toKey? with
            | some k => return .ok (.map false (mapAssign m k v)) (wrapInt w (n + nl))
            | none => .error .confused
          | .ok _ _ => .error .confused
          | .err _ e => return .err (.map false m) e
    | _ => .error .confused

/-- As `dfields`. -/
def dfieldsI (w : Nat) (zeros : TypeId → Val) (rec : TypeId → Bytes → Val → Except Fault DResI)
    (fields : List Field) : List DFieldI :=
  fields.map fun f =>
    { num := wtNumber f.tag.wiretag, wt := wtType f.tag.wiretag, offset := f.offset,
      dec := codecDecodeI w zeros rec f.codec }

/-- As `decodeMsg`. -/
def decodeMsgI (w : Nat) (env : Env) : Nat → TypeId → Bytes → Val → Except Fault DResI
  | 0, _, _, _ => .error .depth
  | d + 1, t, b, v =>
    structDecodeI w (dfieldsI w (fun t => (env t).zero) (decodeMsgI w env d) (env t).fields) b v

/-- proto.go:37-61 `Unmarshal`. -/
def unmarshalI (w : Nat) (env : Env) (b : Bytes) (a : Arg) : Except Fault UnmarshalRes :=
  if b.length = 0 then .ok ⟨a, none⟩
  else
    match a with
    | .nilIface => .error .panic
    | .nonPtr => .ok ⟨a, some .invalidUnmarshal⟩
    | .ptrOther _ => .ok ⟨a, some .invalidUnmarshal⟩
    | .nilMsg _ => .ok ⟨a, some .invalidUnmarshal⟩
    | .msg t v => do
      match ← decodeMsgI w env (b.length + 1) t b v with
      | .err v e => return ⟨.msg t v, some (.decode e)⟩
      | .ok v n =>
        if n < b.length then return ⟨.msg t v, some (.shortRead n.toNat b.length)⟩
        else return ⟨.msg t v, none⟩

/-! ### size -/

/-- struct.go:39-43, slice.go:36-39 -/
def sumSizesI {α : Type} (w : Nat) (size : α → Except Fault Int) : Int → List α → Except Fault Int
  | n, [] => .ok n
  | n, x :: xs => do
    let s ← size x
    sumSizesI w size (wrapInt w (n + s)) xs

/-- As `codecSize`. The sizes of scalars, strings and bytes are sums of numbers and lengths, which may be wrapped at the end. -/
def codecSizeI (w : Nat) (rec : TypeId → Val → Except Fault Int) : Codec → Val → FTag → Except Fault Int
  | .normal s, p, f => do return wrapInt w (← sizeNormal s p f)
  | .required s, p, f => do return wrapInt w (← sizeRequired s p f)
  | .option s, p, f => do return wrapInt w (← sizeOption s p f)
  | .bytes, p, f => do return wrapInt w (← sizeOfBytes p f)
  | .ptr _ c, p, f =>
    match p with
    | .nilp => .ok 0
    | .ptr v => codecSizeI w rec c v f
    | _ => .error .confused
  | .msg t, p, f =>
    match p with
    | .nilp => .ok 0
    | .ptr v => do
      let n ← rec t v
      return wrapInt w (n + wrapInt w (sizeOfVarint (intToU64 n) + f.tagsize))
    | _ => .error .confused
  | .slice _ c, p, f =>
    match p with
    | .slice _ es _ => sumSizesI w (fun e => codecSizeI w rec c e f) 0 es
    | _ => .error .confused
  | .map i kc vc _ _, p, _ =>
    match p with
    | .map _ m => do
      let mapTagSize := sizeOfVarint i.wiretag
      let n ← sumSizesI w (fun (e : Key × Val) => do
        let keySize ← codecSizeI w rec kc e.1.toVal i.key
        let valSize ← codecSizeI w rec vc e.2 i.val
        return wrapInt w (wrapInt w (wrapInt w (mapTagSize + sizeOfVarint (intToU64 (wrapInt w (keySize + valSize)))) + keySize) + valSize)) 0 m
      if n = 0 then return wrapInt w (mapTagSize + 1)
      return n
    | _ => .error .confused

/-- As `structSize`. -/
def structSizeI (w : Nat) (size : Codec → Val → FTag → Except Fault Int) (fields : List Field) (p : Val) : Except Fault Int :=
  sumSizesI w (fun (f : Field) => do
    let v ← slotOf p f.offset
    size f.codec v f.tag) 0 fields

/-- As `sizeMsg`. -/
def sizeMsgI (w : Nat) (env : Env) : Nat → TypeId → Val → Except Fault Int
  | 0, _, _ => .error .depth
  | d + 1, t, v => structSizeI w (codecSizeI w (sizeMsgI w env d)) (env t).fields v

/-- proto.go:15-23 `Size` of a message. -/
def sizeI (w : Nat) (env : Env) (t : TypeId) (v : Val) : Except Fault Int := sizeMsgI w env (v.depth + 1) t v

/-! ### encode -/

/-- As `codecEncode`, with the sizes of nested messages and map entries as wrapped `int`s. -/
def codecEncodeI (w : Nat) (sz : TypeId → Val → Except Fault Int) (rec : TypeId → Bytes → Val → Except Fault Bytes) :
    Codec → Bytes → Val → FTag → Except Fault Bytes
  | .normal s, b, p, f => encodeNormal s b p f
  | .required s, b, p, f => encodeRequired s b p f
  | .option s, b, p, f => encodeOption s b p f
  | .bytes, b, p, f => encodeBytes b p f
  | .ptr _ c, b, p, f =>
    match p with
    | .nilp => .ok b
    | .ptr v => codecEncodeI w sz rec c b v f
    | _ => .error .confused
  | .msg t, b, p, f =>
    match p with
    | .nilp => .ok b
    | .ptr v => do
      let b := appendVarint b f.wiretag
      let n ← sz t v
      let b := appendVarint b (intToU64 n)
      rec t b v
    | _ => .error .confused
  | .slice _ c, b, p, f =>
    match p with
    | .slice _ es _ => appendAll (fun b e => codecEncodeI w sz rec c b e f) b es
    | _ => .error .confused
  | .map i kc vc _ _, b, p, _ =>
    match p with
    | .map _ m => do
      let mapTag := appendVarint [] i.wiretag
      let zero := mapTag ++ [0#8]
      let origLen := b.length
      let b ← appendAll (fun b (e : Key × Val) => do
        let keySize ← codecSizeI w sz kc e.1.toVal i.key
        let valSize ← codecSizeI w sz kc e.2 i.val
        let elemSize := wrapInt w (keySize + valSize)
        let b := b ++ mapTag
        let b := appendVarint b (intToU64 elemSize)
        let b ← codecEncodeI w sz rec kc b e.1.toVal i.key
        codecEncodeI w sz rec vc b e.2 i.val) b m
      if b.length = origLen then return b ++ zero
      return b
    | _ => .error .confused

/-- As `encodeMsg`. -/
def encodeMsgI (w : Nat) (env : Env) : Nat → TypeId → Bytes → Val → Except Fault Bytes
  | 0, _, _, _ => .error .depth
  | d + 1, t, b, v => structEncode (codecEncodeI w (sizeMsgI w env d) (encodeMsgI w env d)) (env t).fields b v

/-- proto.go:25-35 `Marshal`; `make` panics if the capacity is negative. -/
def marshalI (w : Nat) (env : Env) (a : Arg) : Except Fault (Except ApiErr Bytes) :=
  match a with
  | .nilIface => .error .panic
  | .nonPtr => .ok (.error .notPointer)
  | .ptrOther _ => .error .panic
  | .nilMsg _ => .ok (.ok [])
  | .msg t v => do
    let n ← sizeMsgI w env (v.depth + 1) t v
    if n < 0 then throw .panic
    let b ← encodeMsgI w env (v.depth + 1) t [] v
    return .ok b

end Pb
