import Verif.Model.Value
/-
Scalar codecs: proto/normal_codec.go, proto/required_codec.go, proto/option_codec.go.
-/
namespace Pb

/-- The part of `structField` (struct.go:16-21) that size and encode functions use. -/
structure FTag where
  wiretag : U64
  tagsize : Nat
deriving DecidableEq, Repr

/-- The scalar codecs of normal_codec.go that have `Required` and `Option` variants. -/
inductive Scalar where
  | bool | string | float32 | float64 | int32 | int64 | uint32 | fixed32 | uint64 | fixed64
  | zigzag32 | zigzag64
deriving DecidableEq, Repr

/-- Result of a `decodeFunc` (decode.go:14): the memory slot afterwards with the byte count, or the slot
afterwards with the error. The count returned along with an error is dropped: no caller uses it
(struct.go:140-145, proto.go:53-56). -/
inductive DRes where
  | ok (v : Val) (n : Nat)
  | err (v : Val) (e : Err)
deriving Repr

/-- Go `return n, err` after the slot was set to `v`. -/
def DRes.mk (v : Val) (n : Nat) : Option Err → DRes
  | none => .ok v n
  | some e => .err v e

/-- `v != 0 || math.Signbit(float64(v))` for a `float32` (normal_codec.go:117,124): a float compares
unequal to zero unless it is +0 or -0, and widening to `float64` keeps the sign. -/
def f32Present (x : U32) : Bool := (x != 0#32 && x != 0x80000000#32) || x.msb

/-- `v != 0 || math.Signbit(v)` for a `float64` (normal_codec.go:144,151). -/
def f64Present (x : U64) : Bool := (x != 0#64 && x != 0x8000000000000000#64) || x.msb

/-- `uint64(v)` of an `int32`: sign extension. -/
def sext (x : U32) : U64 := x.signExtend 64
/-- `uint64(v)` of a `uint32`: zero extension. -/
def zext (x : U32) : U64 := x.setWidth 64
/-- `uint64(len(v))` -/
def len64 (s : Bytes) : U64 := BitVec.ofNat 64 s.length

/-- normal_codec.go: `sizeOfBool` 15, `sizeOfString` 82, `sizeOfFloat32` 116, `sizeOfFloat64` 143,
`sizeOfInt32` 170, `sizeOfInt64` 199, `sizeOfUint32` 228, `sizeOfFixed32` 255, `sizeOfUint64` 282,
`sizeOfFixed64` 309, `sizeOfZigzag32` 336, `sizeOfZigzag64` 363. -/
def sizeNormal : Scalar → Val → FTag → Except Fault Nat
  | .bool, p, f => do
    if ← readB8 p then return 1 + f.tagsize
    return 0
  | .string, p, f => do
    let v ← readStr p
    if v ≠ [] then return sizeOfVarlen v.length + f.tagsize
    return 0
  | .float32, p, f => do
    if f32Present (← read32 p) then return 4 + f.tagsize
    return 0
  | .float64, p, f => do
    if f64Present (← read64 p) then return 8 + f.tagsize
    return 0
  | .int32, p, f => do
    let v ← read32 p
    if v ≠ 0#32 then return sizeOfVarint (sext v) + f.tagsize
    return 0
  | .int64, p, f => do
    let v ← read64 p
    if v ≠ 0#64 then return sizeOfVarint v + f.tagsize
    return 0
  | .uint32, p, f => do
    let v ← read32 p
    if v ≠ 0#32 then return sizeOfVarint (zext v) + f.tagsize
    return 0
  | .fixed32, p, f => do
    if (← read32 p) ≠ 0#32 then return 4 + f.tagsize
    return 0
  | .uint64, p, f => do
    let v ← read64 p
    if v ≠ 0#64 then return sizeOfVarint v + f.tagsize
    return 0
  | .fixed64, p, f => do
    if (← read64 p) ≠ 0#64 then return 8 + f.tagsize
    return 0
  | .zigzag32, p, f => do
    let v ← read32 p
    if v ≠ 0#32 then return sizeOfVarint (encodeZigZag64 (sext v)) + f.tagsize
    return 0
  | .zigzag64, p, f => do
    let v ← read64 p
    if v ≠ 0#64 then return sizeOfVarint (encodeZigZag64 v) + f.tagsize
    return 0

/-- normal_codec.go: `encodeBool` 22, `encodeString` 90, `encodeFloat32` 123, `encodeFloat64` 150,
`encodeInt32` 178, `encodeInt64` 207, `encodeUint32` 235, `encodeFixed32` 262, `encodeUint64` 289,
`encodeFixed64` 316, `encodeZigzag32` 343, `encodeZigzag64` 370. -/
def encodeNormal : Scalar → Bytes → Val → FTag → Except Fault Bytes
  | .bool, b, p, f => do
    if ← readB8 p then
      let b := appendVarint b f.wiretag
      if ← readB8 p then return b ++ [1#8] else return b ++ [0#8]
    return b
  | .string, b, p, f => do
    let v ← readStr p
    if v ≠ [] then
      let b := appendVarint b f.wiretag
      let b := appendVarint b (len64 v)
      return b ++ v
    return b
  | .float32, b, p, f => do
    let v ← read32 p
    if f32Present v then
      let b := appendVarint b f.wiretag
      return encodeLE32 b v
    return b
  | .float64, b, p, f => do
    let v ← read64 p
    if f64Present v then
      let b := appendVarint b f.wiretag
      return encodeLE64 b v
    return b
  | .int32, b, p, f => do
    let v ← read32 p
    if v ≠ 0#32 then
      let b := appendVarint b f.wiretag
      return appendVarint b (sext v)
    return b
  | .int64, b, p, f => do
    let v ← read64 p
    if v ≠ 0#64 then
      let b := appendVarint b f.wiretag
      return appendVarint b v
    return b
  | .uint32, b, p, f => do
    let v ← read32 p
    if v ≠ 0#32 then
      let b := appendVarint b f.wiretag
      return appendVarint b (zext v)
    return b
  | .fixed32, b, p, f => do
    let v ← read32 p
    if v ≠ 0#32 then
      let b := appendVarint b f.wiretag
      return encodeLE32 b v
    return b
  | .uint64, b, p, f => do
    let v ← read64 p
    if v ≠ 0#64 then
      let b := appendVarint b f.wiretag
      return appendVarint b v
    return b
  | .fixed64, b, p, f => do
    let v ← read64 p
    if v ≠ 0#64 then
      let b := appendVarint b f.wiretag
      return encodeLE64 b v
    return b
  | .zigzag32, b, p, f => do
    let v ← read32 p
    if v ≠ 0#32 then
      let b := appendVarint b f.wiretag
      return appendVarint b (encodeZigZag64 (sext v))
    return b
  | .zigzag64, b, p, f => do
    let v ← read64 p
    if v ≠ 0#64 then
      let b := appendVarint b f.wiretag
      return appendVarint b (encodeZigZag64 v)
    return b

/-- required_codec.go: `sizeOfBoolRequired` 12, `sizeOfStringRequired` 27, `sizeOfFloat32Required` 41,
`sizeOfFloat64Required` 53, `sizeOfInt32Required` 65, `sizeOfInt64Required` 78,
`sizeOfUint32Required` 91, `sizeOfFixed32Required` 104, `sizeOfUint64Required` 116,
`sizeOfFixed64Required` 129, `sizeOfZigzag32Required` 141, `sizeOfZigzag64Required` 154. Note that the
bool, float and fixed variants do not read the memory at all. -/
def sizeRequired : Scalar → Val → FTag → Except Fault Nat
  | .bool, _, f => return 1 + f.tagsize
  | .string, p, f => do
    let v ← readStr p
    return sizeOfVarlen v.length + f.tagsize
  | .float32, _, f => return 4 + f.tagsize
  | .float64, _, f => return 8 + f.tagsize
  | .int32, p, f => do
    let v ← read32 p
    return sizeOfVarint (sext v) + f.tagsize
  | .int64, p, f => do
    let v ← read64 p
    return sizeOfVarint v + f.tagsize
  | .uint32, p, f => do
    let v ← read32 p
    return sizeOfVarint (zext v) + f.tagsize
  | .fixed32, _, f => return 4 + f.tagsize
  | .uint64, p, f => do
    let v ← read64 p
    return sizeOfVarint v + f.tagsize
  | .fixed64, _, f => return 8 + f.tagsize
  | .zigzag32, p, f => do
    let v ← read32 p
    return sizeOfVarint (encodeZigZag64 (sext v)) + f.tagsize
  | .zigzag64, p, f => do
    let v ← read64 p
    return sizeOfVarint (encodeZigZag64 v) + f.tagsize

/-- required_codec.go: `encodeBoolRequired` 15, `encodeStringRequired` 31, `encodeFloat32Required` 44,
`encodeFloat64Required` 56, `encodeInt32Required` 69, `encodeInt64Required` 82,
`encodeUint32Required` 95, `encodeFixed32Required` 107, `encodeUint64Required` 120,
`encodeFixed64Required` 132, `encodeZigzag32Required` 145, `encodeZigzag64Required` 158. -/
def encodeRequired : Scalar → Bytes → Val → FTag → Except Fault Bytes
  | .bool, b, p, f => do
    let b := appendVarint b f.wiretag
    if ← readB8 p then return b ++ [1#8] else return b ++ [0#8]
  | .string, b, p, f => do
    let v ← readStr p
    let b := appendVarint b f.wiretag
    let b := appendVarint b (len64 v)
    return b ++ v
  | .float32, b, p, f => do
    let v ← read32 p
    let b := appendVarint b f.wiretag
    return encodeLE32 b v
  | .float64, b, p, f => do
    let v ← read64 p
    let b := appendVarint b f.wiretag
    return encodeLE64 b v
  | .int32, b, p, f => do
    let v ← read32 p
    let b := appendVarint b f.wiretag
    return appendVarint b (sext v)
  | .int64, b, p, f => do
    let v ← read64 p
    let b := appendVarint b f.wiretag
    return appendVarint b v
  | .uint32, b, p, f => do
    let v ← read32 p
    let b := appendVarint b f.wiretag
    return appendVarint b (zext v)
  | .fixed32, b, p, f => do
    let v ← read32 p
    let b := appendVarint b f.wiretag
    return encodeLE32 b v
  | .uint64, b, p, f => do
    let v ← read64 p
    let b := appendVarint b f.wiretag
    return appendVarint b v
  | .fixed64, b, p, f => do
    let v ← read64 p
    let b := appendVarint b f.wiretag
    return encodeLE64 b v
  | .zigzag32, b, p, f => do
    let v ← read32 p
    let b := appendVarint b f.wiretag
    return appendVarint b (encodeZigZag64 (sext v))
  | .zigzag64, b, p, f => do
    let v ← read64 p
    let b := appendVarint b f.wiretag
    return appendVarint b (encodeZigZag64 v)

/-- The decode functions shared by the normal and required codecs. normal_codec.go: `decodeBool` 34,
`decodeString` 100, `decodeFloat32` 131, `decodeFloat64` 158, `decodeInt32` 187, `decodeInt64` 216,
`decodeUint32` 243, `decodeFixed32` 270, `decodeUint64` 297, `decodeFixed64` 324,
`decodeZigzag32` 351, `decodeZigzag64` 378. The value is stored also when `err` is set. -/
def decodeScalar : Scalar → Bytes → Val → Except Fault DRes
  | .bool, b, p =>
    match b with
    | [] => .ok (.err p .unexpectedEOF)
    | c :: _ => do
      let p ← writeB8 p (c ≠ 0#8)
      return .ok p 1
  | .string, b, p => do
    let (v, n, err) ← decodeVarlen b
    if n = 0 then
      let p ← writeStr p []
      return DRes.mk p 0 err
    let p ← writeStr p v
    return DRes.mk p n err
  | .float32, b, p => do
    let (v, n, err) := decodeLE32 b
    let p ← write32 p v
    return DRes.mk p n err
  | .float64, b, p => do
    let (v, n, err) := decodeLE64 b
    let p ← write64 p v
    return DRes.mk p n err
  | .int32, b, p => do
    let (u, n, err) := decodeVarint b
    let p ← write32 p (u.setWidth 32)
    return DRes.mk p n err
  | .int64, b, p => do
    let (v, n, err) := decodeVarint b
    let p ← write64 p v
    return DRes.mk p n err
  | .uint32, b, p => do
    let (v, n, err) := decodeVarint b
    let p ← write32 p (v.setWidth 32)
    return DRes.mk p n err
  | .fixed32, b, p => do
    let (v, n, err) := decodeLE32 b
    let p ← write32 p v
    return DRes.mk p n err
  | .uint64, b, p => do
    let (v, n, err) := decodeVarint b
    let p ← write64 p v
    return DRes.mk p n err
  | .fixed64, b, p => do
    let (v, n, err) := decodeLE64 b
    let p ← write64 p v
    return DRes.mk p n err
  | .zigzag32, b, p => do
    let (u, n, err) := decodeVarint b
    let p ← write32 p ((decodeZigZag64 u).setWidth 32)
    return DRes.mk p n err
  | .zigzag64, b, p => do
    let (v, n, err) := decodeVarint b
    let p ← write64 p (decodeZigZag64 v)
    return DRes.mk p n err

/-- option_codec.go: `sizeOf*Option` (13-341), all twelve of the form
`if o.IsSome() { return sizeOf*Required(o.unsafePointer(), f) }; return 0`. -/
def sizeOption (s : Scalar) (p : Val) (f : FTag) : Except Fault Nat :=
  match p with
  | .opt isSome v => if isSome then sizeRequired s v f else .ok 0
  | _ => .error .confused

/-- option_codec.go: `encode*Option`. -/
def encodeOption (s : Scalar) (b : Bytes) (p : Val) (f : FTag) : Except Fault Bytes :=
  match p with
  | .opt isSome v => if isSome then encodeRequired s b v f else .ok b
  | _ => .error .confused

/-- Re-wrap the slot of a decode result. -/
def DRes.wrap (w : Val → Val) : DRes → DRes
  | .ok v n => .ok (w v) n
  | .err v e => .err (w v) e

/-- option_codec.go: `decode*Option`: `v.some = true` first, then decode into `value`. -/
def decodeOption (s : Scalar) (b : Bytes) (p : Val) : Except Fault DRes :=
  match p with
  | .opt _ v => do
    let r ← decodeScalar s b v
    return r.wrap (Val.opt true)
  | _ => .error .confused

/-- normal_codec.go:48-54 `sizeOfBytes`. -/
def sizeOfBytes (p : Val) (f : FTag) : Except Fault Nat := do
  match ← readBytes p with
  | some v => return sizeOfVarlen v.length + f.tagsize
  | none => return 0

/-- normal_codec.go:56-64 `encodeBytes`. -/
def encodeBytes (b : Bytes) (p : Val) (f : FTag) : Except Fault Bytes := do
  match ← readBytes p with
  | some v =>
    let b := appendVarint b f.wiretag
    let b := appendVarint b (len64 v)
    return b ++ v
  | none => return b

/-- normal_codec.go:66-74 `decodeBytes`: the previous contents are dropped (`(*pb)[:0]`) and replaced; the slice
is non-nil afterwards, also on error. Reuse of the backing array is modelled in `Model/Heap.lean`. -/
def decodeBytes (b : Bytes) (p : Val) : Except Fault DRes := do
  let (v, n, err) ← decodeVarlen b
  match p with
  | .bytes _ => return DRes.mk (.bytes (some v)) n err
  | _ => .error .confused

end Pb
