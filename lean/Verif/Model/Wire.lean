/-
Wire primitives: proto/encode.go, proto/decode.go, proto/size.go.
-/
namespace Pb

/-- A Go `byte`. -/
abbrev Byte := BitVec 8
/-- A Go `[]byte` as a value (contents only). -/
abbrev Bytes := List Byte
/-- A Go `uint64` (also `int64`, as its two's complement bits). -/
abbrev U64 := BitVec 64
/-- A Go `uint32`/`int32`/`float32` (its bits). -/
abbrev U32 := BitVec 32

/-- Errors returned by the library.
* `unexpectedEOF`: `io.ErrUnexpectedEOF`
* `varintOverflow`: decode.go:16 `errVarintOverflow`
* `wireTypeUnknown`: error.go:9 `ErrWireTypeUnknown`
* `expectedWireType t`: struct.go:100 `fmt.Errorf("expected wire type %d", ...)`
* `field n t e`: error.go:23-29 `fieldError`, i.e. `*UnmarshalFieldError`. -/
inductive Err where
  | unexpectedEOF
  | varintOverflow
  | wireTypeUnknown
  | expectedWireType (t : Nat)
  | field (num : Nat) (wt : Nat) (e : Err)
deriving DecidableEq, Repr

/-- Ways in which the Go code would leave the defined world.
* `oob`: a slice expression or index out of range (run-time panic)
* `confused`: memory accessed through `unsafe.Pointer` at a type it does not have
* `panic`: an explicit `panic` call, a nil dereference or a misuse of package reflect that panics
* `depth`: the model's recursion bound was too small (artefact of the model, proved unreachable). -/
inductive Fault where
  | oob
  | confused
  | panic
  | depth
deriving DecidableEq, Repr

/-! ### encode.go -/

/-- encode.go:7-9 `encodeZigZag64`. `v` holds the bits of the `int64`; `v>>63` on `int64` is
the arithmetic shift. -/
def encodeZigZag64 (v : U64) : U64 := (v <<< 1) ^^^ (v.sshiftRight 63)

/-- One continuation byte `byte((v>>s)&0x7f|0x80)` as written throughout encode.go:13-91. -/
def contByte (v : U64) (s : Nat) : Byte := (((v >>> s) &&& 0x7f#64) ||| 0x80#64).setWidth 8

/-- One final byte `byte(v>>s)` as written throughout encode.go:13-91. -/
def lastByte (v : U64) (s : Nat) : Byte := (v >>> s).setWidth 8

/-- encode.go:13-91 `appendVarint`, one branch per `case`. -/
def appendVarint (b : Bytes) (v : U64) : Bytes :=
  if v < 1#64 <<< 7 then
    b ++ [v.setWidth 8]
  else if v < 1#64 <<< 14 then
    b ++ [contByte v 0, lastByte v 7]
  else if v < 1#64 <<< 21 then
    b ++ [contByte v 0, contByte v 7, lastByte v 14]
  else if v < 1#64 <<< 28 then
    b ++ [contByte v 0, contByte v 7, contByte v 14, lastByte v 21]
  else if v < 1#64 <<< 35 then
    b ++ [contByte v 0, contByte v 7, contByte v 14, contByte v 21, lastByte v 28]
  else if v < 1#64 <<< 42 then
    b ++ [contByte v 0, contByte v 7, contByte v 14, contByte v 21, contByte v 28, lastByte v 35]
  else if v < 1#64 <<< 49 then
    b ++ [contByte v 0, contByte v 7, contByte v 14, contByte v 21, contByte v 28, contByte v 35,
      lastByte v 42]
  else if v < 1#64 <<< 56 then
    b ++ [contByte v 0, contByte v 7, contByte v 14, contByte v 21, contByte v 28, contByte v 35,
      contByte v 42, lastByte v 49]
  else if v < 1#64 <<< 63 then
    b ++ [contByte v 0, contByte v 7, contByte v 14, contByte v 21, contByte v 28, contByte v 35,
      contByte v 42, contByte v 49, lastByte v 56]
  else
    b ++ [contByte v 0, contByte v 7, contByte v 14, contByte v 21, contByte v 28, contByte v 35,
      contByte v 42, contByte v 49, contByte v 56, 1#8]

/-- encode.go:93-95 `appendVarintZigZag`. -/
def appendVarintZigZag (b : Bytes) (v : U64) : Bytes := appendVarint b (encodeZigZag64 v)

/-- encode.go:97-103 `encodeLE32`. -/
def encodeLE32 (b : Bytes) (v : U32) : Bytes :=
  b ++ [(v >>> 0).setWidth 8, (v >>> 8).setWidth 8, (v >>> 16).setWidth 8, (v >>> 24).setWidth 8]

/-- encode.go:105-115 `encodeLE64`. -/
def encodeLE64 (b : Bytes) (v : U64) : Bytes :=
  b ++ [(v >>> 0).setWidth 8, (v >>> 8).setWidth 8, (v >>> 16).setWidth 8, (v >>> 24).setWidth 8,
    (v >>> 32).setWidth 8, (v >>> 40).setWidth 8, (v >>> 48).setWidth 8, (v >>> 56).setWidth 8]

/-- encode.go:117-119 `appendTag`. -/
def appendTag (b : Bytes) (f : U64) (t : U64) : Bytes := appendVarint b ((f <<< 3) ||| t)

/-! ### size.go -/

/-- `math/bits.Len64`: the number of bits needed to represent `v` (standard library; specified as
the least `n ≤ 64` with `v < 2^n`, computed here by counting down). -/
def bitsLen64 (v : U64) : Nat := go 64 v
where
  /-- scan from the top bit down -/
  go : Nat → U64 → Nat
    | 0, _ => 0
    | n + 1, v => if v.getLsbD n then n + 1 else go n v

/-- size.go:10-15 `sizeOfVarint`: `int(9*uint32(bits.Len64(v))+64) / 64`. The `uint32`
arithmetic cannot wrap (`9*64+64 < 2^32`), so `Nat` is used. -/
def sizeOfVarint (v : U64) : Nat := (9 * bitsLen64 v + 64) / 64

/-- size.go:17-19 `sizeOfVarlen`; `uint64(n)` of an `int`. -/
def sizeOfVarlen (n : Nat) : Nat := sizeOfVarint (BitVec.ofNat 64 n) + n

/-! ### decode.go -/

/-- decode.go:10-12 `decodeZigZag64`: `int64(v>>1) ^ -(int64(v) & 1)`. -/
def decodeZigZag64 (v : U64) : U64 := (v >>> 1) ^^^ (-(v &&& 1#64))

/-- decode.go:27-42, the loop `for i, c := range b` and what follows it.
`x`, `s` are the Go variables, `i` the index of the head of the list. Shifts by 64 or more give 0 in
Go and in `BitVec`. On exhaustion the Go code returns `len(b)`, which is `i` there. -/
def decodeVarintLoop (x : U64) (s : Nat) (i : Nat) : Bytes → U64 × Nat × Option Err
  | [] => (x, i, some .unexpectedEOF)
  | c :: cs =>
    if c < 0x80#8 then
      if i > 9 || (i == 9 && c > 1#8) then
        (0#64, i, some .varintOverflow)
      else
        (x ||| (c.setWidth 64 <<< s), i + 1, none)
    else
      decodeVarintLoop (x ||| ((c &&& 0x7f#8).setWidth 64 <<< s)) (s + 7) (i + 1) cs

/-- decode.go:18-42 `decodeVarint`, including the one-byte fast path at 19-25. -/
def decodeVarint (b : Bytes) : U64 × Nat × Option Err :=
  match b with
  | [] => decodeVarintLoop 0#64 0 0 b
  | c :: _ =>
    if c < 0x80#8 then (c.setWidth 64, 1, none)
    else decodeVarintLoop 0#64 0 0 b

/-- decode.go:44-47 `decodeVarintZigZag`. -/
def decodeVarintZigZag (b : Bytes) : U64 × Nat × Option Err :=
  match decodeVarint b with
  | (v, n, err) => (decodeZigZag64 v, n, err)

/-- `binary.LittleEndian.Uint32` (standard library) on at least four bytes. -/
def leUint32 (b0 b1 b2 b3 : Byte) : U32 :=
  b0.setWidth 32 ||| (b1.setWidth 32 <<< 8) ||| (b2.setWidth 32 <<< 16) ||| (b3.setWidth 32 <<< 24)

/-- `binary.LittleEndian.Uint64` (standard library) on at least eight bytes. -/
def leUint64 (b0 b1 b2 b3 b4 b5 b6 b7 : Byte) : U64 :=
  b0.setWidth 64 ||| (b1.setWidth 64 <<< 8) ||| (b2.setWidth 64 <<< 16) ||| (b3.setWidth 64 <<< 24)
  ||| (b4.setWidth 64 <<< 32) ||| (b5.setWidth 64 <<< 40) ||| (b6.setWidth 64 <<< 48)
  ||| (b7.setWidth 64 <<< 56)

/-- decode.go:49-54 `decodeLE32`. -/
def decodeLE32 (b : Bytes) : U32 × Nat × Option Err :=
  match b with
  | b0 :: b1 :: b2 :: b3 :: _ => (leUint32 b0 b1 b2 b3, 4, none)
  | _ => (0#32, 0, some .unexpectedEOF)

/-- decode.go:56-61 `decodeLE64`. -/
def decodeLE64 (b : Bytes) : U64 × Nat × Option Err :=
  match b with
  | b0 :: b1 :: b2 :: b3 :: b4 :: b5 :: b6 :: b7 :: _ => (leUint64 b0 b1 b2 b3 b4 b5 b6 b7, 8, none)
  | _ => (0#64, 0, some .unexpectedEOF)

/-- decode.go:63-66 `decodeTag`: (field number, wire type, n, err). The two unsigned Go types
`fieldNumber` and `wireType` (proto.go:76,78) become `Nat`. -/
def decodeTag (b : Bytes) : Nat × Nat × Nat × Option Err :=
  match decodeVarint b with
  | (v, n, err) => ((v >>> 3).toNat, (v &&& 7#64).toNat, n, err)

/-- A Go slice expression `b[i:j]` on a slice with `len(b) = cap(b)` as far as the model knows:
out of range is a panic. (Go permits `j` up to the capacity; requiring `j ≤ len` is stricter, so
proving the absence of `oob` here is at least as strong.) -/
def goSlice (b : Bytes) (i j : Nat) : Except Fault Bytes :=
  if i ≤ j ∧ j ≤ b.length then .ok ((b.take j).drop i) else .error .oob

/-- A Go slice expression `b[i:]`. -/
def goFrom (b : Bytes) (i : Nat) : Except Fault Bytes :=
  if i ≤ b.length then .ok (b.drop i) else .error .oob

/-- decode.go:68-77 `decodeVarlen`: (contents, n, err); contents is `nil` (here `[]`) on error. -/
def decodeVarlen (b : Bytes) : Except Fault (Bytes × Nat × Option Err) :=
  match decodeVarint b with
  | (v, n, err) =>
    match err with
    | some e => .ok ([], n, some e)
    | none =>
      if v.toNat > b.length - n then .ok ([], n, some .unexpectedEOF)
      else do
        let d ← goSlice b n (n + v.toNat)
        return (d, n + v.toNat, none)

end Pb
