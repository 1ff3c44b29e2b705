import Verif.Model.Api
import Verif.Spec.Typing
/-
The codecs on raw memory. `Model/Codec.lean` gives every codec a typed slot (`Val`) to work on; the code has an
`unsafe.Pointer` instead and reaches everything else by pointer arithmetic. Here memory consists of allocations that hold
single bytes, a pointer is an allocation and a byte offset, and every access names its address, its width and its alignment:
proto/struct.go:31-33 `structField.pointer`, internal/runtime_reflect/slice.go, internal/runtime_reflect/map.go,
proto/option.go:7-10, 46-48, proto/slice.go, proto/map.go, proto/walker.go:88-118, 280-371.

Simplifications:
* The runtime's part of a word is symbolic: a byte of memory holds either a number below 256 or the `k`-th byte of a pointer or
  of an `int`. Reading a pointer yields a pointer only if all eight bytes are those of the same pointer, in order.
* A map is an allocation of its own kind, whose entries point to the memory of their key and of their value (`mapassign`,
  `mapiterinit` of the runtime); the order of the entries is some iteration order.
* Nothing is ever freed or moved.
* The input of decode functions is a list of bytes outside of this memory (see `Model/Heap.lean` for their overlap).
* The scratch entry of a map decode is a new one each time (see `Model/Pool.lean`).
-/
namespace Pb.Flat

/-- A pointer: the number of an allocation and an offset in bytes. -/
structure Addr where
  blk : Nat
  off : Nat
deriving DecidableEq, Repr

/-- `unsafe.Pointer(uintptr(p) + n)` -/
def Addr.add (a : Addr) (n : Nat) : Addr := ⟨a.blk, a.off + n⟩

/-- One byte of memory. -/
inductive Cell where
  | byte (x : Byte)
  /-- byte `k` of a pointer other than nil -/
  | ptr (a : Addr) (k : Nat)
  /-- byte `k` of an `int` other than 0 -/
  | int (n : Nat) (k : Nat)
deriving DecidableEq, Repr

/-- An allocation. -/
inductive Obj where
  /-- memory -/
  | mem (cs : List Cell)
  /-- the bytes of strings, never written -/
  | ro (s : Bytes)
  /-- a map: for each entry, the allocations of its key and its value -/
  | map (es : List (Nat × Nat))
deriving DecidableEq, Repr

/-- All allocations so far. -/
abbrev Mem := List Obj

/-- Zeroed memory. -/
def zeroCells (n : Nat) : List Cell := List.replicate n (.byte 0#8)

/-- The eight bytes of a pointer; nil is zero. -/
def ptrCells : Option Addr → List Cell
  | none => zeroCells 8
  | some a => (List.range 8).map (Cell.ptr a)

/-- The eight bytes of an `int`. -/
def intCells (n : Nat) : List Cell := if n = 0 then zeroCells 8 else (List.range 8).map (Cell.int n)

/-- The memory of some bytes. -/
def byteCells (s : Bytes) : List Cell := s.map .byte

/-- The memory of a `bool`. -/
def boolCells (x : Bool) : List Cell := [.byte (if x then 1#8 else 0#8)]

/-- The bytes in cells that hold numbers only. -/
def asBytes : List Cell → Option Bytes
  | [] => some []
  | .byte x :: cs => (asBytes cs).map (x :: ·)
  | _ :: _ => none

/-- The pointer in eight cells. -/
def asPtr (cs : List Cell) : Option (Option Addr) :=
  if cs = ptrCells none then some none
  else
    match cs with
    | .ptr a _ :: _ => if cs = ptrCells (some a) then some (some a) else none
    | _ => none

/-- The `int` in eight cells. -/
def asInt (cs : List Cell) : Option Nat :=
  if cs = intCells 0 then some 0
  else
    match cs with
    | .int n _ :: _ => if cs = intCells n then some n else none
    | _ => none

/-- Loads `n` bytes at an address aligned to `al`. A misaligned access or one outside of the allocation faults. -/
def load (m : Mem) (a : Addr) (n al : Nat) : Except Fault (List Cell) :=
  if a.off % al ≠ 0 then .error .oob
  else
    match m[a.blk]? with
    | some (.mem cs) => if a.off + n ≤ cs.length then .ok ((cs.drop a.off).take n) else .error .oob
    | _ => .error .oob

/-- Replaces the cells from `o` on by `new`. -/
def splice (cs : List Cell) (o : Nat) (new : List Cell) : List Cell :=
  cs.take o ++ new ++ cs.drop (o + new.length)

/-- Stores cells at an address aligned to `al`. -/
def store (m : Mem) (a : Addr) (new : List Cell) (al : Nat) : Except Fault Mem :=
  if a.off % al ≠ 0 then .error .oob
  else
    match m[a.blk]? with
    | some (.mem cs) =>
      if a.off + new.length ≤ cs.length then .ok (m.set a.blk (.mem (splice cs a.off new))) else .error .oob
    | _ => .error .oob

/-- What is not of the type it is loaded as. -/
def typed {α} : Option α → Except Fault α
  | some x => .ok x
  | none => .error .confused

/-- `*(*unsafe.Pointer)(p)`, walker.go:280-282 `deref` -/
def loadPtr (m : Mem) (a : Addr) : Except Fault (Option Addr) := do typed (asPtr (← load m a 8 8))

/-- `*(*int)(p)` -/
def loadInt (m : Mem) (a : Addr) : Except Fault Nat := do typed (asInt (← load m a 8 8))

/-- `*(*uint32)(p)` and the like -/
def load32 (m : Mem) (a : Addr) : Except Fault U32 := do
  let bs ← typed (asBytes (← load m a 4 4))
  return (decodeLE32 bs).1

/-- `*(*uint64)(p)` and the like -/
def load64 (m : Mem) (a : Addr) : Except Fault U64 := do
  let bs ← typed (asBytes (← load m a 8 8))
  return (decodeLE64 bs).1

/-- `*(*bool)(p)` -/
def loadBool (m : Mem) (a : Addr) : Except Fault Bool := do
  let bs ← typed (asBytes (← load m a 1 1))
  return bs != [0#8]

/-- `n` bytes at an address, of a string or of a `[]byte`. -/
def loadData (m : Mem) (a : Addr) (n : Nat) : Except Fault Bytes :=
  match m[a.blk]? with
  | some (.ro s) => if a.off + n ≤ s.length then .ok ((s.drop a.off).take n) else .error .oob
  | some (.mem _) => do typed (asBytes (← load m a n 1))
  | _ => .error .oob

/-- `*(*string)(p)`: the header is a pointer and a length, followed by the bytes. -/
def loadStr (m : Mem) (a : Addr) : Except Fault Bytes := do
  let d ← loadPtr m a
  let n ← loadInt m (a.add 8)
  if n = 0 then return []
  match d with
  | none => .error .panic
  | some d => loadData m d n

/-- `*(*[]byte)(p)`: nil, or the bytes. -/
def loadBytes (m : Mem) (a : Addr) : Except Fault (Option Bytes) := do
  let d ← loadPtr m a
  let n ← loadInt m (a.add 8)
  match d with
  | none => return none
  | some d => return some (← loadData m d n)

/-- Loads a scalar of the Go type with the given shape. -/
def loadVal (m : Mem) (a : Addr) : Shape → Except Fault Val
  | .b8 => do return .b8 (← loadBool m a)
  | .w32 => do return .w32 (← load32 m a)
  | .w64 => do return .w64 (← load64 m a)
  | .str => do return .str (← loadStr m a)
  | _ => .error .confused

/-- A new allocation. -/
def alloc (m : Mem) (o : Obj) : Addr × Mem := (⟨m.length, 0⟩, m ++ [o])

/-- Stores a scalar. A string is a new allocation of its bytes (`string(v)`, normal_codec.go:106), unless it is empty. -/
def storeVal (m : Mem) (a : Addr) : Val → Except Fault Mem
  | .b8 x => store m a (boolCells x) 1
  | .w32 x => store m a (byteCells (encodeLE32 [] x)) 4
  | .w64 x => store m a (byteCells (encodeLE64 [] x)) 8
  | .str [] => store m a (ptrCells none ++ intCells 0) 8
  | .str s =>
    match alloc m (.ro s) with
    | (d, m) => store m a (ptrCells (some d) ++ intCells s.length) 8
  | _ => .error .confused

/-! ### Sizes and offsets of Go types -/

/-- slice.go:83-88 `align` -/
def alignUp (align size : Nat) : Nat :=
  if align ≠ 0 ∧ size % align ≠ 0 then (size / align + 1) * align else size

/-- `t.Align()` on a 64-bit platform. -/
def _root_.Pb.Shape.align : Shape → Nat
  | .b8 | .opaque => 1
  | .w32 => 4
  | .opt s => s.align
  | _ => 8

/-- option.go:46-48: the offset of the field `value` in `Option[T]`, after a `bool`. -/
def optOff (s : Shape) : Nat := alignUp s.align 1

/-- `t.Size()` on a 64-bit platform. Of memory the library never looks at, nothing counts. -/
def _root_.Pb.Shape.size : Shape → Nat
  | .b8 => 1
  | .w32 => 4
  | .w64 => 8
  | .str => 16
  | .bytes | .slice _ => 24
  | .opt s => alignUp s.align (optOff s + s.size)
  | .ptr _ | .msg _ | .map _ _ => 8
  | .opaque => 0

/-- slice.go:77-81 `alignedSize` -/
def alignedSize (s : Shape) : Nat := alignUp s.align s.size

/-- Where the fields of the struct types lie (`reflect.StructField.Offset`, walker.go:253), and `t.Size()` of the struct types. -/
structure Lay where
  slots : TypeId → List (Nat × Shape)
  size : TypeId → Nat

/-- The byte offset of field `i` of `t`: struct.go:17 `offset`. -/
def Lay.off (lay : Lay) (t : TypeId) (i : Nat) : Nat :=
  match (lay.slots t)[i]? with
  | some s => s.1
  | none => 0

/-- map.go:112 `valueOffset`: the offset of the second field of `struct { Key K; Elem V }`. -/
def valueOffset (k v : Shape) : Nat := alignUp v.align k.size

/-- map.go:101-104: the size of `struct { Key K; Elem V }`. -/
def entrySize (k v : Shape) : Nat := alignUp (max k.align v.align) (valueOffset k v + v.size)

/-! ### size -/

/-- The scalar size functions of normal_codec.go (`sizeNormal`): they load the value. -/
def sizeNormalF (m : Mem) (s : Scalar) (a : Addr) (f : FTag) : Except Fault Nat := do
  sizeNormal s (← loadVal m a s.shape) f

/-- The scalar size functions of required_codec.go (`sizeRequired`): those of fixed width do not touch the memory. -/
def sizeRequiredF (m : Mem) (s : Scalar) (a : Addr) (f : FTag) : Except Fault Nat :=
  match s with
  | .bool | .float32 | .float64 | .fixed32 | .fixed64 => sizeRequired s (.opaque 0) f
  | s => do sizeRequired s (← loadVal m a s.shape) f

/-- runtime_reflect/slice.go:25-27 `Slice.Index` -/
def index (d : Option Addr) (i elemSize : Nat) : Except Fault Addr :=
  match d with
  | some d => .ok (d.add (i * elemSize))
  | none => .error .panic

/-- `mapiterinit`, `mapiternext`: the entries of a map; none if it is nil. -/
def mapEntries (m : Mem) (p : Option Addr) : Except Fault (List (Nat × Nat)) :=
  match p with
  | none => .ok []
  | some p =>
    match m[p.blk]? with
    | some (.map es) => if p.off = 0 then .ok es else .error .oob
    | _ => .error .oob

/-- Size functions of all codecs, as `codecSize`. -/
def codecSizeF (m : Mem) (rec : TypeId → Addr → Except Fault Nat) : Codec → Addr → FTag → Except Fault Nat
  | .normal s, a, f => sizeNormalF m s a f
  | .required s, a, f => sizeRequiredF m s a f
  | .option s, a, f => do
    if ← loadBool m a then sizeRequiredF m s (a.add (optOff s.shape)) f else return 0
  | .bytes, a, f => do sizeOfBytes (.bytes (← loadBytes m a)) f
  | .ptr _ c, a, f => do
    match ← loadPtr m a with
    | none => return 0
    | some p => codecSizeF m rec c p f
  | .msg t, a, f => do
    match ← loadPtr m a with
    | none => return 0
    | some p =>
      let n ← rec t p
      return n + (sizeOfVarint (BitVec.ofNat 64 n) + f.tagsize)
  | .slice _ c, a, f => do
    let d ← loadPtr m a
    let n ← loadInt m (a.add 8)
    sumSizes (fun i => do codecSizeF m rec c (← index d i (alignedSize c.shape)) f) 0 (List.range n)
  | .map i kc vc _ _, a, _ => do
    let p ← loadPtr m a
    let mapTagSize := sizeOfVarint i.wiretag
    let n ← sumSizes (fun (e : Nat × Nat) => do
      let keySize ← codecSizeF m rec kc ⟨e.1, 0⟩ i.key
      let valSize ← codecSizeF m rec vc ⟨e.2, 0⟩ i.val
      return mapTagSize + sizeOfVarint (BitVec.ofNat 64 (keySize + valSize)) + keySize + valSize) 0 (← mapEntries m p)
    if n = 0 then return mapTagSize + 1
    return n

/-- struct.go:35-44 `structInfo.size`; `off` gives the byte offsets of the fields (struct.go:31-33 `f.pointer(p)`). -/
def structSizeF (size : Codec → Addr → FTag → Except Fault Nat) (off : Nat → Nat) (fields : List Field) (a : Addr) :
    Except Fault Nat :=
  sumSizes (fun (f : Field) => size f.codec (a.add (off f.offset)) f.tag) 0 fields

/-- `info.size` with recursion depth at most `d`, as `sizeMsg`. -/
def sizeMsgF (lay : Lay) (env : Env) (m : Mem) : Nat → TypeId → Addr → Except Fault Nat
  | 0, _, _ => .error .depth
  | d + 1, t, a => structSizeF (codecSizeF m (sizeMsgF lay env m d)) (lay.off t) (env t).fields a

/-! ### encode -/

/-- Encode functions of all codecs, as `codecEncode`. -/
def codecEncodeF (m : Mem) (sz : TypeId → Addr → Except Fault Nat) (rec : TypeId → Bytes → Addr → Except Fault Bytes) :
    Codec → Bytes → Addr → FTag → Except Fault Bytes
  | .normal s, b, a, f => do encodeNormal s b (← loadVal m a s.shape) f
  | .required s, b, a, f => do encodeRequired s b (← loadVal m a s.shape) f
  | .option s, b, a, f => do
    if ← loadBool m a then encodeRequired s b (← loadVal m (a.add (optOff s.shape)) s.shape) f else return b
  | .bytes, b, a, f => do encodeBytes b (.bytes (← loadBytes m a)) f
  | .ptr _ c, b, a, f => do
    match ← loadPtr m a with
    | none => return b
    | some p => codecEncodeF m sz rec c b p f
  | .msg t, b, a, f => do
    match ← loadPtr m a with
    | none => return b
    | some p =>
      let b := appendVarint b f.wiretag
      let n ← sz t p
      let b := appendVarint b (BitVec.ofNat 64 n)
      rec t b p
  | .slice _ c, b, a, f => do
    let d ← loadPtr m a
    let n ← loadInt m (a.add 8)
    appendAll (fun b i => do codecEncodeF m sz rec c b (← index d i (alignedSize c.shape)) f) b (List.range n)
  | .map i kc vc _ _, b, a, _ => do
    let p ← loadPtr m a
    let mapTag := appendVarint [] i.wiretag
    let zero := mapTag ++ [0#8]
    let origLen := b.length
    let b ← appendAll (fun b (e : Nat × Nat) => do
      let keySize ← codecSizeF m sz kc ⟨e.1, 0⟩ i.key
      let valSize ← codecSizeF m sz kc ⟨e.2, 0⟩ i.val  -- map.go:80, sic
      let elemSize := keySize + valSize
      let b := b ++ mapTag
      let b := appendVarint b (BitVec.ofNat 64 elemSize)
      let b ← codecEncodeF m sz rec kc b ⟨e.1, 0⟩ i.key
      codecEncodeF m sz rec vc b ⟨e.2, 0⟩ i.val) b (← mapEntries m p)
    if b.length = origLen then return b ++ zero
    return b

/-- struct.go:46-54 `structInfo.encode`. -/
def structEncodeF (enc : Codec → Bytes → Addr → FTag → Except Fault Bytes) (off : Nat → Nat) (fields : List Field)
    (b : Bytes) (a : Addr) : Except Fault Bytes :=
  appendAll (fun b (f : Field) => enc f.codec b (a.add (off f.offset)) f.tag) b fields

/-- `info.encode` with recursion depth at most `d`, as `encodeMsg`. -/
def encodeMsgF (lay : Lay) (env : Env) (m : Mem) : Nat → TypeId → Bytes → Addr → Except Fault Bytes
  | 0, _, _, _ => .error .depth
  | d + 1, t, b, a =>
    structEncodeF (codecEncodeF m (sizeMsgF lay env m d) (encodeMsgF lay env m d)) (lay.off t) (env t).fields b a

/-! ### decode -/

/-- What a decode function returns: the count or the error (see `DRes`), and the memory afterwards. -/
structure Res where
  mem : Mem
  out : Except Err Nat

/-- Go `return n, err` -/
def Res.mk' (m : Mem) (n : Nat) : Option Err → Res
  | none => ⟨m, .ok n⟩
  | some e => ⟨m, .error e⟩

/-- A decode function: input, memory, address. -/
abbrev DecF := Bytes → Mem → Addr → Except Fault Res

/-- The scalar decode functions, as `decodeScalar`: they store what they have read (`decodeBool` on no input returns before,
normal_codec.go:35-37). -/
def decodeScalarF (s : Scalar) : DecF := fun b m a =>
  if s = .bool ∧ b = [] then .ok ⟨m, .error .unexpectedEOF⟩
  else do
    match ← decodeScalar s b s.shape.zero with
    | .ok v n => return ⟨← storeVal m a v, .ok n⟩
    | .err v e => return ⟨← storeVal m a v, .error e⟩

/-- option_codec.go: `decode*Option`: `v.some = true`, then decode into `value`. -/
def decodeOptionF (s : Scalar) : DecF := fun b m a => do
  let m ← store m a (boolCells true) 1
  decodeScalarF s b m (a.add (optOff s.shape))

/-- The memory of a slice header (runtime_reflect/slice.go:5-9). -/
def sliceCells (d : Option Addr) (len cap : Nat) : List Cell := ptrCells d ++ (intCells len ++ intCells cap)

/-- `append(h[:0], v...)` for the `[]byte` at `a`: in place if the capacity suffices, else in a new array, whose capacity
`append` chooses. -/
def appendBytes (grow : Nat → Nat → Nat) (m : Mem) (a : Addr) (v : Bytes) : Except Fault Mem := do
  let d ← loadPtr m a
  let cap ← loadInt m (a.add 16)
  if v.length ≤ cap then
    match d with
    | none => .error .panic
    | some d =>
      let m ← store m d (byteCells v) 1
      store m a (sliceCells (some d) v.length cap) 8
  else
    match alloc m (.mem (byteCells v ++ zeroCells (grow cap v.length - v.length))) with
    | (d, m) => store m a (sliceCells (some d) v.length (grow cap v.length)) 8

/-- normal_codec.go:66-74 `decodeBytes`. -/
def decodeBytesF (grow : Nat → Nat → Nat) : DecF := fun b m a => do
  let (v, n, err) ← decodeVarlen b
  match ← loadPtr m a with
  | none =>
    match alloc m (.mem (zeroCells v.length)) with
    | (d, m) =>
      let m ← store m a (sliceCells (some d) 0 v.length) 8
      let m ← appendBytes grow m a v
      return Res.mk' m n err
  | some _ =>
    let m ← appendBytes grow m a v
    return Res.mk' m n err

/-- What `structInfo.decode` uses of a field (see `DField`); `off` is the byte offset. -/
structure DFieldF where
  num : Nat
  wt : Nat
  off : Nat
  dec : DecF

/-- struct.go:13 and walker.go:269-272, as `fieldIndex`. -/
def fieldIndexF (fields : List DFieldF) : Nat → Option DFieldF :=
  fields.foldl (fun m f => fun n => if n = f.num then some f else m n) (fun _ => none)

/-- struct.go:56-149 `structInfo.decode`, as `structLoop`; `a` is the address of the struct. -/
def structLoopF (idx : Nat → Option DFieldF) (b : Bytes) (a : Addr) : Nat → Nat → Mem → Except Fault Res
  | fuel, offset, m =>
    if offset < b.length then
      match fuel with
      | 0 => .error .depth
      | fuel + 1 => do
        let (num, wt, n, err) := decodeTag (← goFrom b offset)
        let offset := offset + n
        match err with
        | some e => return ⟨m, .error e⟩
        | none =>
          match idx num with
          | none =>
            let (offset, err) ← skipUnknown b offset wt
            match err with
            | some e => return ⟨m, .error (.field num wt e)⟩
            | none => structLoopF idx b a fuel offset m
          | some f =>
            if wt ≠ f.wt then
              return ⟨m, .error (.field num wt (.expectedWireType f.wt))⟩
            else
              match ← fieldData b offset wt with
              | .error e => return ⟨m, .error (.field num wt e)⟩
              | .ok data => do
                match ← f.dec data m (a.add f.off) with
                | ⟨m, .ok n⟩ => structLoopF idx b a fuel (offset + n) m
                | ⟨m, .error e⟩ => return ⟨m, .error (.field num wt e)⟩
    else return ⟨m, .ok offset⟩

/-- struct.go:56-149 `structInfo.decode`. -/
def structDecodeF (fields : List DFieldF) : DecF := fun b m a =>
  structLoopF (fieldIndexF fields) b a b.length 0 m

/-- runtime_reflect/map.go:25-27, runtime `typedmemmove`: copies a value of `n` bytes. -/
def assign (m : Mem) (dst src : Addr) (n al : Nat) : Except Fault Mem := do
  let cs ← load m src n al
  store m dst cs al

/-- slice.go:90-99 `growSlice`: a zeroed array of twice the capacity (10 if it was 0), runtime `newarray`, with the elements
copied, runtime `typedslicecopy`; the header at `a` is replaced (slice.go:66). -/
def growSliceF (m : Mem) (a : Addr) (elemSize al : Nat) : Except Fault Mem := do
  let d ← loadPtr m a
  let len ← loadInt m (a.add 8)
  let cap ← loadInt m (a.add 16)
  let cap := 2 * cap
  let cap := if cap = 0 then 10 else cap
  match alloc m (.mem (zeroCells (cap * elemSize))) with
  | (nd, m) =>
    let m ← match d with
      | none => pure m
      | some d => assign m nd d (len * elemSize) al
    store m a (sliceCells (some nd) len cap) 8

/-- map.go:118-121: a new map if the pointer is nil. -/
def makeMapF (m : Mem) (a : Addr) : Except Fault Mem := do
  match ← loadPtr m a with
  | none =>
    match alloc m (.map []) with
    | (p, m) => store m a (ptrCells (some p)) 8
  | some _ => return m

/-- Looks for a key among the entries of a map. -/
def findKey (m : Mem) (ks : Shape) (k : Key) : List (Nat × Nat) → Except Fault (Option Nat)
  | [] => .ok none
  | e :: es => do
    match (← loadVal m ⟨e.1, 0⟩ ks).toKey? with
    | none => .error .confused
    | some k' => if k' = k then return some e.2 else findKey m ks k es

/-- Runtime `mapassign`: the address of the value for the key at `ka`; a new entry has a copy of the key and a zeroed value. -/
def mapAssignF (m : Mem) (ks vs : Shape) (p : Option Addr) (ka : Addr) : Except Fault (Addr × Mem) := do
  match p with
  | none => .error .panic
  | some p =>
    let es ← mapEntries m (some p)
    match (← loadVal m ka ks).toKey? with
    | none => .error .confused
    | some k =>
      match ← findKey m ks k es with
      | some vb => return (⟨vb, 0⟩, m)
      | none =>
        let kcs ← load m ka ks.size ks.align
        let kb := m.length
        let vb := m.length + 1
        return (⟨vb, 0⟩, (m ++ [Obj.mem kcs, Obj.mem (zeroCells vs.size)]).set p.blk (.map (es ++ [(kb, vb)])))

/-- Decode functions of all codecs, as `codecDecode`. `msgSize` is `t.Size()` of the struct types, for `reflect.New`. -/
def codecDecodeF (grow : Nat → Nat → Nat) (msgSize : TypeId → Nat) (rec : TypeId → DecF) : Codec → DecF
  | .normal s => decodeScalarF s
  | .required s => decodeScalarF s
  | .option s => decodeOptionF s
  | .bytes => decodeBytesF grow
  | .ptr _ c => fun b m a => do
    match ← loadPtr m a with
    | none =>
      match alloc m (.mem (zeroCells c.shape.size)) with
      | (p, m) =>
        let m ← store m a (ptrCells (some p)) 8
        codecDecodeF grow msgSize rec c b m p
    | some p => codecDecodeF grow msgSize rec c b m p
  | .msg t => fun b m a => do
    let (p, m) ← (do
      match ← loadPtr m a with
      | none =>
        match alloc m (.mem (zeroCells (msgSize t))) with
        | (p, m) => return (p, ← store m a (ptrCells (some p)) 8)
      | some p => return (p, m) : Except Fault (Addr × Mem))
    let (_, n, err) := decodeVarint b
    match err with
    | some e => return ⟨m, .error e⟩
    | none =>
      match ← rec t (← goFrom b n) m p with
      | ⟨m, .ok l⟩ => return ⟨m, .ok (n + l)⟩
      | ⟨m, .error e⟩ => return ⟨m, .error e⟩
  | .slice _ c => fun b m a => do
    let i ← loadInt m (a.add 8)
    let cap ← loadInt m (a.add 16)
    let m ← if i = cap then growSliceF m a (alignedSize c.shape) c.shape.align else pure m
    let d ← loadPtr m a
    match ← codecDecodeF grow msgSize rec c b m (← index d i (alignedSize c.shape)) with
    | ⟨m, .ok n⟩ => return ⟨← store m (a.add 8) (intCells (i + 1)) 8, .ok n⟩
    | ⟨m, .error e⟩ => return ⟨m, .error e⟩
  | .map i kc vc kd vd => fun b m a => do
    let m ← makeMapF m a
    if b = [] then return ⟨m, .ok 0⟩
    match alloc m (.mem (zeroCells (entrySize kc.shape vc.shape))) with
    | (s, m) =>
      let (_, nl, err) := decodeVarint b
      match err with
      | some e => return ⟨m, .error e⟩
      | none =>
        let voff := valueOffset kc.shape vc.shape
        let entry : List DFieldF :=
          [{ num := wtNumber i.eKey, wt := wtType i.eKey, off := 0, dec := codecDecodeF grow msgSize rec kd },
           { num := wtNumber i.eVal, wt := wtType i.eVal, off := voff, dec := codecDecodeF grow msgSize rec vd }]
        match ← structDecodeF entry (← goFrom b nl) m s with
        | ⟨m, .ok n⟩ =>
          let p ← loadPtr m a
          let (v, m) ← mapAssignF m kc.shape vc.shape p s
          let m ← assign m v (s.add voff) vc.shape.size vc.shape.align
          let m ← store m s (zeroCells (entrySize kc.shape vc.shape)) 1
          return ⟨m, .ok (n + nl)⟩
        | ⟨m, .error e⟩ =>
          let m ← store m s (zeroCells (entrySize kc.shape vc.shape)) 1
          return ⟨m, .error e⟩

/-- The decode view of the fields of a struct, as `dfields`. -/
def dfieldsF (grow : Nat → Nat → Nat) (lay : Lay) (rec : TypeId → DecF) (t : TypeId) (fields : List Field) : List DFieldF :=
  fields.map fun f =>
    { num := wtNumber f.tag.wiretag, wt := wtType f.tag.wiretag, off := lay.off t f.offset,
      dec := codecDecodeF grow lay.size rec f.codec }

/-- `info.decode` with recursion depth at most `d`, as `decodeMsg`. -/
def decodeMsgF (grow : Nat → Nat → Nat) (lay : Lay) (env : Env) : Nat → TypeId → DecF
  | 0, _ => fun _ _ _ => .error .depth
  | d + 1, t => structDecodeF (dfieldsF grow lay (decodeMsgF grow lay env d) t (env t).fields)

/-! ### API -/

/-- proto.go:25-35 `Marshal` of the message at `a`, with recursion depth at most `d`, as `marshal`. -/
def marshalF (lay : Lay) (env : Env) (m : Mem) (d : Nat) (t : TypeId) (a : Addr) : Except Fault Bytes := do
  let _n ← sizeMsgF lay env m d t a
  encodeMsgF lay env m d t [] a

/-- proto.go:37-61 `Unmarshal` into the message at `a`, as `unmarshal`. -/
def unmarshalF (grow : Nat → Nat → Nat) (lay : Lay) (env : Env) (b : Bytes) (t : TypeId) (m : Mem) (a : Addr) :
    Except Fault (Mem × Option ApiErr) :=
  if b.length = 0 then .ok (m, none)
  else do
    match ← decodeMsgF grow lay env (b.length + 1) t b m a with
    | ⟨m, .error e⟩ => return (m, some (.decode e))
    | ⟨m, .ok n⟩ => if n < b.length then return (m, some (.shortRead n b.length)) else return (m, none)

end Pb.Flat
