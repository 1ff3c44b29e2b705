import Verif.Model.Flat
/-
Goroutines that call Size, Marshal and Unmarshal concurrently, on one memory and with one set of scratch pools.

`Model/Flat.lean` runs one call at a time, and takes a new scratch struct for every map entry. Here a call is a program that
does one access to memory at a time, the accesses of all goroutines are interleaved in any order, scratch structs come from
and go back to pools (proto/map.go:126-141), and other code of the process may change whatever memory no call is using.
The programs are those of `Model/Flat.lean`, access by access (`Proofs/ConcSeq.lean`: run alone they do the same).
"As `f`" refers to the definition `f` there, where file and lines in /repo are given.

Simplifications, besides those of `Model/Flat.lean`:
* One access is the transfer of a whole word, string header or slice header, or a copy of bytes; the runtime's map
  operations are several: reading the entries, comparing with each key, allocating, adding an entry.
* The pools are told apart by the size of their structs only: decoders whose structs have the same size share a pool here.
  `Get` may return nil or any struct in the pool, so every execution with separate pools is one of those here.
* `append` of `encode` works on a private buffer.
-/
namespace Pb.Flat

/-- A program: one access to memory after the other. -/
inductive Act (α : Type) where
  | ret (x : α)
  | fail (f : Fault)
  /-- loads `n` bytes aligned to `al` -/
  | load (a : Addr) (n al : Nat) (k : List Cell → Act α)
  /-- stores bytes aligned to `al` -/
  | store (a : Addr) (cs : List Cell) (al : Nat) (k : Act α)
  /-- reads the bytes of a string or of a `[]byte` -/
  | data (a : Addr) (n : Nat) (k : Bytes → Act α)
  /-- allocates; the program gets the number of the allocation -/
  | alloc (o : Obj) (k : Nat → Act α)
  /-- runtime `mapiterinit` and `mapiternext`, and the search of `mapassign` -/
  | entries (a : Addr) (k : List (Nat × Nat) → Act α)
  /-- runtime `mapassign` of a new key -/
  | insert (b : Nat) (e : Nat × Nat) (k : Act α)
  /-- map.go:126-129: `structPool.Get()`, or a new struct of `n` bytes -/
  | get (n : Nat) (k : Nat → Act α)
  /-- map.go:141: `structPool.Put(s)` -/
  | put (n : Nat) (s : Nat) (k : Act α)

namespace Act

/-- Sequential composition. -/
def bind {α β : Type} : Act α → (α → Act β) → Act β
  | ret x, f => f x
  | fail e, _ => fail e
  | load a n al k, f => load a n al fun cs => (k cs).bind f
  | store a cs al k, f => store a cs al (k.bind f)
  | data a n k, f => data a n fun bs => (k bs).bind f
  | alloc o k, f => alloc o fun b => (k b).bind f
  | entries a k, f => entries a fun es => (k es).bind f
  | insert b e k, f => insert b e (k.bind f)
  | get n k, f => get n fun s => (k s).bind f
  | put n s k, f => put n s (k.bind f)

instance : Monad Act where
  pure := ret
  bind := bind

/-- A computation without access to memory. -/
def lift {α : Type} : Except Fault α → Act α
  | .ok x => ret x
  | .error e => fail e

end Act

/-! ### Loads and stores -/

/-- As `load`. -/
def loadA (a : Addr) (n al : Nat) : Act (List Cell) := .load a n al .ret
/-- As `store`. -/
def storeA (a : Addr) (cs : List Cell) (al : Nat) : Act Unit := .store a cs al (.ret ())
/-- As `alloc`. -/
def allocA (o : Obj) : Act Addr := .alloc o fun b => .ret ⟨b, 0⟩

/-- As `loadPtr`. -/
def loadPtrA (a : Addr) : Act (Option Addr) := do .lift (typed (asPtr (← loadA a 8 8)))

/-- As `loadInt`. -/
def loadIntA (a : Addr) : Act Nat := do .lift (typed (asInt (← loadA a 8 8)))

/-- As `load32`. -/
def load32A (a : Addr) : Act U32 := do
  let bs ← .lift (typed (asBytes (← loadA a 4 4)))
  return (decodeLE32 bs).1

/-- As `load64`. -/
def load64A (a : Addr) : Act U64 := do
  let bs ← .lift (typed (asBytes (← loadA a 8 8)))
  return (decodeLE64 bs).1

/-- As `loadBool`. -/
def loadBoolA (a : Addr) : Act Bool := do
  let bs ← .lift (typed (asBytes (← loadA a 1 1)))
  return bs != [0#8]

/-- As `loadStr`. -/
def loadStrA (a : Addr) : Act Bytes := do
  let d ← loadPtrA a
  let n ← loadIntA (a.add 8)
  if n = 0 then return []
  match d with
  | none => .fail .panic
  | some d => .data d n .ret

/-- As `loadBytes`; of an empty slice nothing is read. -/
def loadBytesA (a : Addr) : Act (Option Bytes) := do
  let d ← loadPtrA a
  let n ← loadIntA (a.add 8)
  match d with
  | none => return none
  | some d => if n = 0 then return some [] else return some (← .data d n .ret)

/-- As `loadVal`. -/
def loadValA (a : Addr) : Shape → Act Val
  | .b8 => do return .b8 (← loadBoolA a)
  | .w32 => do return .w32 (← load32A a)
  | .w64 => do return .w64 (← load64A a)
  | .str => do return .str (← loadStrA a)
  | _ => .fail .confused

/-- As `storeVal`. -/
def storeValA (a : Addr) : Val → Act Unit
  | .b8 x => storeA a (boolCells x) 1
  | .w32 x => storeA a (byteCells (encodeLE32 [] x)) 4
  | .w64 x => storeA a (byteCells (encodeLE64 [] x)) 8
  | .str [] => storeA a (ptrCells none ++ intCells 0) 8
  | .str s => do
    let d ← allocA (.ro s)
    storeA a (ptrCells (some d) ++ intCells s.length) 8
  | _ => .fail .confused

/-- As `mapEntries`. -/
def mapEntriesA : Option Addr → Act (List (Nat × Nat))
  | none => return []
  | some p => .entries p .ret

/-! ### size -/

/-- As `sizeNormalF`. -/
def sizeNormalA (s : Scalar) (a : Addr) (f : FTag) : Act Nat := do
  .lift (sizeNormal s (← loadValA a s.shape) f)

/-- As `sizeRequiredF`. -/
def sizeRequiredA (s : Scalar) (a : Addr) (f : FTag) : Act Nat :=
  match s with
  | .bool | .float32 | .float64 | .fixed32 | .fixed64 => .lift (sizeRequired s (.opaque 0) f)
  | s => do .lift (sizeRequired s (← loadValA a s.shape) f)

/-- As `sumSizes`. -/
def sumSizesA {α : Type} (size : α → Act Nat) : Nat → List α → Act Nat
  | n, [] => return n
  | n, x :: xs => do
    let s ← size x
    sumSizesA size (n + s) xs

/-- As `codecSizeF`. -/
def codecSizeA (rec : TypeId → Addr → Act Nat) : Codec → Addr → FTag → Act Nat
  | .normal s, a, f => sizeNormalA s a f
  | .required s, a, f => sizeRequiredA s a f
  | .option s, a, f => do
    if ← loadBoolA a then sizeRequiredA s (a.add (optOff s.shape)) f else return 0
  | .bytes, a, f => do .lift (sizeOfBytes (.bytes (← loadBytesA a)) f)
  | .ptr _ c, a, f => do
    match ← loadPtrA a with
    | none => return 0
    | some p => codecSizeA rec c p f
  | .msg t, a, f => do
    match ← loadPtrA a with
    | none => return 0
    | some p =>
      let n ← rec t p
      return n + (sizeOfVarint (BitVec.ofNat 64 n) + f.tagsize)
  | .slice _ c, a, f => do
    let d ← loadPtrA a
    let n ← loadIntA (a.add 8)
    sumSizesA (fun i => do codecSizeA rec c (← .lift (index d i (alignedSize c.shape))) f) 0 (List.range n)
  | .map i kc vc _ _, a, _ => do
    let p ← loadPtrA a
    let mapTagSize := sizeOfVarint i.wiretag
    let es ← mapEntriesA p
    let n ← sumSizesA (fun (e : Nat × Nat) => do
      let keySize ← codecSizeA rec kc ⟨e.1, 0⟩ i.key
      let valSize ← codecSizeA rec vc ⟨e.2, 0⟩ i.val
      return mapTagSize + sizeOfVarint (BitVec.ofNat 64 (keySize + valSize)) + keySize + valSize) 0 es
    if n = 0 then return mapTagSize + 1
    return n

/-- As `structSizeF`. -/
def structSizeA (size : Codec → Addr → FTag → Act Nat) (off : Nat → Nat) (fields : List Field) (a : Addr) : Act Nat :=
  sumSizesA (fun (f : Field) => size f.codec (a.add (off f.offset)) f.tag) 0 fields

/-- As `sizeMsgF`. -/
def sizeMsgA (lay : Lay) (env : Env) : Nat → TypeId → Addr → Act Nat
  | 0, _, _ => .fail .depth
  | d + 1, t, a => structSizeA (codecSizeA (sizeMsgA lay env d)) (lay.off t) (env t).fields a

/-! ### encode -/

/-- As `appendAll`. -/
def appendAllA {α : Type} (enc : Bytes → α → Act Bytes) : Bytes → List α → Act Bytes
  | b, [] => return b
  | b, x :: xs => do
    let b ← enc b x
    appendAllA enc b xs

/-- As `codecEncodeF`. -/
def codecEncodeA (sz : TypeId → Addr → Act Nat) (rec : TypeId → Bytes → Addr → Act Bytes) :
    Codec → Bytes → Addr → FTag → Act Bytes
  | .normal s, b, a, f => do .lift (encodeNormal s b (← loadValA a s.shape) f)
  | .required s, b, a, f => do .lift (encodeRequired s b (← loadValA a s.shape) f)
  | .option s, b, a, f => do
    if ← loadBoolA a then .lift (encodeRequired s b (← loadValA (a.add (optOff s.shape)) s.shape) f) else return b
  | .bytes, b, a, f => do .lift (encodeBytes b (.bytes (← loadBytesA a)) f)
  | .ptr _ c, b, a, f => do
    match ← loadPtrA a with
    | none => return b
    | some p => codecEncodeA sz rec c b p f
  | .msg t, b, a, f => do
    match ← loadPtrA a with
    | none => return b
    | some p =>
      let b := appendVarint b f.wiretag
      let n ← sz t p
      let b := appendVarint b (BitVec.ofNat 64 n)
      rec t b p
  | .slice _ c, b, a, f => do
    let d ← loadPtrA a
    let n ← loadIntA (a.add 8)
    appendAllA (fun b i => do codecEncodeA sz rec c b (← .lift (index d i (alignedSize c.shape))) f) b (List.range n)
  | .map i kc vc _ _, b, a, _ => do
    let p ← loadPtrA a
    let mapTag := appendVarint [] i.wiretag
    let zero := mapTag ++ [0#8]
    let origLen := b.length
    let es ← mapEntriesA p
    let b ← appendAllA (fun b (e : Nat × Nat) => do
      let keySize ← codecSizeA sz kc ⟨e.1, 0⟩ i.key
      let valSize ← codecSizeA sz kc ⟨e.2, 0⟩ i.val  -- map.go:80, sic
      let elemSize := keySize + valSize
      let b := b ++ mapTag
      let b := appendVarint b (BitVec.ofNat 64 elemSize)
      let b ← codecEncodeA sz rec kc b ⟨e.1, 0⟩ i.key
      codecEncodeA sz rec vc b ⟨e.2, 0⟩ i.val) b es
    if b.length = origLen then return b ++ zero
    return b

/-- As `structEncodeF`. -/
def structEncodeA (enc : Codec → Bytes → Addr → FTag → Act Bytes) (off : Nat → Nat) (fields : List Field)
    (b : Bytes) (a : Addr) : Act Bytes :=
  appendAllA (fun b (f : Field) => enc f.codec b (a.add (off f.offset)) f.tag) b fields

/-- As `encodeMsgF`. -/
def encodeMsgA (lay : Lay) (env : Env) : Nat → TypeId → Bytes → Addr → Act Bytes
  | 0, _, _, _ => .fail .depth
  | d + 1, t, b, a =>
    structEncodeA (codecEncodeA (sizeMsgA lay env d) (encodeMsgA lay env d)) (lay.off t) (env t).fields b a

/-! ### decode -/

/-- A decode function: input, address; the count or the error. -/
abbrev DecA := Bytes → Addr → Act (Except Err Nat)

/-- Go `return n, err` -/
def outA (n : Nat) : Option Err → Except Err Nat
  | none => .ok n
  | some e => .error e

/-- As `decodeScalarF`. -/
def decodeScalarA (s : Scalar) : DecA := fun b a =>
  if s = .bool ∧ b = [] then return .error .unexpectedEOF
  else do
    match ← .lift (decodeScalar s b s.shape.zero) with
    | .ok v n => do storeValA a v; return .ok n
    | .err v e => do storeValA a v; return .error e

/-- As `decodeOptionF`. -/
def decodeOptionA (s : Scalar) : DecA := fun b a => do
  storeA a (boolCells true) 1
  decodeScalarA s b (a.add (optOff s.shape))

/-- As `appendBytes`. -/
def appendBytesA (grow : Nat → Nat → Nat) (a : Addr) (v : Bytes) : Act Unit := do
  let d ← loadPtrA a
  let cap ← loadIntA (a.add 16)
  if v.length ≤ cap then
    match d with
    | none => .fail .panic
    | some d => do
      storeA d (byteCells v) 1
      storeA a (sliceCells (some d) v.length cap) 8
  else do
    let d ← allocA (.mem (byteCells v ++ zeroCells (grow cap v.length - v.length)))
    storeA a (sliceCells (some d) v.length (grow cap v.length)) 8

/-- As `decodeBytesF`. -/
def decodeBytesA (grow : Nat → Nat → Nat) : DecA := fun b a => do
  let (v, n, err) ← .lift (decodeVarlen b)
  match ← loadPtrA a with
  | none => do
    let d ← allocA (.mem (zeroCells v.length))
    storeA a (sliceCells (some d) 0 v.length) 8
    appendBytesA grow a v
    return outA n err
  | some _ => do
    appendBytesA grow a v
    return outA n err

/-- As `DFieldF`. -/
structure DFieldA where
  num : Nat
  wt : Nat
  off : Nat
  dec : DecA

/-- As `fieldIndexF`. -/
def fieldIndexA (fields : List DFieldA) : Nat → Option DFieldA :=
  fields.foldl (fun m f => fun n => if n = f.num then some f else m n) (fun _ => none)

/-- As `structLoopF`. -/
def structLoopA (idx : Nat → Option DFieldA) (b : Bytes) (a : Addr) : Nat → Nat → Act (Except Err Nat)
  | fuel, offset =>
    if offset < b.length then
      match fuel with
      | 0 => .fail .depth
      | fuel + 1 => do
        let (num, wt, n, err) := decodeTag (← .lift (goFrom b offset))
        let offset := offset + n
        match err with
        | some e => return .error e
        | none =>
          match idx num with
          | none => do
            let (offset, err) ← .lift (skipUnknown b offset wt)
            match err with
            | some e => return .error (.field num wt e)
            | none => structLoopA idx b a fuel offset
          | some f =>
            if wt ≠ f.wt then
              return .error (.field num wt (.expectedWireType f.wt))
            else do
              match ← .lift (fieldData b offset wt) with
              | .error e => return .error (.field num wt e)
              | .ok data => do
                match ← f.dec data (a.add f.off) with
                | .ok n => structLoopA idx b a fuel (offset + n)
                | .error e => return .error (.field num wt e)
    else return .ok offset

/-- As `structDecodeF`. -/
def structDecodeA (fields : List DFieldA) : DecA := fun b a => structLoopA (fieldIndexA fields) b a b.length 0

/-- As `assign`. -/
def assignA (dst src : Addr) (n al : Nat) : Act Unit := do
  let cs ← loadA src n al
  storeA dst cs al

/-- As `growSliceF`. -/
def growSliceA (a : Addr) (elemSize al : Nat) : Act Unit := do
  let d ← loadPtrA a
  let len ← loadIntA (a.add 8)
  let cap ← loadIntA (a.add 16)
  let cap := 2 * cap
  let cap := if cap = 0 then 10 else cap
  let nd ← allocA (.mem (zeroCells (cap * elemSize)))
  match d with
  | none => pure ()
  | some d => assignA nd d (len * elemSize) al
  storeA a (sliceCells (some nd) len cap) 8

/-- As `makeMapF`. -/
def makeMapA (a : Addr) : Act Unit := do
  match ← loadPtrA a with
  | none => do
    let p ← allocA (.map [])
    storeA a (ptrCells (some p)) 8
  | some _ => return ()

/-- As `findKey`. -/
def findKeyA (ks : Shape) (k : Key) : List (Nat × Nat) → Act (Option Nat)
  | [] => return none
  | e :: es => do
    match (← loadValA ⟨e.1, 0⟩ ks).toKey? with
    | none => .fail .confused
    | some k' => if k' = k then return some e.2 else findKeyA ks k es

/-- As `mapAssignF`. -/
def mapAssignA (ks vs : Shape) (p : Option Addr) (ka : Addr) : Act Addr := do
  match p with
  | none => .fail .panic
  | some p => do
    let es ← mapEntriesA (some p)
    match (← loadValA ka ks).toKey? with
    | none => .fail .confused
    | some k => do
      match ← findKeyA ks k es with
      | some vb => return ⟨vb, 0⟩
      | none => do
        let kcs ← loadA ka ks.size ks.align
        let kb ← allocA (.mem kcs)
        let vb ← allocA (.mem (zeroCells vs.size))
        .insert p.blk (kb.blk, vb.blk) (.ret vb)

/-- As `codecDecodeF`; the scratch struct of a map entry comes from a pool. -/
def codecDecodeA (grow : Nat → Nat → Nat) (msgSize : TypeId → Nat) (rec : TypeId → DecA) : Codec → DecA
  | .normal s => decodeScalarA s
  | .required s => decodeScalarA s
  | .option s => decodeOptionA s
  | .bytes => decodeBytesA grow
  | .ptr _ c => fun b a => do
    match ← loadPtrA a with
    | none => do
      let p ← allocA (.mem (zeroCells c.shape.size))
      storeA a (ptrCells (some p)) 8
      codecDecodeA grow msgSize rec c b p
    | some p => codecDecodeA grow msgSize rec c b p
  | .msg t => fun b a => do
    let p ← (do
      match ← loadPtrA a with
      | none => do
        let p ← allocA (.mem (zeroCells (msgSize t)))
        storeA a (ptrCells (some p)) 8
        return p
      | some p => return p : Act Addr)
    let (_, n, err) := decodeVarint b
    match err with
    | some e => return .error e
    | none => do
      match ← rec t (← .lift (goFrom b n)) p with
      | .ok l => return .ok (n + l)
      | .error e => return .error e
  | .slice _ c => fun b a => do
    let i ← loadIntA (a.add 8)
    let cap ← loadIntA (a.add 16)
    let _ ← (if i = cap then growSliceA a (alignedSize c.shape) c.shape.align else pure () : Act Unit)
    let d ← loadPtrA a
    match ← codecDecodeA grow msgSize rec c b (← .lift (index d i (alignedSize c.shape))) with
    | .ok n => do storeA (a.add 8) (intCells (i + 1)) 8; return .ok n
    | .error e => return .error e
  | .map i kc vc kd vd => fun b a => do
    makeMapA a
    if b = [] then return .ok 0
    else do
      let s ← (.get (entrySize kc.shape vc.shape) .ret : Act Nat)
      let (_, nl, err) := decodeVarint b
      match err with
      | some e => return .error e  -- map.go:132-134: the struct is not put back
      | none => do
        let voff := valueOffset kc.shape vc.shape
        let entry : List DFieldA :=
          [{ num := wtNumber i.eKey, wt := wtType i.eKey, off := 0, dec := codecDecodeA grow msgSize rec kd },
           { num := wtNumber i.eVal, wt := wtType i.eVal, off := voff, dec := codecDecodeA grow msgSize rec vd }]
        match ← structDecodeA entry (← .lift (goFrom b nl)) ⟨s, 0⟩ with
        | .ok n => do
          let p ← loadPtrA a
          let v ← mapAssignA kc.shape vc.shape p ⟨s, 0⟩
          assignA v ((⟨s, 0⟩ : Addr).add voff) vc.shape.size vc.shape.align
          storeA ⟨s, 0⟩ (zeroCells (entrySize kc.shape vc.shape)) 1
          .put (entrySize kc.shape vc.shape) s (.ret (.ok (n + nl)))
        | .error e => do
          storeA ⟨s, 0⟩ (zeroCells (entrySize kc.shape vc.shape)) 1
          .put (entrySize kc.shape vc.shape) s (.ret (.error e))

/-- As `dfieldsF`. -/
def dfieldsA (grow : Nat → Nat → Nat) (lay : Lay) (rec : TypeId → DecA) (t : TypeId) (fields : List Field) : List DFieldA :=
  fields.map fun f =>
    { num := wtNumber f.tag.wiretag, wt := wtType f.tag.wiretag, off := lay.off t f.offset,
      dec := codecDecodeA grow lay.size rec f.codec }

/-- As `decodeMsgF`. -/
def decodeMsgA (grow : Nat → Nat → Nat) (lay : Lay) (env : Env) : Nat → TypeId → DecA
  | 0, _ => fun _ _ => .fail .depth
  | d + 1, t => structDecodeA (dfieldsA grow lay (decodeMsgA grow lay env d) t (env t).fields)

/-! ### API -/

/-- A call of the API on the message of type `t` at `a`; `d` bounds the depth of the recursion of Size and Marshal. -/
inductive Req where
  | size (d : Nat) (t : TypeId) (a : Addr)
  | marshal (d : Nat) (t : TypeId) (a : Addr)
  | unmarshal (bs : Bytes) (t : TypeId) (a : Addr)

/-- What a call returns. -/
inductive Outcome where
  | size (n : Nat)
  | marshal (bs : Bytes)
  | unmarshal (err : Option ApiErr)
deriving DecidableEq

/-- The program of a call: `sizeMsgF`, `marshalF`, `unmarshalF`. -/
def reqAct (grow : Nat → Nat → Nat) (lay : Lay) (env : Env) : Req → Act Outcome
  | .size d t a => do return .size (← sizeMsgA lay env d t a)
  | .marshal d t a => do
    let _n ← sizeMsgA lay env d t a
    return .marshal (← encodeMsgA lay env d t [] a)
  | .unmarshal b t a =>
    if b.length = 0 then return .unmarshal none
    else do
      match ← decodeMsgA grow lay env (b.length + 1) t b a with
      | .error e => return .unmarshal (some (.decode e))
      | .ok n => if n < b.length then return .unmarshal (some (.shortRead n b.length)) else return .unmarshal none

/-! ### Goroutines -/

/-- A goroutine in a call. `own` and `rd` do not exist in the code: they list the allocations that the call may write to and
those that it may read, for the conditions on the code around the calls (`Step.call`, `Step.other`). -/
structure Task where
  /-- the call, the memory when it was made, and the allocations that the goroutine gave to it -/
  req : Req
  start : Mem
  given : List Nat
  /-- what is left to do -/
  act : Act Outcome
  /-- allocations only this call may use -/
  own : List Nat
  /-- allocations this call and others may read -/
  rd : List Nat

/-- The process: its memory, the pools (the sizes and the numbers of the structs in them), the calls under way. -/
structure Proc where
  mem : Mem
  pool : List (Nat × Nat)
  tasks : List Task

/-- The process after task `i` went on. -/
def Proc.next (s : Proc) (i : Nat) (c : Task) (p : Act Outcome) : Proc := { s with tasks := s.tasks.set i { c with act := p } }

/-- The process after an access to memory by task `i`, that gave `r`. -/
def Proc.acc {α : Type} (s : Proc) (i : Nat) (c : Task) (r : Except Fault α) (k : α → Act Outcome) : Proc :=
  match r with
  | .ok x => s.next i c (k x)
  | .error f => s.next i c (.fail f)

/-- Runtime `mapassign`: one more entry in the map `b`. -/
def insertEntry (m : Mem) (b : Nat) (e : Nat × Nat) : Except Fault Mem :=
  match m[b]? with
  | some (.map es) => .ok (m.set b (.map (es ++ [e])))
  | _ => .error .oob

/-- The allocations a call is given for writing. -/
def Req.writes (r : Req) (given : List Nat) : List Nat :=
  match r with
  | .unmarshal _ _ _ => given
  | _ => []

/-- The allocations a call is given for reading. -/
def Req.reads (r : Req) (given : List Nat) : List Nat :=
  match r with
  | .unmarshal _ _ _ => []
  | _ => given

/-- The pointers in an allocation point to one of the first `n` allocations. -/
def Obj.closed (n : Nat) : Obj → Prop
  | .mem cs => ∀ c ∈ cs, ∀ a k, c = .ptr a k → a.blk < n
  | .ro _ => True
  | .map es => ∀ e ∈ es, e.1 < n ∧ e.2 < n

/-- All pointers in memory point to allocations. -/
def Closed (m : Mem) : Prop := ∀ o ∈ m, o.closed m.length

/-- One step of the process. `ok m given r` is the condition on which the program makes the call `r`, with the allocations
`given`, when the memory is `m`. -/
inductive Step (grow : Nat → Nat → Nat) (lay : Lay) (env : Env) (ok : Mem → List Nat → Req → Prop) : Proc → Proc → Prop
  /-- A goroutine makes a call. It must not give memory to Unmarshal that another call uses, or memory to Size and Marshal that
  another call may write to. Scratch structs in a pool are not known to the program. -/
  | call (s : Proc) (r : Req) (given : List Nat) : ok s.mem given r →
      (∀ b ∈ given, ∀ c ∈ s.tasks, b ∉ c.own) → (∀ b ∈ r.writes given, ∀ c ∈ s.tasks, b ∉ c.rd) →
      (∀ b ∈ given, b < s.mem.length ∧ ∀ n, (n, b) ∉ s.pool) →
      Step grow lay env ok s
        { s with tasks := s.tasks ++ [⟨r, s.mem, given, reqAct grow lay env r, r.writes given, r.reads given⟩] }
  /-- Other code of the process writes to memory or allocates. It must not write to memory that a call uses. Text is not
  written. -/
  | other (s : Proc) (m : Mem) : s.mem.length ≤ m.length → (∀ c ∈ s.tasks, ∀ b, b ∈ c.own ∨ b ∈ c.rd → m[b]? = s.mem[b]?) →
      (∀ e ∈ s.pool, m[e.2]? = s.mem[e.2]?) → (∀ (b : Nat) (t : Bytes), s.mem[b]? = some (.ro t) → m[b]? = some (.ro t)) →
      Closed m →
      Step grow lay env ok s { s with mem := m }
  /-- A call has returned, and its goroutine goes on. -/
  | done (s : Proc) (xs : List Task) (c : Task) (ys : List Task) (o : Outcome) : s.tasks = xs ++ c :: ys → c.act = .ret o →
      Step grow lay env ok s { s with tasks := xs ++ ys }
  /-- The garbage collector empties pools. -/
  | gc (s : Proc) (xs : List (Nat × Nat)) (e : Nat × Nat) (ys : List (Nat × Nat)) : s.pool = xs ++ e :: ys →
      Step grow lay env ok s { s with pool := xs ++ ys }
  | load (s : Proc) (i : Nat) (c : Task) (a n al k) : s.tasks[i]? = some c → c.act = .load a n al k →
      Step grow lay env ok s (s.acc i c (Flat.load s.mem a n al) k)
  | data (s : Proc) (i : Nat) (c : Task) (a n k) : s.tasks[i]? = some c → c.act = .data a n k →
      Step grow lay env ok s (s.acc i c (loadData s.mem a n) k)
  | entries (s : Proc) (i : Nat) (c : Task) (a k) : s.tasks[i]? = some c → c.act = .entries a k →
      Step grow lay env ok s (s.acc i c (mapEntries s.mem (some a)) k)
  | store (s : Proc) (i : Nat) (c : Task) (a cs al k m) : s.tasks[i]? = some c → c.act = .store a cs al k →
      Flat.store s.mem a cs al = .ok m → Step grow lay env ok s { s.next i c k with mem := m }
  | storeFault (s : Proc) (i : Nat) (c : Task) (a cs al k f) : s.tasks[i]? = some c → c.act = .store a cs al k →
      Flat.store s.mem a cs al = .error f → Step grow lay env ok s (s.next i c (.fail f))
  | insert (s : Proc) (i : Nat) (c : Task) (b e k m) : s.tasks[i]? = some c → c.act = .insert b e k →
      insertEntry s.mem b e = .ok m → Step grow lay env ok s { s.next i c k with mem := m }
  | insertFault (s : Proc) (i : Nat) (c : Task) (b e k f) : s.tasks[i]? = some c → c.act = .insert b e k →
      insertEntry s.mem b e = .error f → Step grow lay env ok s (s.next i c (.fail f))
  | alloc (s : Proc) (i : Nat) (c : Task) (o k) : s.tasks[i]? = some c → c.act = .alloc o k →
      Step grow lay env ok s { s.next i { c with own := s.mem.length :: c.own } (k s.mem.length) with mem := s.mem ++ [o] }
  /-- `Get` finds nothing (`sync.Pool` may also return nil when other processors have structs) -/
  | getNone (s : Proc) (i : Nat) (c : Task) (n k) : s.tasks[i]? = some c → c.act = .get n k →
      Step grow lay env ok s
        { s.next i { c with own := s.mem.length :: c.own } (k s.mem.length) with mem := s.mem ++ [.mem (zeroCells n)] }
  /-- `Get` takes any struct out of the pool -/
  | getSome (s : Proc) (i : Nat) (c : Task) (n k) (xs : List (Nat × Nat)) (b : Nat) (ys : List (Nat × Nat)) :
      s.tasks[i]? = some c → c.act = .get n k → s.pool = xs ++ (n, b) :: ys →
      Step grow lay env ok s { s.next i { c with own := b :: c.own } (k b) with pool := xs ++ ys }
  | put (s : Proc) (i : Nat) (c : Task) (n b k) : s.tasks[i]? = some c → c.act = .put n b k →
      Step grow lay env ok s { s.next i { c with own := c.own.filter (· ≠ b) } k with pool := (n, b) :: s.pool }

/-- The states the process can get into from the memory `m`, by any interleaving. -/
inductive Reach (grow : Nat → Nat → Nat) (lay : Lay) (env : Env) (ok : Mem → List Nat → Req → Prop) (m : Mem) : Proc → Prop
  | start : Reach grow lay env ok m ⟨m, [], []⟩
  | step (s s' : Proc) : Reach grow lay env ok m s → Step grow lay env ok s s' → Reach grow lay env ok m s'

/-- The allocation that the next access of a program writes to, or that it gives back to the pool. -/
def Act.writesTo {α : Type} : Act α → Option Nat
  | .store a _ _ _ => some a.blk
  | .insert b _ _ | .put _ b _ => some b
  | _ => none

/-- The allocation that the next access of a program reads. -/
def Act.readsFrom {α : Type} : Act α → Option Nat
  | .load a _ _ _ | .entries a _ => some a.blk
  | .data a _ _ => some a.blk
  | _ => none

end Pb.Flat
