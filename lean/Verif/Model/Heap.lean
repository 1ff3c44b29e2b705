import Verif.Model.Api
/-
Decoding with the memory behind byte slices: proto/normal_codec.go:66-74 `decodeBytes` reuses the array of the slice that
the field holds. `Model/Codec.lean` has the contents of a `[]byte` in place of the slice; here a `[]byte` is a pointer into
a memory that also holds the input, so that slices may overlap each other and the input.

Simplifications:
* Only the memory behind byte slices and the input is explicit. Everything else of a message is a tree as in
  `Model/Value.lean`: structs, maps and element arrays are not shared.
* Strings are immutable and copied (`string(v)`, normal_codec.go:106), so they remain values.
* Memory that is no longer referenced is not reused.
-/
namespace Pb

/-- A non-nil `[]byte`: address of the first byte, length and capacity. -/
structure Hdr where
  ptr : Nat
  len : Nat
  cap : Nat
deriving DecidableEq, Repr

/-- Byte-addressed memory. Addresses from `next` on have not been allocated yet. -/
structure Arena where
  data : Nat → Byte
  next : Nat

/-- The bytes at `p`. -/
def Arena.read (m : Arena) (p n : Nat) : Bytes := (List.range n).map fun i => m.data (p + i)

/-- `copy` (memmove): the bytes `bs` are stored at `p`. -/
def Arena.write (m : Arena) (p : Nat) (bs : Bytes) : Arena :=
  { m with data := fun x => if p ≤ x ∧ x < p + bs.length then bs.getD (x - p) 0#8 else m.data x }

/-- `n` new bytes. (Their contents are not observed before they are written.) -/
def Arena.alloc (m : Arena) (n : Nat) : Arena := { m with next := m.next + n }

/-- `make([]byte, 0, n)` -/
def Arena.make (m : Arena) (n : Nat) : Hdr × Arena := ({ ptr := m.next, len := 0, cap := n }, m.alloc n)

/-- `append(h[:0], v...)`: in place if the capacity suffices, else in a new array. `grow c n` is the capacity that
`append` gives to a slice of capacity `c` that has to hold `n` bytes. -/
def Arena.append (grow : Nat → Nat → Nat) (m : Arena) (h : Hdr) (v : Bytes) : Hdr × Arena :=
  if v.length ≤ h.cap then ({ h with len := v.length }, m.write h.ptr v)
  else ({ ptr := m.next, len := v.length, cap := grow h.cap v.length },
    (m.alloc (grow h.cap v.length)).write m.next v)

/-- Contents of a memory slot (see `Val`), with byte slices as pointers. -/
inductive HVal where
  | b8 (x : Bool)
  | w32 (x : U32)
  | w64 (x : U64)
  | str (s : Bytes)
  | bytes (h : Option Hdr)
  | opt (some : Bool) (v : HVal)
  | nilp
  | ptr (v : HVal)
  | struct (fs : List HVal)
  | slice (isNil : Bool) (es : List HVal) (spare : List HVal)
  | map (isNil : Bool) (m : List (Key × HVal))
  | opaque (n : Nat)

mutual
/-- The value of a slot: byte slices are followed. -/
def HVal.abs (m : Arena) : HVal → Val
  | .b8 x => .b8 x
  | .w32 x => .w32 x
  | .w64 x => .w64 x
  | .str s => .str s
  | .bytes none => .bytes none
  | .bytes (some h) => .bytes (some (m.read h.ptr h.len))
  | .opt s v => .opt s (v.abs m)
  | .nilp => .nilp
  | .ptr v => .ptr (v.abs m)
  | .struct fs => .struct (HVal.absL m fs)
  | .slice n es sp => .slice n (HVal.absL m es) (HVal.absL m sp)
  | .map n es => .map n (HVal.absM m es)
  | .opaque n => .opaque n
/-- The values of some slots. -/
def HVal.absL (m : Arena) : List HVal → List Val
  | [] => []
  | v :: vs => v.abs m :: HVal.absL m vs
/-- The values of map entries. -/
def HVal.absM (m : Arena) : List (Key × HVal) → List (Key × Val)
  | [] => []
  | (k, v) :: es => (k, v.abs m) :: HVal.absM m es
end

mutual
/-- A slot without byte slices (scalars and zero values) as a slot of this model. -/
def HVal.ofVal : Val → HVal
  | .b8 x => .b8 x
  | .w32 x => .w32 x
  | .w64 x => .w64 x
  | .str s => .str s
  | .bytes _ => .bytes none
  | .opt s v => .opt s (HVal.ofVal v)
  | .nilp => .nilp
  | .ptr v => .ptr (HVal.ofVal v)
  | .struct fs => .struct (HVal.ofValL fs)
  | .slice n es sp => .slice n (HVal.ofValL es) (HVal.ofValL sp)
  | .map n es => .map n (HVal.ofValM es)
  | .opaque n => .opaque n
/-- The same for some slots. -/
def HVal.ofValL : List Val → List HVal
  | [] => []
  | v :: vs => HVal.ofVal v :: HVal.ofValL vs
/-- The same for map entries. -/
def HVal.ofValM : List (Key × Val) → List (Key × HVal)
  | [] => []
  | (k, v) :: es => (k, HVal.ofVal v) :: HVal.ofValM es
end

/-- The result of a decode function, as `DRes`. -/
inductive HRes where
  | ok (v : HVal) (n : Nat)
  | err (v : HVal) (e : Err)

/-- The slot afterwards. -/
def HRes.val : HRes → HVal
  | .ok v _ => v
  | .err v _ => v

/-- Applies `f` to the slot. -/
def HRes.wrap (f : HVal → HVal) : HRes → HRes
  | .ok v n => .ok (f v) n
  | .err v e => .err (f v) e

/-- Go `return n, err` after the slot was set to `v`. -/
def HRes.mk (v : HVal) (n : Nat) : Option Err → HRes
  | none => .ok v n
  | some e => .err v e

/-- The result of a scalar decode function. -/
def HRes.ofDRes : DRes → HRes
  | .ok v n => .ok (HVal.ofVal v) n
  | .err v e => .err (HVal.ofVal v) e

/-- The input, or a section of it. -/
structure Win where
  ptr : Nat
  len : Nat

/-- The bytes of a section of the input now. -/
def Arena.win (m : Arena) (b : Win) : Bytes := m.read b.ptr b.len

/-- A decode function: takes the section of the input, the slot and the memory. -/
abbrev DecH := Win → HVal → Arena → Except Fault (HRes × Arena)

/-- normal_codec.go:66-74 `decodeBytes`. -/
def decodeBytesH (grow : Nat → Nat → Nat) : DecH := fun b p m => do
  let (v, n, err) ← decodeVarlen (m.win b)
  match p with
  | .bytes (some h) =>
    let (h, m) := m.append grow h v
    return (HRes.mk (.bytes (some h)) n err, m)
  | .bytes none =>
    let (h, m) := m.make v.length
    let (h, m) := m.append grow h v
    return (HRes.mk (.bytes (some h)) n err, m)
  | _ => .error .confused

/-- The scalar decode functions, as `decodeScalar`: they touch no byte slices. (`decodeBool` on no input returns before
it writes, normal_codec.go:35-37.) -/
def decodeScalarH (s : Scalar) : DecH := fun b p m =>
  if s = .bool ∧ m.win b = [] then .ok (.err p .unexpectedEOF, m)
  else do
    let r ← decodeScalar s (m.win b) (p.abs m)
    return (HRes.ofDRes r, m)

/-- option_codec.go: `decode*Option`, as `decodeOption`. -/
def decodeOptionH (s : Scalar) : DecH := fun b p m =>
  match p with
  | .opt _ v => do
    let (r, m) ← decodeScalarH s b v m
    return (r.wrap (HVal.opt true), m)
  | _ => .error .confused

/-- What `structInfo.decode` uses of a field (see `DField`). -/
structure HField where
  num : Nat
  wt : Nat
  offset : Nat
  dec : DecH

/-- struct.go:13 and walker.go:269-272, as `fieldIndex`. -/
def fieldIndexH (fields : List HField) : Nat → Option HField :=
  fields.foldl (fun m f => fun n => if n = f.num then some f else m n) (fun _ => none)

/-- Go pointer arithmetic to a field, as `slotOf`. -/
def slotOfH (vs : List HVal) (o : Nat) : Except Fault HVal :=
  match vs[o]? with
  | some v => .ok v
  | none => .error .confused

/-- struct.go:56-149 `structInfo.decode`, as `structLoop`. The input is read from memory again in every iteration. -/
def structLoopH (idx : Nat → Option HField) (b : Win) : Nat → Nat → List HVal → Arena → Except Fault (HRes × Arena)
  | fuel, offset, vs, m =>
    if offset < b.len then
      match fuel with
      | 0 => .error .depth
      | fuel + 1 => do
        let (num, wt, n, err) := decodeTag (← goFrom (m.win b) offset)
        let offset := offset + n
        match err with
        | some e => return (.err (.struct vs) e, m)
        | none =>
          match idx num with
          | none =>
            let (offset, err) ← skipUnknown (m.win b) offset wt
            match err with
            | some e => return (.err (.struct vs) (.field num wt e), m)
            | none => structLoopH idx b fuel offset vs m
          | some f =>
            if wt ≠ f.wt then
              return (.err (.struct vs) (.field num wt (.expectedWireType f.wt)), m)
            else
              match ← fieldData (m.win b) offset wt with
              | .error e => return (.err (.struct vs) (.field num wt e), m)
              | .ok data => do
                let v ← slotOfH vs f.offset
                match ← f.dec ⟨b.ptr + offset, data.length⟩ v m with
                | (.ok v n, m) => structLoopH idx b fuel (offset + n) (vs.set f.offset v) m
                | (.err v e, m) => return (.err (.struct (vs.set f.offset v)) (.field num wt e), m)
    else return (.ok (.struct vs) offset, m)

/-- struct.go:56-149 `structInfo.decode`, as `structDecode`. -/
def structDecodeH (fields : List HField) : DecH := fun b p m =>
  match p with
  | .struct vs => structLoopH (fieldIndexH fields) b b.len 0 vs m
  | _ => .error .confused

/-- slice.go:90-99 and 65-67, as `growIfFull`. -/
def growIfFullH (zero : HVal) (es spare : List HVal) : List HVal :=
  if spare = [] then
    let cap := 2 * (es.length + spare.length)
    let cap := if cap = 0 then 10 else cap
    List.replicate (cap - es.length) zero
  else spare

/-- map.go:137-138, as `mapAssign`. -/
def mapAssignH (m : List (Key × HVal)) (k : Key) (v : HVal) : List (Key × HVal) :=
  match m with
  | [] => [(k, v)]
  | (k', v') :: m => if k' = k then (k', v) :: m else (k', v') :: mapAssignH m k v

/-- The decode functions, as `codecDecode`. -/
def codecDecodeH (grow : Nat → Nat → Nat) (zeros : TypeId → Val) (rec : TypeId → DecH) : Codec → DecH
  | .normal s => decodeScalarH s
  | .required s => decodeScalarH s
  | .option s => decodeOptionH s
  | .bytes => decodeBytesH grow
  | .ptr zero c => fun b p m =>
    match p with
    | .nilp => do let (r, m) ← codecDecodeH grow zeros rec c b (.ofVal zero) m; return (r.wrap .ptr, m)
    | .ptr v => do let (r, m) ← codecDecodeH grow zeros rec c b v m; return (r.wrap .ptr, m)
    | _ => .error .confused
  | .msg t => fun b p m => do
    let v ← match p with
      | .nilp => pure (HVal.ofVal (zeros t))
      | .ptr v => pure v
      | _ => .error .confused
    let (_, n, err) := decodeVarint (m.win b)
    match err with
    | some e => return (.err (.ptr v) e, m)
    | none =>
      let rest ← goFrom (m.win b) n
      match ← rec t ⟨b.ptr + n, rest.length⟩ v m with
      | (.ok v l, m) => return (.ok (.ptr v) (n + l), m)
      | (.err v e, m) => return (.err (.ptr v) e, m)
  | .slice zero c => fun b p m =>
    match p with
    | .slice isNil es spare =>
      let isNil := if spare = [] then false else isNil
      match growIfFullH (.ofVal zero) es spare with
      | [] => .error .oob
      | slot :: spare => do
        match ← codecDecodeH grow zeros rec c b slot m with
        | (.ok v n, m) => return (.ok (.slice isNil (es ++ [v]) spare) n, m)
        | (.err v e, m) => return (.err (.slice isNil es (v :: spare)) e, m)
    | _ => .error .confused
  | .map i _ _ kd vd => fun b p m =>
    match p with
    | .map _ es =>
      if m.win b = [] then .ok (.ok (.map false es) 0, m)
      else
        let (_, nl, err) := decodeVarint (m.win b)
        match err with
        | some e => .ok (.err (.map false es) e, m)
        | none => do
          let entry : List HField :=
            [{ num := wtNumber i.eKey, wt := wtType i.eKey, offset := 0, dec := codecDecodeH grow zeros rec kd },
             { num := wtNumber i.eVal, wt := wtType i.eVal, offset := 1, dec := codecDecodeH grow zeros rec vd }]
          let rest ← goFrom (m.win b) nl
          match ← structDecodeH entry ⟨b.ptr + nl, rest.length⟩ (.struct [.ofVal i.kzero, .ofVal i.vzero]) m with
          | (.ok (.struct [k, v]) n, m) =>
            match (k.abs m).toKey? with
            | some k => return (.ok (.map false (mapAssignH es k v)) (n + nl), m)
            | none => .error .confused
          | (.ok _ _, _) => .error .confused
          | (.err _ e, m) => return (.err (.map false es) e, m)
    | _ => .error .confused

/-- The decode view of the fields of a struct, as `dfields`. -/
def hfields (grow : Nat → Nat → Nat) (zeros : TypeId → Val) (rec : TypeId → DecH) (fields : List Field) : List HField :=
  fields.map fun f =>
    { num := wtNumber f.tag.wiretag, wt := wtType f.tag.wiretag, offset := f.offset,
      dec := codecDecodeH grow zeros rec f.codec }

/-- `info.decode` with recursion depth at most `d`, as `decodeMsg`. -/
def decodeMsgH (grow : Nat → Nat → Nat) (env : Env) : Nat → TypeId → DecH
  | 0, _ => fun _ _ _ => .error .depth
  | d + 1, t =>
    structDecodeH (hfields grow (fun t => (env t).zero) (decodeMsgH grow env d) (env t).fields)

/-- Result of `Unmarshal` into a message: the message and the memory afterwards, and the error, if any. -/
structure URes where
  target : HVal
  mem : Arena
  err : Option ApiErr

/-- proto.go:37-61 `Unmarshal` for a pointer to a message struct: `b` is the input, `v` the message. -/
def unmarshalH (grow : Nat → Nat → Nat) (env : Env) (b : Win) (t : TypeId) (v : HVal) (m : Arena) : Except Fault URes :=
  if b.len = 0 then .ok ⟨v, m, none⟩
  else do
    match ← decodeMsgH grow env (b.len + 1) t b v m with
    | (.err v e, m) => return ⟨v, m, some (.decode e)⟩
    | (.ok v n, m) =>
      if n < b.len then return ⟨v, m, some (.shortRead n b.len)⟩
      else return ⟨v, m, none⟩

end Pb
