import Verif.Model.Walker
import Verif.Model.Api
/-
Type analysis with its caches, and goroutines that share them: proto/walker.go, proto/slice.go:11-29, proto/map.go:20-28 and
100-106, proto/proto.go:108-125.

`Model/Walker.lean` reads the analysis without caches: a type gets one type info, and a field the codec its type and tag call
for. In the code, codecs and type infos are objects in memory: they are allocated first and filled in later, found again in
the maps `w.codecs` and `w.infos` of one analysis (keyed by Go type only) and in the global maps `structInfoCache`,
`codecCache` and `sliceMap`. Here the objects and the global maps are a state shared by all goroutines, and other
goroutines run between any two operations on it.

Simplifications:
* The three functions of a codec are set by one operation, as are `fields` and `fieldIndex` of a type info. (In the code the
  functions `size` and `encode` of a map codec are set before the entry struct is analysed.)
* Operations are sequentially consistent.
* Two struct types are the same iff they have the same declaration (entry structs of maps, made by `reflect.StructOf`) or the
  same `TypeId`.
-/
namespace Pb.Cache

deriving instance DecidableEq for FieldDecl

/-- A `reflect.Type` of kind struct: declared in the program, or made by `reflect.StructOf` (map.go:101-104). -/
inductive InfoKey where
  | named (t : TypeId)
  | anon (d : StructDecl)
deriving DecidableEq

/-- The fields of a struct type. -/
def InfoKey.decl (D : Decls) : InfoKey → StructDecl
  | .named t => D t
  | .anon d => d

/-- The global codec variables of normal_codec.go, required_codec.go and option_codec.go. -/
inductive Glob where
  | normal (s : Scalar)
  | required (s : Scalar)
  | option (s : Scalar)
  | bytes
deriving DecidableEq

/-- The variable as a codec of `Model/Codec.lean`. -/
def Glob.codec : Glob → Codec
  | .normal s => .normal s
  | .required s => .required s
  | .option s => .option s
  | .bytes => .bytes

/-- A `*codec`: the address of a global variable or of an allocated codec. -/
inductive CPtr where
  | glob (g : Glob)
  | heap (n : Nat)
deriving DecidableEq

/-- struct.go:16-21 `structField`. -/
structure FieldH where
  offset : Nat
  tag : FTag
  codec : CPtr

/-- What the functions of a codec are:
* `ptr zero c`: walker.go:293-295, closures over the codec of the element type
* `msg t i`: walker.go:88-118, closures over the type info (address `i`) and the type `t`
* `slice zero c`: slice.go:22-24, closures over the element codec
* `map i kc vc info`: map.go:24-26, closures over the codecs of key and value and the type info of the entry struct. The
  parts `eKey`, `eVal` of the `MapInfo` are not used. -/
inductive CBody where
  | ptr (zero : Val) (c : CPtr)
  | msg (t : TypeId) (i : Nat)
  | slice (zero : Val) (c : CPtr)
  | map (i : MapInfo) (kc vc : CPtr) (info : Nat)

/-- struct.go:11-14 `structInfo`; `fields` is `none` while it is nil. -/
structure InfoObj where
  key : InfoKey
  fields : Option (List FieldH)

/-- The state shared by all goroutines: the allocated type infos and codecs (addresses count up from 0; a codec without body
has nil functions), and the global maps proto.go:108-109, slice.go:11. -/
structure State where
  infos : List InfoObj
  codecs : List (Option CBody)
  infoCache : InfoKey → Option Nat
  codecCache : TypeId → Option CPtr
  sliceMap : CPtr → Option CPtr

/-- When the process starts. -/
def State.init : State :=
  { infos := [], codecs := [], infoCache := fun _ => none, codecCache := fun _ => none, sliceMap := fun _ => none }

/-- Operations on the shared state. -/
inductive Op where
  /-- `structInfoCache.Load` -/
  | infoLoad (k : InfoKey)
  /-- `structInfoCache.Store` -/
  | infoStore (k : InfoKey) (i : Nat)
  /-- `structInfoCache.LoadOrStore` -/
  | infoLoadOrStore (k : InfoKey) (i : Nat)
  /-- `codecCache.Load`; the key `*t` -/
  | codecLoad (t : TypeId)
  /-- `codecCache.LoadOrStore` -/
  | codecLoadOrStore (t : TypeId) (c : CPtr)
  /-- `sliceMap.Load` -/
  | sliceLoad (c : CPtr)
  /-- `sliceMap.LoadOrStore` -/
  | sliceLoadOrStore (c s : CPtr)
  /-- `new(structInfo)` -/
  | newInfo (k : InfoKey)
  /-- `info.fields = ...; info.fieldIndex = ...` -/
  | setInfo (i : Nat) (fs : List FieldH)
  /-- `new(codec)` -/
  | newCodec
  /-- `c.size = ...; c.encode = ...; c.decode = ...` -/
  | setCodec (c : Nat) (b : CBody)

/-- What an operation returns. -/
def Op.Resp : Op → Type
  | .infoLoad _ => Option Nat
  | .infoStore _ _ => Unit
  | .infoLoadOrStore _ _ => Nat
  | .codecLoad _ => Option CPtr
  | .codecLoadOrStore _ _ => CPtr
  | .sliceLoad _ => Option CPtr
  | .sliceLoadOrStore _ _ => CPtr
  | .newInfo _ => Nat
  | .setInfo _ _ => Unit
  | .newCodec => Nat
  | .setCodec _ _ => Unit

/-- Map update. -/
def upd {α β : Type} [DecidableEq α] (m : α → β) (a : α) (b : β) : α → β := fun x => if x = a then b else m x

/-- Executes an operation. -/
def exec : (o : Op) → State → o.Resp × State
  | .infoLoad k, s => (s.infoCache k, s)
  | .infoStore k i, s => ((), { s with infoCache := upd s.infoCache k (some i) })
  | .infoLoadOrStore k i, s =>
    match s.infoCache k with
    | some j => (j, s)
    | none => (i, { s with infoCache := upd s.infoCache k (some i) })
  | .codecLoad t, s => (s.codecCache t, s)
  | .codecLoadOrStore t c, s =>
    match s.codecCache t with
    | some c' => (c', s)
    | none => (c, { s with codecCache := upd s.codecCache t (some c) })
  | .sliceLoad c, s => (s.sliceMap c, s)
  | .sliceLoadOrStore c p, s =>
    match s.sliceMap c with
    | some p' => (p', s)
    | none => (p, { s with sliceMap := upd s.sliceMap c (some p) })
  | .newInfo k, s => (s.infos.length, { s with infos := s.infos ++ [{ key := k, fields := none }] })
  | .setInfo i fs, s => ((), { s with infos := s.infos.modify i fun o => { o with fields := some fs } })
  | .newCodec, s => (s.codecs.length, { s with codecs := s.codecs ++ [none] })
  | .setCodec c b, s => ((), { s with codecs := s.codecs.set c (some b) })

/-- A computation of one goroutine, up to its next operation on the shared state. -/
inductive Prog (α : Type) where
  | ret (a : α)
  | panic
  /-- the bound on the nesting of struct types was too small -/
  | stuck
  | op (o : Op) (k : o.Resp → Prog α)

/-- Sequential composition. -/
def Prog.bind {α β : Type} : Prog α → (α → Prog β) → Prog β
  | .ret a, f => f a
  | .panic, _ => .panic
  | .stuck, _ => .stuck
  | .op o k, f => .op o fun r => (k r).bind f

instance : Monad Prog where
  pure := .ret
  bind := .bind

/-- One operation. -/
def perform (o : Op) : Prog o.Resp := .op o .ret

/-- walker.go:19-22 `walker`: private to one analysis. -/
structure Walk where
  codecs : GoType → Option CPtr
  infos : InfoKey → Option Nat

/-- proto.go:117-120 -/
def Walk.init : Walk := { codecs := fun _ => none, infos := fun _ => none }

/-- `w.codecs[t] = c` -/
def Walk.setCodec (w : Walk) (t : GoType) (c : CPtr) : Walk := { w with codecs := upd w.codecs t (some c) }

/-- A computation that uses `w`. -/
abbrev WProg (α : Type) := Walk → Prog (α × Walk)

/-- walker.go:77-121 `structCodec(*t)`; `rec` is `w.structInfo`. -/
def structCodecP (rec : InfoKey → WProg Nat) (t : TypeId) : WProg CPtr := fun w => do
  match ← perform (.codecLoad t) with
  | some c => return (c, w)
  | none =>
    match w.codecs (.ptr (.named t)) with
    | some c => return (c, w)
    | none =>
      let c ← perform .newCodec
      let w := w.setCodec (.ptr (.named t)) (.heap c)
      let (i, w) ← rec (.named t) w
      perform (.setCodec c (.msg t i))
      let actual ← perform (.codecLoadOrStore t (.heap c))
      return (actual, w)

/-- walker.go:29-75 `codec`, 299-340 `required` and 284-297 `pointer`, as `wCodec`, with the look-up in `w.codecs` at
walker.go:30-32 (and again 300-302). -/
def wCodecP (rec : InfoKey → WProg Nat) (conf : Conf) : GoType → WProg CPtr
  | .ptr t => fun w =>
    match w.codecs (.ptr t) with
    | some c => return (c, w)
    | none =>
      match t with
      | .named t => structCodecP rec t w
      | t => do
        let p ← perform .newCodec
        let w := w.setCodec (.ptr t) (.heap p)
        let (c, w) ← wCodecP rec conf t w
        perform (.setCodec p (.ptr (zeroOf t) c))
        return (.heap p, w)
  | .slice t => fun w =>
    match w.codecs (.slice t) with
    | some c => return (c, w)
    | none => if t = .uint8 then return (.glob .bytes, w) else .panic
  | t => fun w =>
    match w.codecs t with
    | some c => return (c, w)
    | none =>
      match kindScalar conf.zigzag t with
      | some s => return (.glob (if conf.required then .required s else .normal s), w)
      | none => .panic

/-- slice.go:13-29 `sliceCodecOf(t, c, w)`; `zero` is the zero value of the element type. -/
def sliceCodecP (t : GoType) (zero : Val) (c : CPtr) : WProg CPtr := fun w => do
  match ← perform (.sliceLoad c) with
  | some s => return (s, w)
  | none =>
    match w.codecs t with
    | some s => return (s, w)
    | none =>
      let s ← perform .newCodec
      let w := w.setCodec t (.heap s)
      perform (.setCodec s (.slice zero c))
      let actual ← perform (.sliceLoadOrStore c (.heap s))
      return (actual, w)

/-- map.go:101-104: the entry struct, for the wire tags of key and value. -/
def entryDecl (k v : GoType) (kt vt : U64) : StructDecl :=
  [{ tag := some (formatWireTag kt), ty := .ty k }, { tag := some (formatWireTag vt), ty := .ty v }]

/-- The address of a global variable. -/
def globOf : Codec → CPtr
  | .normal s => .glob (.normal s)
  | .required s => .glob (.required s)
  | .option s => .glob (.option s)
  | _ => .glob .bytes

/-- walker.go:166-259 for a field whose type is not an `Option`, as `tyCodec`. -/
def tyCodecP (rec : InfoKey → WProg Nat) (t : StructTag) (keyTag valTag : Text) : GoType → WProg CPtr
  | .map k v => fun w => do
    let kt := (parseStructTag keyTag).1
    let (kc, w) ← wCodecP rec { zigzag := kt.zigzag, required := true } k w
    let vt := (parseStructTag valTag).1
    let (vc, w) ← wCodecP rec { zigzag := vt.zigzag, required := true } v w
    -- map.go:20-28
    let m ← perform .newCodec
    let w := w.setCodec (.map k v) (.heap m)
    let (info, w) ← rec (.anon (entryDecl k v kt.wiretag vt.wiretag)) w
    perform (.setCodec m (.map
      { wiretag := t.wiretag
        key := { wiretag := kt.wiretag, tagsize := sizeOfVarint kt.wiretag }
        val := { wiretag := vt.wiretag, tagsize := sizeOfVarint vt.wiretag }
        eKey := 0#64, eVal := 0#64
        kzero := zeroOf k, vzero := zeroOf v } kc vc info))
    return (.heap m, w)
  | ty => fun w =>
    match fixedCodec t.wireType (.ty ty) with
    | some c => return (globOf c, w)
    | none =>
      match baseTypeOf ty with
      | .slice _ =>
        match ty with
        | .slice .uint8 => return (.glob .bytes, w)
        | .slice elem => do
          let (c, w) ← wCodecP rec { zigzag := t.zigzag, required := true } elem w
          sliceCodecP ty (zeroOf elem) c w
        | .ptr elem => do
          let (c, w) ← wCodecP rec { zigzag := t.zigzag, required := true } elem w
          sliceCodecP ty (zeroOf elem) c w
        | _ => .panic
      | .map _ _ => .panic
      | _ => wCodecP rec { zigzag := t.zigzag, required := false } ty w

/-- walker.go:165-259: the codec of a field, as `fieldCodec`. -/
def fieldCodecP (rec : InfoKey → WProg Nat) (t : StructTag) (keyTag valTag : Text) : FieldType → WProg CPtr
  | .opt b => fun w =>
    match fixedCodec t.wireType (.opt b) with
    | some c => return (globOf c, w)
    | none =>
      match optionCodec t.zigzag b with
      | some c => return (globOf c, w)
      | none => .panic
  | .ty ty => tyCodecP rec t keyTag valTag ty

/-- walker.go:145-262: the loop over the fields of a struct, from field index `i`, as `walkFields`. -/
def walkFieldsP (rec : InfoKey → WProg Nat) (i : Nat) : List FieldDecl → WProg (List FieldH)
  | [] => fun w => return ([], w)
  | f :: fs => fun w =>
    if f.exported then
      match f.tag with
      | none => walkFieldsP rec (i + 1) fs w
      | some text =>
        if (parseStructTag text).2 then .panic
        else do
          let t := (parseStructTag text).1
          let (c, w) ← fieldCodecP rec t f.keyTag f.valTag f.ty w
          let (rest, w) ← walkFieldsP rec (i + 1) fs w
          return ({ offset := i
                    tag := { wiretag := t.wiretag, tagsize := sizeOfVarint t.wiretag }
                    codec := c } :: rest, w)
    else walkFieldsP rec (i + 1) fs w

/-- walker.go:134-276 `structInfo`, with struct types nested at most `d` deep. -/
def structInfoP (D : Decls) : Nat → InfoKey → WProg Nat
  | 0, _ => fun _ => .stuck
  | d + 1, key => fun w => do
    match ← perform (.infoLoad key) with
    | some i => return (i, w)
    | none =>
      match w.infos key with
      | some i => return (i, w)
      | none =>
        let i ← perform (.newInfo key)
        let w := { w with infos := upd w.infos key (some i) }
        let (fs, w) ← walkFieldsP (structInfoP D d) 0 (key.decl D) w
        perform (.setInfo i fs)
        perform (.infoStore key i)
        return (i, w)

/-- proto.go:111-125 `cachedStructInfoOf`. -/
def cachedStructInfoOf (D : Decls) (d : Nat) (t : TypeId) : Prog Nat := do
  match ← perform (.infoLoad (.named t)) with
  | some i => return i
  | none =>
    let (i, _) ← structInfoP D d (.named t) Walk.init
    perform (.infoLoadOrStore (.named t) i)

/-! ### Goroutines -/

/-- A call of `cachedStructInfoOf` in progress. -/
structure Thread where
  root : TypeId
  prog : Prog Nat

/-- The process. -/
structure Sys where
  state : State
  threads : List Thread

/-- One step of the process: a goroutine calls an API function with a message of type `t`, or one of those running executes
its next operation. -/
inductive Step (D : Decls) : Sys → Sys → Prop
  | call (s : Sys) (d : Nat) (t : TypeId) :
      Step D s { s with threads := s.threads ++ [{ root := t, prog := cachedStructInfoOf D d t }] }
  | run (s : Sys) (n : Nat) (t : TypeId) (o : Op) (k : o.Resp → Prog Nat) :
      s.threads[n]? = some { root := t, prog := .op o k } →
      Step D s { state := (exec o s.state).2
                 threads := s.threads.set n { root := t, prog := k (exec o s.state).1 } }

/-- States the process can get into. -/
inductive Reachable (D : Decls) : Sys → Prop
  | init : Reachable D { state := .init, threads := [] }
  | step (s s') : Reachable D s → Step D s s' → Reachable D s'

/-! ### What the objects mean to the API functions -/

/-- The codec at an address, with the addresses of type infos for the types of nested messages. A codec that is not filled in
has nil functions, and calling them panics; it becomes a codec that faults on every slot of a pointer, slice or map type. -/
def State.codecAt (s : State) : Nat → CPtr → Codec
  | _, .glob g => g.codec
  | 0, .heap _ => .option .bool
  | d + 1, .heap n =>
    match s.codecs[n]? with
    | some (some (.ptr z c)) => .ptr z (s.codecAt d c)
    | some (some (.msg _ i)) => .msg i
    | some (some (.slice z c)) => .slice z (s.codecAt d c)
    | some (some (.map i kc vc info)) =>
      match s.infos[info]? with
      | some { key := _, fields := some [fk, fv] } =>
        .map { i with eKey := fk.tag.wiretag, eVal := fv.tag.wiretag } (s.codecAt d kc) (s.codecAt d vc)
          (s.codecAt d fk.codec) (s.codecAt d fv.codec)
      | _ => .option .bool
    | _ => .option .bool

/-- The type infos at their addresses. A type info that is not filled in has no fields (struct.go:39, 50 range over a nil
slice, struct.go:65 looks up in a nil map). -/
def State.env (D : Decls) (s : State) : Env := fun i =>
  match s.infos[i]? with
  | some o =>
    { fields := (o.fields.getD []).map fun f => { offset := f.offset, tag := f.tag, codec := s.codecAt (s.codecs.length + 1) f.codec }
      zero := zeroStruct (o.key.decl D) }
  | none => { fields := [], zero := .struct [] }

/-- proto.go:25-35 `Marshal` of a message whose type info is at address `i`. -/
def marshalAt (D : Decls) (s : State) (i : Nat) (v : Val) : Except Fault (Except ApiErr Bytes) :=
  marshal (s.env D) (.msg i v)

/-- proto.go:15-23 `Size`. -/
def sizeAt (D : Decls) (s : State) (i : Nat) (v : Val) : Except Fault Nat := size (s.env D) (.msg i v)

/-- The message after `Unmarshal` into the message `v`, and the error. -/
def _root_.Pb.UnmarshalRes.value (r : UnmarshalRes) (v : Val) : Val × Option ApiErr :=
  match r.target with
  | .msg _ v' => (v', r.err)
  | _ => (v, r.err)

/-- proto.go:37-61 `Unmarshal`: the message afterwards and the error. -/
def unmarshalAt (D : Decls) (s : State) (b : Bytes) (i : Nat) (v : Val) : Except Fault (Val × Option ApiErr) :=
  (unmarshal (s.env D) b (.msg i v)).map fun r => r.value v

end Pb.Cache
