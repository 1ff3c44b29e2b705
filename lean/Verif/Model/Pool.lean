import Verif.Model.Api
/-
Map decoding with its pool of scratch structs, and goroutines that share the pools: proto/map.go:107-143.

`Model/Codec.lean` lets every map entry be decoded into a fresh zero struct. Here the scratch structs have addresses and
contents in a memory shared by all goroutines, `sync.Pool` hands them out and takes them back, and other goroutines run
between any two of these operations.

Simplifications:
* A pool belongs to an entry struct with given zero contents instead of to one call of `mapDecodeFuncOf`: fields whose
  entries have the same zero contents share a pool here. `Get` may return nil or any struct in the pool, so every
  execution with separate pools is one of those here.
* `info.decode(b[nl:], s)` is one read of the scratch struct, the decoding, and one write, whereas the code writes field
  by field. `C42_exclusive` says that no other goroutine touches the struct in between.
* The message being decoded belongs to one goroutine: calls do not share target memory.
-/
namespace Pb

/-- A computation of one goroutine, up to its next operation on shared memory. The addresses of scratch structs are
natural numbers. -/
inductive Prog (α : Type) where
  | ret (a : α)
  | fail (f : Fault)
  /-- `structPool.Get()`; `z` is the zero of the struct type. `none` is the nil interface. -/
  | get (z : Val) (k : Option Nat → Prog α)
  /-- `reflect.New(structType)` -/
  | new (z : Val) (k : Nat → Prog α)
  /-- the contents of the struct -/
  | load (a : Nat) (k : Val → Prog α)
  /-- overwrites the struct -/
  | store (a : Nat) (v : Val) (k : Prog α)
  /-- `structPool.Put(s)` -/
  | put (z : Val) (a : Nat) (k : Prog α)

namespace Prog

/-- Sequential composition. -/
def bind {α β : Type} : Prog α → (α → Prog β) → Prog β
  | ret a, f => f a
  | fail e, _ => fail e
  | get z k, f => get z fun a => (k a).bind f
  | new z k, f => new z fun a => (k a).bind f
  | load a k, f => load a fun v => (k v).bind f
  | store a v k, f => store a v (k.bind f)
  | put z a k, f => put z a (k.bind f)

/-- A computation on private memory. -/
def lift {α : Type} : Except Fault α → Prog α
  | .ok a => ret a
  | .error e => fail e

end Prog

/-- What `structInfo.decode` uses of a field (see `DField`). -/
structure PoolField where
  num : Nat
  wt : Nat
  offset : Nat
  dec : Bytes → Val → Prog DRes

/-- struct.go:13 and walker.go:269-272, as `fieldIndex`. -/
def fieldIndexP (fields : List PoolField) : Nat → Option PoolField :=
  fields.foldl (fun m f => fun n => if n = f.num then some f else m n) (fun _ => none)

/-- struct.go:56-149 `structInfo.decode`, as `structLoop`. -/
def structLoopP (idx : Nat → Option PoolField) (b : Bytes) : Nat → Nat → List Val → Prog DRes
  | fuel, offset, vs =>
    if offset < b.length then
      match fuel with
      | 0 => .fail .depth
      | fuel + 1 =>
        (Prog.lift (goFrom b offset)).bind fun rest =>
        let (num, wt, n, err) := decodeTag rest
        let offset := offset + n
        match err with
        | some e => .ret (.err (.struct vs) e)
        | none =>
          match idx num with
          | none =>
            (Prog.lift (skipUnknown b offset wt)).bind fun r =>
            match r.2 with
            | some e => .ret (.err (.struct vs) (.field num wt e))
            | none => structLoopP idx b fuel r.1 vs
          | some f =>
            if wt ≠ f.wt then
              .ret (.err (.struct vs) (.field num wt (.expectedWireType f.wt)))
            else
              (Prog.lift (fieldData b offset wt)).bind fun
              | .error e => .ret (.err (.struct vs) (.field num wt e))
              | .ok data =>
                (Prog.lift (slotOf (.struct vs) f.offset)).bind fun v =>
                (f.dec data v).bind fun
                | .ok v n => structLoopP idx b fuel (offset + n) (vs.set f.offset v)
                | .err v e => .ret (.err (.struct (vs.set f.offset v)) (.field num wt e))
    else .ret (.ok (.struct vs) offset)

/-- struct.go:56-149 `structInfo.decode`, as `structDecode`. -/
def structDecodeP (fields : List PoolField) (b : Bytes) (p : Val) : Prog DRes :=
  match p with
  | .struct vs => structLoopP (fieldIndexP fields) b b.length 0 vs
  | _ => .fail .confused

/-- The contents of the struct after `info.decode`, which decodes in place also when it fails. -/
def DRes.val : DRes → Val
  | .ok v _ => v
  | .err v _ => v

/-- map.go:136-139: `r` is what `info.decode` returned, `v` the contents of the scratch struct. -/
def entryAssign (m : List (Key × Val)) (nl : Nat) (r : DRes) (v : Val) : Except Fault DRes :=
  match r with
  | .err _ e => .ok (.err (.map false m) e)
  | .ok _ n =>
    match v with
    | .struct [k, v] =>
      match k.toKey? with
      | some k => .ok (.ok (.map false (mapAssign m k v)) (n + nl))
      | none => .error .confused
    | _ => .error .confused

/-- The decode functions, as `codecDecode` except for `map`: map.go:117-143. -/
def codecDecodeP (zeros : TypeId → Val) (rec : TypeId → Bytes → Val → Prog DRes) :
    Codec → Bytes → Val → Prog DRes
  | .normal s, b, p => .lift (decodeScalar s b p)
  | .required s, b, p => .lift (decodeScalar s b p)
  | .option s, b, p => .lift (decodeOption s b p)
  | .bytes, b, p => .lift (decodeBytes b p)
  | .ptr zero c, b, p =>
    match p with
    | .nilp => (codecDecodeP zeros rec c b zero).bind fun r => .ret (r.wrap .ptr)
    | .ptr v => (codecDecodeP zeros rec c b v).bind fun r => .ret (r.wrap .ptr)
    | _ => .fail .confused
  | .msg t, b, p =>
    (match p with
      | .nilp => Prog.ret (zeros t)
      | .ptr v => .ret v
      | _ => .fail .confused).bind fun v =>
    let (_, n, err) := decodeVarint b
    match err with
    | some e => .ret (.err (.ptr v) e)
    | none =>
      (Prog.lift (goFrom b n)).bind fun rest =>
      (rec t rest v).bind fun
      | .ok v l => .ret (.ok (.ptr v) (n + l))
      | .err v e => .ret (.err (.ptr v) e)
  | .slice zero c, b, p =>
    match p with
    | .slice isNil es spare =>
      let isNil := if spare = [] then false else isNil
      match growIfFull zero es spare with
      | [] => .fail .oob
      | slot :: spare =>
        (codecDecodeP zeros rec c b slot).bind fun
        | .ok v n => .ret (.ok (.slice isNil (es ++ [v]) spare) n)
        | .err v e => .ret (.err (.slice isNil es (v :: spare)) e)
    | _ => .fail .confused
  | .map i _ _ kd vd, b, p =>
    match p with
    | .map _ m =>
      if b = [] then .ret (.ok (.map false m) 0)
      else
        let z := Val.struct [i.kzero, i.vzero]
        -- map.go:126-129
        .get z fun s =>
        (match s with
          | some s => Prog.ret s
          | none => .new z .ret).bind fun s =>
        -- map.go:131-134: on error the struct is not put back
        let (_, nl, err) := decodeVarint b
        match err with
        | some e => .ret (.err (.map false m) e)
        | none =>
          let entry : List PoolField :=
            [{ num := wtNumber i.eKey, wt := wtType i.eKey, offset := 0, dec := codecDecodeP zeros rec kd },
             { num := wtNumber i.eVal, wt := wtType i.eVal, offset := 1, dec := codecDecodeP zeros rec vd }]
          (Prog.lift (goFrom b nl)).bind fun rest =>
          -- map.go:135
          .load s fun v =>
          (structDecodeP entry rest v).bind fun r =>
          .store s r.val <|
          -- map.go:136-139: the key and the value are copied out of the struct
          .load s fun v =>
          (Prog.lift (entryAssign m nl r v)).bind fun r =>
          -- map.go:140-141
          .store s z <|
          .put z s <|
          .ret r
    | _ => .fail .confused

/-- The decode view of the fields of a struct, as `dfields`. -/
def pfields (zeros : TypeId → Val) (rec : TypeId → Bytes → Val → Prog DRes) (fields : List Field) : List PoolField :=
  fields.map fun f =>
    { num := wtNumber f.tag.wiretag, wt := wtType f.tag.wiretag, offset := f.offset,
      dec := codecDecodeP zeros rec f.codec }

/-- `info.decode` with recursion depth at most `d`, as `decodeMsg`. -/
def decodeMsgP (env : Env) : Nat → TypeId → Bytes → Val → Prog DRes
  | 0, _, _, _ => .fail .depth
  | d + 1, t, b, v =>
    structDecodeP (pfields (fun t => (env t).zero) (decodeMsgP env d) (env t).fields) b v

/-- proto.go:37-61 `Unmarshal`, as `unmarshal`. -/
def unmarshalP (env : Env) (b : Bytes) (a : Arg) : Prog UnmarshalRes :=
  if b.length = 0 then .ret ⟨a, none⟩
  else
    match a with
    | .nilIface => .fail .panic
    | .nonPtr => .ret ⟨a, some .invalidUnmarshal⟩
    | .ptrOther _ => .ret ⟨a, some .invalidUnmarshal⟩
    | .nilMsg _ => .ret ⟨a, some .invalidUnmarshal⟩
    | .msg t v =>
      (decodeMsgP env (b.length + 1) t b v).bind fun
      | .err v e => .ret ⟨.msg t v, some (.decode e)⟩
      | .ok v n =>
        if n < b.length then .ret ⟨.msg t v, some (.shortRead n b.length)⟩
        else .ret ⟨.msg t v, none⟩

/-- A goroutine in a call of `Unmarshal`: its arguments and what is left to do. -/
structure Call where
  input : Bytes
  arg : Arg
  prog : Prog UnmarshalRes

/-- The process: scratch structs in memory, the pools, and the goroutines. -/
structure Sys where
  mem : Nat → Option Val
  pool : List (Val × Nat)
  calls : List Call

/-- Nothing has happened yet. -/
def Sys.start : Sys := { mem := fun _ => none, pool := [], calls := [] }

/-- The process after goroutine `i` went on with `p`. -/
def Sys.next (s : Sys) (i : Nat) (c : Call) (p : Prog UnmarshalRes) : Sys :=
  { s with calls := s.calls.set i { c with prog := p } }

/-- One step of the process. -/
inductive SysStep (env : Env) : Sys → Sys → Prop
  /-- a new call of `Unmarshal`, in any goroutine -/
  | call (s b a) : SysStep env s { s with calls := s.calls ++ [⟨b, a, unmarshalP env b a⟩] }
  /-- the garbage collector empties pools -/
  | gc (s xs e ys) : s.pool = xs ++ e :: ys → SysStep env s { s with pool := xs ++ ys }
  /-- `Get` finds nothing (`sync.Pool` may also return nil when other processors have structs) -/
  | getNone (s i c z k) : s.calls[i]? = some c → c.prog = .get z k → SysStep env s (s.next i c (k none))
  /-- `Get` takes any struct out of the pool -/
  | getSome (s i c z k xs a ys) : s.calls[i]? = some c → c.prog = .get z k → s.pool = xs ++ (z, a) :: ys →
      SysStep env s { s.next i c (k (some a)) with pool := xs ++ ys }
  | new (s i c z k a) : s.calls[i]? = some c → c.prog = .new z k → s.mem a = none →
      SysStep env s { s.next i c (k a) with mem := fun x => if x = a then some z else s.mem x }
  | load (s i c a k v) : s.calls[i]? = some c → c.prog = .load a k → s.mem a = some v → SysStep env s (s.next i c (k v))
  | store (s i c a v k) : s.calls[i]? = some c → c.prog = .store a v k →
      SysStep env s { s.next i c k with mem := fun x => if x = a then some v else s.mem x }
  | put (s i c z a k) : s.calls[i]? = some c → c.prog = .put z a k →
      SysStep env s { s.next i c k with pool := (z, a) :: s.pool }

/-- The states the process can get into, by any interleaving. -/
inductive SysReachable (env : Env) : Sys → Prop
  | start : SysReachable env .start
  | step (s s') : SysReachable env s → SysStep env s s' → SysReachable env s'

/-- The scratch struct that the next operation of a computation is on. -/
def Prog.touches {α : Type} : Prog α → Option Nat
  | .load a _ | .store a _ _ | .put _ a _ => some a
  | _ => none

end Pb
