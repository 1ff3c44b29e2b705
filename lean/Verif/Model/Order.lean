import Verif.Model.Api
/-
Size and encode with the map iteration order left open: every `range`-like loop over a map (map.go:45-49, 73-86,
`MapIterInit`/`MapIterNext`) may visit the entries in any order, and a later loop over the same map in another.
`Model/Codec.lean` uses the one order in which a map value lists its entries; `Props/Order.lean` relates the two.
-/
namespace Pb

/-- A computation whose outcome is not determined: the set of its possible outcomes. -/
def ND (α : Type) := Except Fault α → Prop

namespace ND
/-- The only outcome is `a`. -/
def ret {α} (a : α) : ND α := fun r => r = .ok a
/-- Run `m`, then `f` on its result; a fault of `m` ends the computation. -/
def andThen {α β} (m : ND α) (f : α → ND β) : ND β := fun r =>
  (∃ e, m (.error e) ∧ r = .error e) ∨ ∃ a, m (.ok a) ∧ f a r
instance : Monad ND where
  pure := ret
  bind := andThen
/-- A computation without choices. -/
def lift {α} (x : Except Fault α) : ND α := fun r => r = x
/-- `runtime.mapiterinit` picks some order of the entries. -/
def anyOrder (m : List (Key × Val)) : ND (List (Key × Val)) := fun r => ∃ m', m.Perm m' ∧ r = .ok m'
end ND

/-- As `sumSizes` (struct.go:39-43, slice.go:36-39). -/
def sumSizesN {α} (size : α → ND Nat) : Nat → List α → ND Nat
  | n, [] => pure n
  | n, x :: xs => do
    let s ← size x
    sumSizesN size (n + s) xs

/-- As `codecSize`, with the loop at map.go:45-49 in any order. -/
def codecSizeN (rec : TypeId → Val → ND Nat) : Codec → Val → FTag → ND Nat
  | .normal s, p, f => ND.lift (sizeNormal s p f)
  | .required s, p, f => ND.lift (sizeRequired s p f)
  | .option s, p, f => ND.lift (sizeOption s p f)
  | .bytes, p, f => ND.lift (sizeOfBytes p f)
  | .ptr _ c, p, f =>
    match p with
    | .nilp => pure 0
    | .ptr v => codecSizeN rec c v f
    | _ => ND.lift (.error .confused)
  | .msg t, p, f =>
    match p with
    | .nilp => pure 0
    | .ptr v => do
      let n ← rec t v
      pure (n + (sizeOfVarint (BitVec.ofNat 64 n) + f.tagsize))
    | _ => ND.lift (.error .confused)
  | .slice _ c, p, f =>
    match p with
    | .slice _ es _ => sumSizesN (fun e => codecSizeN rec c e f) 0 es
    | _ => ND.lift (.error .confused)
  | .map i kc vc _ _, p, _ =>
    match p with
    | .map _ m => do
      let mapTagSize := sizeOfVarint i.wiretag
      let m ← ND.anyOrder m
      let n ← sumSizesN (fun (e : Key × Val) => do
        let keySize ← codecSizeN rec kc e.1.toVal i.key
        let valSize ← codecSizeN rec vc e.2 i.val
        pure (mapTagSize + sizeOfVarint (BitVec.ofNat 64 (keySize + valSize)) + keySize + valSize)) 0 m
      if n = 0 then pure (mapTagSize + 1) else pure n
    | _ => ND.lift (.error .confused)

/-- As `structSize` (struct.go:35-44). -/
def structSizeN (size : Codec → Val → FTag → ND Nat) (fields : List Field) (p : Val) : ND Nat :=
  sumSizesN (fun (f : Field) => do
    let v ← ND.lift (slotOf p f.offset)
    size f.codec v f.tag) 0 fields

/-- As `sizeMsg`. -/
def sizeMsgN (env : Env) : Nat → TypeId → Val → ND Nat
  | 0, _, _ => ND.lift (.error .depth)
  | d + 1, t, v => structSizeN (codecSizeN (sizeMsgN env d)) (env t).fields v

/-- As `appendAll` (struct.go:50-52, slice.go:49-52). -/
def appendAllN {α} (enc : Bytes → α → ND Bytes) : Bytes → List α → ND Bytes
  | b, [] => pure b
  | b, x :: xs => do
    let b ← enc b x
    appendAllN enc b xs

/-- As `codecEncode`, with the loop at map.go:73-86 in any order. -/
def codecEncodeN (sz : TypeId → Val → ND Nat) (rec : TypeId → Bytes → Val → ND Bytes) :
    Codec → Bytes → Val → FTag → ND Bytes
  | .normal s, b, p, f => ND.lift (encodeNormal s b p f)
  | .required s, b, p, f => ND.lift (encodeRequired s b p f)
  | .option s, b, p, f => ND.lift (encodeOption s b p f)
  | .bytes, b, p, f => ND.lift (encodeBytes b p f)
  | .ptr _ c, b, p, f =>
    match p with
    | .nilp => pure b
    | .ptr v => codecEncodeN sz rec c b v f
    | _ => ND.lift (.error .confused)
  | .msg t, b, p, f =>
    match p with
    | .nilp => pure b
    | .ptr v => do
      let b := appendVarint b f.wiretag
      let n ← sz t v
      let b := appendVarint b (BitVec.ofNat 64 n)
      rec t b v
    | _ => ND.lift (.error .confused)
  | .slice _ c, b, p, f =>
    match p with
    | .slice _ es _ => appendAllN (fun b e => codecEncodeN sz rec c b e f) b es
    | _ => ND.lift (.error .confused)
  | .map i kc vc _ _, b, p, _ =>
    match p with
    | .map _ m => do
      let mapTag := appendVarint [] i.wiretag
      let zero := mapTag ++ [0#8]
      let origLen := b.length
      let m ← ND.anyOrder m
      let b ← appendAllN (fun b (e : Key × Val) => do
        let keySize ← codecSizeN sz kc e.1.toVal i.key
        let valSize ← codecSizeN sz kc e.2 i.val  -- map.go:80, as in `codecEncode`
        let elemSize := keySize + valSize
        let b := b ++ mapTag
        let b := appendVarint b (BitVec.ofNat 64 elemSize)
        let b ← codecEncodeN sz rec kc b e.1.toVal i.key
        codecEncodeN sz rec vc b e.2 i.val) b m
      if b.length = origLen then pure (b ++ zero) else pure b
    | _ => ND.lift (.error .confused)

/-- As `structEncode` (struct.go:46-54). -/
def structEncodeN (enc : Codec → Bytes → Val → FTag → ND Bytes) (fields : List Field) (b : Bytes) (p : Val) : ND Bytes :=
  appendAllN (fun b (f : Field) => do
    let v ← ND.lift (slotOf p f.offset)
    enc f.codec b v f.tag) b fields

/-- As `encodeMsg`. -/
def encodeMsgN (env : Env) : Nat → TypeId → Bytes → Val → ND Bytes
  | 0, _, _, _ => ND.lift (.error .depth)
  | d + 1, t, b, v =>
    structEncodeN (codecEncodeN (sizeMsgN env d) (encodeMsgN env d)) (env t).fields b v

/-- proto.go:15-23 `Size` of a message, every possible result. -/
def sizeN (env : Env) (t : TypeId) (v : Val) : ND Nat := sizeMsgN env (v.depth + 1) t v

/-- proto.go:25-35 `Marshal` of a message, every possible result. -/
def marshalN (env : Env) (t : TypeId) (v : Val) : ND Bytes := do
  let _n ← sizeMsgN env (v.depth + 1) t v
  encodeMsgN env (v.depth + 1) t [] v

end Pb
