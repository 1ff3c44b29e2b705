import Verif.Spec.Typing
import Verif.Spec.Records
import Verif.Proofs.Enc
/-
Side conditions under which the library is right, and the values it can encode.
-/
namespace Pb
open Spec

/-- The size of a tag was computed from the tag. -/
def FTag.OK (f : FTag) : Prop := f.tagsize = sizeOfVarint f.wiretag

/-- All tags inside a codec are consistent. -/
def Codec.TagsOK : Codec → Prop
  | .normal _ | .required _ | .option _ | .bytes | .msg _ => True
  | .ptr _ c => c.TagsOK
  | .slice _ c => c.TagsOK
  | .map i kc vc kd vd => i.key.OK ∧ i.val.OK ∧ kc.TagsOK ∧ vc.TagsOK ∧ kd.TagsOK ∧ vd.TagsOK

/-- All tags in the type infos are consistent. -/
def TagsOK (env : Env) : Prop := ∀ t, ∀ f ∈ (env t).fields, f.tag.OK ∧ f.codec.TagsOK

/-- The wire type the protobuf specification assigns to a scalar encoding. -/
def Scalar.wire : Scalar → Nat
  | .bool | .int32 | .int64 | .uint32 | .uint64 | .zigzag32 | .zigzag64 => 0
  | .fixed64 | .float64 => 1
  | .string => 2
  | .fixed32 | .float32 => 5

/-- `c.Reads w`: the codec's decode function expects payloads of wire type `w`. -/
def Codec.Reads : Codec → Nat → Prop
  | .normal s, w | .required s, w | .option s, w => w = s.wire
  | .bytes, w | .msg _, w => w = 2
  | .ptr _ c, w | .slice _ c, w => c.Reads w
  | .map i _ _ kd vd, w => w = 2 ∧ kd.Reads (keyType i.eKey) ∧ vd.Reads (keyType i.eVal)

/-- `c.Writes w`: the codec's encode function produces payloads of wire type `w`. -/
def Codec.Writes : Codec → Nat → Prop
  | .normal s, w | .required s, w | .option s, w => w = s.wire
  | .bytes, w | .msg _, w => w = 2
  | .ptr _ c, w | .slice _ c, w => c.Writes w
  | .map i kc vc _ _, w => w = 2 ∧ kc.Writes (keyType i.key.wiretag) ∧ vc.Writes (keyType i.val.wiretag)

/-- The codec reads bool payloads. -/
def Codec.isBool : Codec → Prop
  | .normal s | .required s | .option s => s = .bool
  | .bytes | .msg _ | .map .. => False
  | .ptr _ c | .slice _ c => c.isBool

/-- All fields read the wire type they announce. -/
def ReadsOK (env : Env) : Prop := ∀ t, ∀ f ∈ (env t).fields, f.codec.Reads (keyType f.tag.wiretag)

/-- Every record of a bool field that starts at a record boundary of `b` has a one-byte payload. (Multi-byte bool
payloads are misread, see `C28_multi_byte_bool_desyncs`.) Trivially true for types without bool fields. -/
def BoolsShort (fields : List Field) (b : Bytes) : Prop :=
  ∀ a rs u num wt data r, b = a ++ (u ++ r) → Spec.Records a rs → Spec.Record u num wt data →
    ∀ f ∈ fields, keyNumber f.tag.wiretag = num → f.codec.isBool → data.length = 1

/-- Different fields of a struct occupy different slots. -/
def DistinctSlots (fields : List Field) : Prop :=
  ∀ f ∈ fields, ∀ g ∈ fields, f.offset = g.offset → f = g

/-- The field that carries number `n` on input: the last one declared with it. -/
def Declared (fields : List Field) (n : Nat) (f : Field) : Prop :=
  ∃ xs ys, fields = xs ++ f :: ys ∧ keyNumber f.tag.wiretag = n ∧ ∀ g ∈ ys, keyNumber g.tag.wiretag ≠ n

/-- No field carries number `n`. -/
def Undeclared (fields : List Field) (n : Nat) : Prop := ∀ g ∈ fields, keyNumber g.tag.wiretag ≠ n

/-- `EncOK env c v`: the size computation of map.go:80, which applies the key codec to the value, happens to be
right for every entry of every map inside `v`. Without maps this holds trivially. -/
inductive EncOK (env : Env) : Codec → Val → Prop
  | normal (s v) : EncOK env (.normal s) v
  | required (s v) : EncOK env (.required s) v
  | option (s v) : EncOK env (.option s) v
  | bytes (v) : EncOK env .bytes v
  | ptrNil (z c) : EncOK env (.ptr z c) .nilp
  | ptr (z c v) : EncOK env c v → EncOK env (.ptr z c) (.ptr v)
  | msgNil (t) : EncOK env (.msg t) .nilp
  | msg (t vs) : (∀ f ∈ (env t).fields, ∀ v, vs[f.offset]? = some v → EncOK env f.codec v) →
      EncOK env (.msg t) (.ptr (.struct vs))
  | slice (z c isNil es spare) : (∀ e ∈ es, EncOK env c e) → EncOK env (.slice z c) (.slice isNil es spare)
  | map (i kc vc kd vd isNil) (m : List (Key × Val)) :
      (∀ e ∈ m, codecSize (sizeM env) kc e.2 i.val = codecSize (sizeM env) vc e.2 i.val) →
      (∀ e ∈ m, EncOK env kc e.1.toVal) → (∀ e ∈ m, EncOK env vc e.2) →
      EncOK env (.map i kc vc kd vd) (.map isNil m)

/-- `EncOK` for a message. -/
def EncOKMsg (env : Env) (t : TypeId) (v : Val) : Prop := EncOK env (.msg t) (.ptr v)

end Pb
