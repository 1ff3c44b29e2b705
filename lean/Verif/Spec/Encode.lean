import Verif.Spec.Support
/-
The encoding of a message as the protobuf encoding guide describes it; no reference to the size and encode functions.
-/
namespace Pb.Spec

/-- The payload of a scalar. Negative `int32`/`int64` values are written as their 64-bit two's complement. -/
def payload : Scalar → Val → Bytes
  | .bool, .b8 x => [if x then 1#8 else 0#8]
  | .string, .str s => leb128 s.length ++ s
  | .float32, .w32 x | .fixed32, .w32 x => base256 4 x.toNat
  | .float64, .w64 x | .fixed64, .w64 x => base256 8 x.toNat
  | .int32, .w32 x => leb128 (x.toInt % 2 ^ 64).toNat
  | .int64, .w64 x => leb128 (x.toInt % 2 ^ 64).toNat
  | .uint32, .w32 x => leb128 x.toNat
  | .uint64, .w64 x => leb128 x.toNat
  | .zigzag32, .w32 x => leb128 (zigzag x.toInt)
  | .zigzag64, .w64 x => leb128 (zigzag x.toInt)
  | _, _ => []

/-- A length-delimited payload. -/
def delimited (s : Bytes) : Bytes := leb128 s.length ++ s

/-- The records with tag `w` and payloads `ds`. -/
def recordsOf (w : U64) (ds : List Bytes) : Bytes := (ds.map fun d => leb128 w.toNat ++ d).flatten

mutual
/-- `Encodes env c v ds`: a field with codec `c` and value `v` is represented by records with the payloads `ds`. -/
inductive Encodes (env : Env) : Codec → Val → List Bytes → Prop
  /-- implicit presence: a plain scalar is omitted iff it is zero -/
  | zero (s) : Encodes env (.normal s) s.shape.zero []
  | nonzero (s v) : v ≠ s.shape.zero → Encodes env (.normal s) v [payload s v]
  /-- elements of repeated fields, map keys and values are always written -/
  | required (s v) : Encodes env (.required s) v [payload s v]
  /-- explicit presence -/
  | none (s v) : Encodes env (.option s) (.opt false v) []
  | some (s v) : Encodes env (.option s) (.opt true v) [payload s v]
  | bytesNil : Encodes env .bytes (.bytes .none) []
  | bytes (s) : Encodes env .bytes (.bytes (.some s)) [delimited s]
  | ptrNil (z c) : Encodes env (.ptr z c) .nilp []
  | ptr (z c v ds) : Encodes env c v ds → Encodes env (.ptr z c) (.ptr v) ds
  | msgNil (t) : Encodes env (.msg t) .nilp []
  | msg (t vs body) : EncodesMsg env (env t).fields vs body → Encodes env (.msg t) (.ptr (.struct vs)) [delimited body]
  /-- repeated fields are not packed: one record per element -/
  | slice (z c n es sp ds) : EncodesL env c es ds → Encodes env (.slice z c) (.slice n es sp) ds
  /-- This is not protobuf's rule, but what the library does: an empty map is one record without contents. -/
  | mapEmpty (i kc vc kd vd n) : Encodes env (.map i kc vc kd vd) (.map n []) [[0#8]]
  | map (i kc vc kd vd n m ds) : m ≠ [] → EncodesM env i kc vc m ds → Encodes env (.map i kc vc kd vd) (.map n m) ds

/-- The elements of a repeated field. -/
inductive EncodesL (env : Env) : Codec → List Val → List Bytes → Prop
  | nil (c) : EncodesL env c [] []
  | cons (c e es ds ds') : Encodes env c e ds → EncodesL env c es ds' → EncodesL env c (e :: es) (ds ++ ds')

/-- The entries of a map: each a message with the key and the value. -/
inductive EncodesM (env : Env) : MapInfo → Codec → Codec → List (Key × Val) → List Bytes → Prop
  | nil (i kc vc) : EncodesM env i kc vc [] []
  | cons (i kc vc k v m kds vds ds) : Encodes env kc (Key.toVal k) kds → Encodes env vc v vds →
      EncodesM env i kc vc m ds → EncodesM env i kc vc ((k, v) :: m)
        (delimited (recordsOf i.key.wiretag kds ++ recordsOf i.val.wiretag vds) :: ds)

/-- The fields of a message, in declaration order. -/
inductive EncodesMsg (env : Env) : List Field → List Val → Bytes → Prop
  | nil (vs) : EncodesMsg env [] vs []
  | cons (f fs vs v ds b) : vs[f.offset]? = Option.some v → Encodes env f.codec v ds → EncodesMsg env fs vs b →
      EncodesMsg env (f :: fs) vs (recordsOf f.tag.wiretag ds ++ b)
end

/-- Codecs that write at most one record. -/
def _root_.Pb.Codec.IsElem : Codec → Prop
  | .normal _ | .required _ | .option _ | .bytes | .msg _ => True
  | .ptr _ c => c.IsElem
  | .slice .. | .map .. => False

/-- Codecs that read the same payloads as the same values. -/
inductive SameReader : Codec → Codec → Prop
  | refl (c) : SameReader c c
  | normal (s) : SameReader (.required s) (.normal s)
  | ptr (z c d) : SameReader c d → SameReader (.ptr z c) (.ptr z d)

/-- Codecs that compute the same size for values of both types: the key and value types for which map.go:80, which
applies the key codec's size function to the value, is right. -/
inductive SameSizer : Codec → Codec → Prop
  | refl (s) : SameSizer (.required s) (.required s)
  | int64_uint64 : SameSizer (.required .int64) (.required .uint64)
  | uint64_int64 : SameSizer (.required .uint64) (.required .int64)

/-- The codecs type analysis builds, apart from those of maps whose entries are written differently from how they are
read. -/
def _root_.Pb.Codec.Supported (w : U64) : Codec → Prop
  | .slice _ c => c.IsElem
  | .map i kc vc kd vd => i.wiretag = w ∧ i.eKey = i.key.wiretag ∧ i.eVal = i.val.wiretag ∧
      keyNumber i.key.wiretag ≠ keyNumber i.val.wiretag ∧ kc.IsElem ∧ vc.IsElem ∧ SameReader kc kd ∧ SameReader vc vd
  | c => c.IsElem

/-- All maps have key and value types that are measured alike. -/
def _root_.Pb.Codec.MapsSized : Codec → Prop
  | .map _ kc vc _ _ => SameSizer kc vc
  | .slice _ c | .ptr _ c => c.MapsSized
  | _ => True

/-- Keys and values of maps have the same memory, so that Marshal, which measures values as if they were keys (map.go:80), at least
finds something of the right type. -/
def _root_.Pb.Codec.MapsShaped : Codec → Prop
  | .map _ kc vc _ _ => kc.shape = vc.shape
  | .slice _ c | .ptr _ c => c.MapsShaped
  | _ => True

/-- A program whose message types are all supported. -/
structure Good (L : Layout) (env : Env) : Prop where
  wf : WFEnv L env
  tags : TagsOK env
  writes : ∀ t, ∀ f ∈ (env t).fields, f.codec.Writes (keyType f.tag.wiretag)
  supported : ∀ t, ∀ f ∈ (env t).fields, f.codec.Supported f.tag.wiretag
  /-- different fields have different places and numbers -/
  distinct : ∀ t, (env t).fields.Pairwise fun f g =>
    f.offset ≠ g.offset ∧ keyNumber f.tag.wiretag ≠ keyNumber g.tag.wiretag

end Pb.Spec
