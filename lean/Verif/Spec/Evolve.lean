import Verif.Spec.Merge
import Verif.Spec.Encode
/-
Messages that cross versions: the sender has one set of message types (`env`), the receiver another (`env'`). What a field
holds is a list of items, one per record; the receiver takes the items of the field with the same number one after the
other. No reference to encode or decode functions.
-/
namespace Pb.Spec

/-- One thing that a field holds. -/
inductive Item where
  | scalar (s : Scalar) (x : Val)
  | bytes (b : Bytes)
  | msg (t : TypeId) (vs : List Val)
  /-- a map entry, with the tags and codecs of the sender's map -/
  | entry (i : MapInfo) (kc vc : Codec) (k : Key) (v : Val)
  /-- what stands for an empty map on the wire -/
  | noEntry

/-- The zero of a scalar type. -/
def zeroScalar : Val → Bool
  | .b8 x => !x
  | .w32 x => x == 0#32
  | .w64 x => x == 0#64
  | .str s => s.isEmpty
  | _ => false

/-- What a field holds. -/
def items : Codec → Val → List Item
  | .normal s, v => if zeroScalar v then [] else [.scalar s v]
  | .required s, v => [.scalar s v]
  | .option s, .opt true v => [.scalar s v]
  | .bytes, .bytes (some b) => [.bytes b]
  | .ptr _ c, .ptr v => items c v
  | .msg t, .ptr (.struct vs) => [.msg t vs]
  | .slice _ c, .slice _ es _ => es.flatMap (items c)
  | .map _ _ _ _ _, .map _ [] => [.noEntry]
  | .map i kc vc _ _, .map _ m => m.map fun e => .entry i kc vc e.1 e.2
  | _, _ => []

/-- The number that a variable-length integer or bool stands for. -/
def intOf : Scalar → Val → Int
  | .bool, .b8 x => if x then 1 else 0
  | .int32, .w32 x | .zigzag32, .w32 x => x.toInt
  | .int64, .w64 x | .zigzag64, .w64 x => x.toInt
  | .uint32, .w32 x => x.toNat
  | .uint64, .w64 x => x.toNat
  | _, _ => 0

/-- The value of integer type `s` for a number, modulo 2^32 or 2^64. -/
def ofInt (s : Scalar) (i : Int) : Val :=
  match s.shape with
  | .w32 => .w32 (BitVec.ofInt 32 i)
  | _ => .w64 (BitVec.ofInt 64 i)

/-- int32, int64, uint32, uint64 (and enums) -/
def IntType (s : Scalar) : Prop := s = .int32 ∨ s = .int64 ∨ s = .uint32 ∨ s = .uint64
/-- sint32, sint64 -/
def ZigzagType (s : Scalar) : Prop := s = .zigzag32 ∨ s = .zigzag64
/-- fixed32, float -/
def Type32 (s : Scalar) : Prop := s = .fixed32 ∨ s = .float32
/-- fixed64, double -/
def Type64 (s : Scalar) : Prop := s = .fixed64 ∨ s = .float64

/-- `Converts s x s' x'`: value `x` of type `s` is value `x'` of type `s'`. -/
inductive Converts : Scalar → Val → Scalar → Val → Prop
  | same (s x) : Converts s x s x
  | int (s s' x) : s = .bool ∨ IntType s → IntType s' → Converts s x s' (ofInt s' (intOf s x))
  | zigzag (s s' x) : ZigzagType s → ZigzagType s' → Converts s x s' (ofInt s' (intOf s x))
  | bits32 (s s' x) : Type32 s → Type32 s' → Converts s x s' x
  | bits64 (s s' x) : Type64 s → Type64 s' → Converts s x s' x

/-- Types between which every value converts. -/
inductive Convertible : Scalar → Scalar → Prop
  | same (s) : Convertible s s
  | int (s s') : s = .bool ∨ IntType s → IntType s' → Convertible s s'
  | zigzag (s s') : ZigzagType s → ZigzagType s' → Convertible s s'
  | bits32 (s s') : Type32 s → Type32 s' → Convertible s s'
  | bits64 (s s') : Type64 s → Type64 s' → Convertible s s'

/-- `IsScalar it s x`: the item is the value `x` of scalar type `s` to a receiver. Byte strings may become strings. -/
inductive IsScalar : Item → Scalar → Val → Prop
  | scalar (s x s' x') : Converts s x s' x' → IsScalar (.scalar s x) s' x'
  | text (b) : IsScalar (.bytes b) .string (.str b)

/-- The item is a byte string; strings may become byte strings. -/
inductive IsBytes : Item → Bytes → Prop
  | bytes (b) : IsBytes (.bytes b) b
  | text (b) : IsBytes (.scalar .string (.str b)) b

mutual
/-- `Takes env env' it c old new`: a field of the receiver with codec `c` takes the item `it`, which turns `old` into
`new`. -/
inductive Takes (env env' : Env) : Item → Codec → Val → Val → Prop
  /-- a plain scalar is replaced -/
  | normal (it s old x) : IsScalar it s x → Takes env env' it (.normal s) old x
  | required (it s old x) : IsScalar it s x → Takes env env' it (.required s) old x
  | option (it s b old x) : IsScalar it s x → Takes env env' it (.option s) (.opt b old) (.opt true x)
  | bytes (it old b) : IsBytes it b → Takes env env' it .bytes (.bytes old) (.bytes (some b))
  | ptrNew (it z c new) : Takes env env' it c z new → Takes env env' it (.ptr z c) .nilp (.ptr new)
  | ptrOld (it z c old new) : Takes env env' it c old new → Takes env env' it (.ptr z c) (.ptr old) (.ptr new)
  /-- a message is merged into a new message or the existing one -/
  | msgNew (t vs t' zs ws) : (env' t').zero = .struct zs → TakesMsg env env' t vs t' zs ws →
      Takes env env' (.msg t vs) (.msg t') .nilp (.ptr (.struct ws))
  | msgOld (t vs t' os ws) : TakesMsg env env' t vs t' os ws →
      Takes env env' (.msg t vs) (.msg t') (.ptr (.struct os)) (.ptr (.struct ws))
  /-- a repeated field gets one more element; it is taken by a zero slot, or by the first spare slot if there is one -/
  | sliceGrow (it z c n es new) : Takes env env' it c z new → Takes env env' it (.slice z c) (.slice n es [])
      (.slice false (es ++ [new]) (List.replicate ((if es = [] then 10 else es.length) - 1) z))
  | sliceSlot (it z c n es slot sp new) : Takes env env' it c slot new →
      Takes env env' it (.slice z c) (.slice n es (slot :: sp)) (.slice n (es ++ [new]) sp)
  /-- a map assigns the value to the key, both as its own types have it -/
  | entry (i kc vc k v i' kc' vc' kd' vd' n m k' v' m') : TakesAll env env' (items kc k.toVal) kd' i'.kzero (Key.toVal k') →
      TakesAll env env' (items vc v) vd' i'.vzero v' → Assign m k' v' m' →
      Takes env env' (.entry i kc vc k v) (.map i' kc' vc' kd' vd') (.map n m) (.map false m')
  | noEntry (i' kc' vc' kd' vd' n m k' m') : Key.toVal k' = i'.kzero → Assign m k' i'.vzero m' →
      Takes env env' .noEntry (.map i' kc' vc' kd' vd') (.map n m) (.map false m')

/-- The items, one after the other. -/
inductive TakesAll (env env' : Env) : List Item → Codec → Val → Val → Prop
  | nil (c v) : TakesAll env env' [] c v v
  | cons (it its c old mid new) : Takes env env' it c old mid → TakesAll env env' its c mid new →
      TakesAll env env' (it :: its) c old new

/-- `TakesMsg env env' t vs t' os ws`: a message of the receiver's type `t'` with fields `os` takes a message of the
sender's type `t` with fields `vs`, which turns it into `ws`. A field takes what the field with the same number holds; all
others stay as they are. -/
inductive TakesMsg (env env' : Env) : TypeId → List Val → TypeId → List Val → List Val → Prop
  | mk (t vs t' os ws) : ws.length = os.length →
      (∀ f ∈ (env t).fields, ∀ f' ∈ (env' t').fields, keyNumber f.tag.wiretag = keyNumber f'.tag.wiretag →
        ∀ v o w, vs[f.offset]? = some v → os[f'.offset]? = some o → ws[f'.offset]? = some w →
          TakesAll env env' (items f.codec v) f'.codec o w) →
      (∀ j : Nat, (∀ f' ∈ (env' t').fields, f'.offset = j → ∀ f ∈ (env t).fields,
        keyNumber f.tag.wiretag ≠ keyNumber f'.tag.wiretag) → ws[j]? = os[j]?) → TakesMsg env env' t vs t' os ws
end

/-- What the items of a field are. -/
inductive Content where
  | scalar (s : Scalar)
  /-- strings and byte strings -/
  | bytes
  | msg (t : TypeId)
  | map (i : MapInfo) (kc vc kd vd : Codec)

/-- What the items of a scalar field are. -/
def _root_.Pb.Scalar.content (s : Scalar) : Content := if s = .string then .bytes else .scalar s

/-- What the items of a field are, whether it is a plain field, an `Option`, a pointer or repeated. -/
def _root_.Pb.Codec.content : Codec → Content
  | .normal s | .required s | .option s => s.content
  | .bytes => .bytes
  | .ptr _ c | .slice _ c => c.content
  | .msg t => .msg t
  | .map i kc vc kd vd => .map i kc vc kd vd

/-- `Compatible R a b`: a receiver of `b` understands all items `a`. `R` says which message types are versions of each
other. -/
inductive Compatible (R : TypeId → TypeId → Prop) : Content → Content → Prop
  | scalar (s s') : Convertible s s' → Compatible R (.scalar s) (.scalar s')
  | bytes : Compatible R .bytes .bytes
  | msg (t t') : R t t' → Compatible R (.msg t) (.msg t')
  /-- The receiver finds key and value under the same numbers (1 and 2 in .proto files), and understands both. -/
  | map (i kc vc kd vd i' kc' vc' kd' vd') :
      keyNumber i'.eKey = keyNumber i.key.wiretag → keyType i'.eKey = keyType i.key.wiretag →
      keyNumber i'.eVal = keyNumber i.val.wiretag → keyType i'.eVal = keyType i.val.wiretag →
      Compatible R kc.content kd'.content → Compatible R vc.content vd'.content →
      Compatible R (.map i kc vc kd vd) (.map i' kc' vc' kd' vd')

/-- The versions agree: fields with the same number are compatible. Nothing is demanded of fields that only one side has,
and the places of fields, presence and repetition may differ. -/
def Versions (env env' : Env) (R : TypeId → TypeId → Prop) : Prop :=
  ∀ t t', R t t' → ∀ f ∈ (env t).fields, ∀ f' ∈ (env' t').fields,
    keyNumber f.tag.wiretag = keyNumber f'.tag.wiretag → Compatible R f.codec.content f'.codec.content

end Pb.Spec
