import Verif.Spec.Read
import Verif.Spec.Support
import Verif.Model.Api
/-
What the records of one field do to it, per kind of field.
-/
namespace Pb.Spec

/-- The payloads of the records with number `num`, in input order. -/
def payloadsFor (num : Nat) (rs : List (Nat × Nat × Bytes)) : List Bytes :=
  (rs.filter fun r => decide (r.1 = num)).map fun r => r.2.2

/-- A field of one scalar, string or byte slice: plain, `Option` or behind a pointer. -/
def _root_.Pb.Codec.isSingular : Codec → Prop
  | .normal _ | .required _ | .option _ | .bytes => True
  | .ptr _ c => c.isSingular
  | .msg _ | .slice _ _ | .map .. => False

/-- `Latest c data new`: the field holds what the payload `data` denotes, and nothing else. -/
inductive Latest : Codec → Bytes → Val → Prop
  | normal (s data v) : ReadsAs s data v → Latest (.normal s) data v
  | required (s data v) : ReadsAs s data v → Latest (.required s) data v
  | option (s data v) : ReadsAs s data v → Latest (.option s) data (.opt true v)
  | bytes (data s) : BytesAs data s → Latest .bytes data (.bytes (some s))
  | ptr (z c data v) : Latest c data v → Latest (.ptr z c) data (.ptr v)

/-- The bodies of length-delimited payloads. -/
inductive Bodies : List Bytes → List Bytes → Prop
  | nil : Bodies [] []
  | cons (d ds body bs) : BytesAs d body → Bodies ds bs → Bodies (d :: ds) (body :: bs)

/-- The fields of the anonymous entry struct of a map (map.go:101-104). -/
def entryFields (i : MapInfo) (kd vd : Codec) : List Field := [⟨0, ⟨i.eKey, 0⟩, kd⟩, ⟨1, ⟨i.eVal, 0⟩, vd⟩]

/-- `Entries env e i bs kvs`: the keys and values that Unmarshal finds in the entry bodies `bs`, each read into a new
zero entry struct of type `e`. -/
inductive Entries (env : Env) (e : TypeId) (i : MapInfo) : List Bytes → List (Key × Val) → Prop
  | nil : Entries env e i [] []
  | cons (body bs) (k : Key) (v kvs) :
      unmarshal env body (.msg e (.struct [i.kzero, i.vzero])) = .ok ⟨.msg e (.struct [k.toVal, v]), none⟩ →
      Entries env e i bs kvs → Entries env e i (body :: bs) ((k, v) :: kvs)

/-- The integer types with plain varint encoding. -/
def isInt : Scalar → Prop
  | .int32 | .int64 | .uint32 | .uint64 => True
  | _ => False

/-- The number a variable of an integer type holds. -/
def intValue : Scalar → Val → Int
  | .int32, .w32 x => x.toInt
  | .int64, .w64 x => x.toInt
  | .uint32, .w32 x => x.toNat
  | .uint64, .w64 x => x.toNat
  | _, _ => 0

/-- The variable of an integer type that holds a number modulo the width of the type (Go's conversion). -/
def ofInteger : Scalar → Int → Val
  | .int64, i | .uint64, i => .w64 (BitVec.ofInt 64 i)
  | _, i => .w32 (BitVec.ofInt 32 i)

end Pb.Spec
