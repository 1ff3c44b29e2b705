import Verif.Spec.Read
import Verif.Spec.Support
/-
The meaning of an input: merging its records into a message. Declarative, with no reference to the decode functions;
nested messages are described by the records of their bodies.
-/
namespace Pb.Spec

/-- `Assign m k v m'`: `m'` is the map `m` with `k` set to `v`. -/
inductive Assign : List (Key × Val) → Key → Val → List (Key × Val) → Prop
  | new (m k v) : (∀ e ∈ m, e.1 ≠ k) → Assign m k v (m ++ [(k, v)])
  | old (m₁ m₂ k v w) : (∀ e ∈ m₁, e.1 ≠ k) → Assign (m₁ ++ (k, w) :: m₂) k v (m₁ ++ (k, v) :: m₂)

mutual
/-- `Merge env c old data new`: one record with payload `data` turns the contents `old` of a field into `new`. -/
inductive Merge (env : Env) : Codec → Val → Bytes → Val → Prop
  /-- a plain scalar is replaced -/
  | normal (s old data new) : ReadsAs s data new → (s = .bool → data.length = 1) → Merge env (.normal s) old data new
  | required (s old data new) : ReadsAs s data new → (s = .bool → data.length = 1) →
      Merge env (.required s) old data new
  /-- an `Option` becomes `Some` of the new value -/
  | option (s b old data new) : ReadsAs s data new → (s = .bool → data.length = 1) →
      Merge env (.option s) (.opt b old) data (.opt true new)
  /-- a byte slice is replaced, and not nil afterwards -/
  | bytes (old data s) : BytesAs data s → Merge env .bytes (.bytes old) data (.bytes (some s))
  /-- a pointer is allocated if it was nil -/
  | ptrNew (z c data new) : Merge env c z data new → Merge env (.ptr z c) .nilp data (.ptr new)
  | ptrOld (z c old data new) : Merge env c old data new → Merge env (.ptr z c) (.ptr old) data (.ptr new)
  /-- the records of a nested message are merged into a new zero message or the existing one -/
  | msgNew (t data body rs vs vs') : (env t).zero = .struct vs → BytesAs data body → Records body rs →
      MergeRecs env t vs rs vs' → Merge env (.msg t) .nilp data (.ptr (.struct vs'))
  | msgOld (t data body rs vs vs') : BytesAs data body → Records body rs →
      MergeRecs env t vs rs vs' → Merge env (.msg t) (.ptr (.struct vs)) data (.ptr (.struct vs'))
  /-- a repeated field without spare capacity gets room, ten slots or twice its length, and the element is merged into
  a zero slot -/
  | sliceGrow (z c n es data new) : Merge env c z data new → Merge env (.slice z c) (.slice n es []) data
      (.slice false (es ++ [new]) (List.replicate ((if es = [] then 10 else es.length) - 1) z))
  /-- with spare capacity, the element is merged into the first spare slot -/
  | sliceSlot (z c n es slot sp data new) : Merge env c slot data new →
      Merge env (.slice z c) (.slice n es (slot :: sp)) data (.slice n (es ++ [new]) sp)
  /-- a map record is one assignment of the key and value found in it, with zero for missing ones -/
  | map (i kc vc kd vd n m data body rs k v m') : BytesAs data body → Records body rs →
      MergeEntry env i kd vd i.kzero i.vzero rs (Key.toVal k) v → Assign m k v m' →
      Merge env (.map i kc vc kd vd) (.map n m) data (.map false m')

/-- `MergeRecs env t vs rs vs'`: the records `rs`, one after the other, turn the slots `vs` into `vs'`. -/
inductive MergeRecs (env : Env) : TypeId → List Val → List (Nat × Nat × Bytes) → List Val → Prop
  | nil (t vs) : MergeRecs env t vs [] vs
  /-- unknown fields are skipped -/
  | unknown (t vs num wt data rs vs') : Undeclared (env t).fields num → MergeRecs env t vs rs vs' →
      MergeRecs env t vs ((num, wt, data) :: rs) vs'
  | known (t vs num data rs vs' f old new) : Declared (env t).fields num f → vs[f.offset]? = some old →
      Merge env f.codec old data new → MergeRecs env t (vs.set f.offset new) rs vs' →
      MergeRecs env t vs ((num, keyType f.tag.wiretag, data) :: rs) vs'

/-- `MergeEntry env i kd vd k v rs k' v'`: the records `rs` of a map entry turn key `k` and value `v` into `k'`, `v'`. -/
inductive MergeEntry (env : Env) : MapInfo → Codec → Codec → Val → Val → List (Nat × Nat × Bytes) → Val → Val → Prop
  | nil (i kd vd k v) : MergeEntry env i kd vd k v [] k v
  | unknown (i kd vd k v num wt data rs k' v') : num ≠ keyNumber i.eKey → num ≠ keyNumber i.eVal →
      MergeEntry env i kd vd k v rs k' v' → MergeEntry env i kd vd k v ((num, wt, data) :: rs) k' v'
  | key (i kd vd k v data rs k₁ k' v') : keyNumber i.eKey ≠ keyNumber i.eVal → Merge env kd k data k₁ →
      MergeEntry env i kd vd k₁ v rs k' v' →
      MergeEntry env i kd vd k v ((keyNumber i.eKey, keyType i.eKey, data) :: rs) k' v'
  | val (i kd vd k v data rs v₁ k' v') : Merge env vd v data v₁ → MergeEntry env i kd vd k v₁ rs k' v' →
      MergeEntry env i kd vd k v ((keyNumber i.eVal, keyType i.eVal, data) :: rs) k' v'
end

/-- The codec reads no bool anywhere outside nested messages. -/
def _root_.Pb.Codec.noBool : Codec → Prop
  | .normal s | .required s | .option s => s ≠ .bool
  | .bytes | .msg _ => True
  | .ptr _ c | .slice _ c => c.noBool
  | .map _ _ _ kd vd => kd.noBool ∧ vd.noBool

end Pb.Spec
