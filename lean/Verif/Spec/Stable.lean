import Verif.Spec.Back
/-
Which messages survive a round trip unchanged, apart from what decoding guarantees anyway.
-/
namespace Pb.Spec

/-- No map inside is empty (nil or not). -/
inductive NoEmptyMaps (env : Env) : Codec → Val → Prop
  | normal (s v) : NoEmptyMaps env (.normal s) v
  | required (s v) : NoEmptyMaps env (.required s) v
  | option (s v) : NoEmptyMaps env (.option s) v
  | bytes (v) : NoEmptyMaps env .bytes v
  | ptrNil (z c) : NoEmptyMaps env (.ptr z c) .nilp
  | ptr (z c v) : NoEmptyMaps env c v → NoEmptyMaps env (.ptr z c) (.ptr v)
  | msgNil (t) : NoEmptyMaps env (.msg t) .nilp
  | msg (t vs) : (∀ f ∈ (env t).fields, ∀ v, vs[f.offset]? = some v → NoEmptyMaps env f.codec v) →
      NoEmptyMaps env (.msg t) (.ptr (.struct vs))
  | slice (z c n es sp) : (∀ e ∈ es, NoEmptyMaps env c e) → NoEmptyMaps env (.slice z c) (.slice n es sp)
  | map (i kc vc kd vd n) (m : List (Key × Val)) : m ≠ [] → (∀ e ∈ m, NoEmptyMaps env vc e.2) →
      NoEmptyMaps env (.map i kc vc kd vd) (.map n m)

/-- No pointer inside points to a value that is not written (`*int32` pointing to 0). -/
inductive NoZeroPtrs (env : Env) : Codec → Val → Prop
  | normal (s v) : NoZeroPtrs env (.normal s) v
  | required (s v) : NoZeroPtrs env (.required s) v
  | option (s v) : NoZeroPtrs env (.option s) v
  | bytes (v) : NoZeroPtrs env .bytes v
  | ptrNil (z c) : NoZeroPtrs env (.ptr z c) .nilp
  | ptr (z c v) : Written c v → NoZeroPtrs env c v → NoZeroPtrs env (.ptr z c) (.ptr v)
  | msgNil (t) : NoZeroPtrs env (.msg t) .nilp
  | msg (t vs) : (∀ f ∈ (env t).fields, ∀ v, vs[f.offset]? = some v → NoZeroPtrs env f.codec v) →
      NoZeroPtrs env (.msg t) (.ptr (.struct vs))
  | slice (z c n es sp) : (∀ e ∈ es, NoZeroPtrs env c e) → NoZeroPtrs env (.slice z c) (.slice n es sp)
  | map (i kc vc kd vd n) (m : List (Key × Val)) : (∀ e ∈ m, NoZeroPtrs env vc e.2) →
      NoZeroPtrs env (.map i kc vc kd vd) (.map n m)

/-- Codecs that write every value except nil pointers and nil byte slices. -/
def _root_.Pb.Codec.Plain : Codec → Prop
  | .required _ | .bytes | .msg _ => True
  | .ptr _ c => c.Plain
  | _ => False

/-- Elements of repeated fields are written with such codecs. (Type analysis sees to that, walker.go:229.) -/
def PlainLists (env : Env) : Prop := ∀ t, ∀ f ∈ (env t).fields, ∀ z c, f.codec = .slice z c → c.Plain

end Pb.Spec
