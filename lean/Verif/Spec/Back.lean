import Verif.Spec.Encode
/-
What Unmarshal of Marshal's output is to give back.
-/
namespace Pb.Spec

/-- Whether a field is written at all. -/
def Written : Codec → Val → Prop
  | .normal s, v => v ≠ s.shape.zero
  | .required _, _ => True
  | .option _, .opt b _ => b = true
  | .bytes, .bytes x => x ≠ none
  | .ptr _ c, .ptr v => Written c v
  | .msg _, .ptr _ => True
  | _, _ => False

mutual
/-- `Back env c v w`: a field with codec `c` and value `v` comes back as `w` in a new message. Everything comes back as
it was, except: pointers to something that is not written come back nil (`ptrLost`), elements of repeated fields that
are not written (nil pointers, nil byte slices) are dropped, the capacity of repeated fields is not kept and neither is
the distinction between nil and empty, an empty map comes back with one entry (`mapEmpty`), and fields without tag come
back zero. -/
inductive Back (env : Env) : Codec → Val → Val → Prop
  | normal (s v) : Back env (.normal s) v v
  | required (s v) : Back env (.required s) v v
  | option (s v) : Back env (.option s) v v
  | bytes (v) : Back env .bytes v v
  | ptrNil (z c) : Back env (.ptr z c) .nilp .nilp
  | ptrLost (z c v) : ¬ Written c v → Back env (.ptr z c) (.ptr v) .nilp
  | ptr (z c v w) : Written c v → Back env c v w → Back env (.ptr z c) (.ptr v) (.ptr w)
  | msgNil (t) : Back env (.msg t) .nilp .nilp
  | msg (t vs ws zs) : (env t).zero = .struct zs → ws.length = vs.length →
      (∀ f ∈ (env t).fields, ∀ v w, vs[f.offset]? = some v → ws[f.offset]? = some w → Back env f.codec v w) →
      (∀ i : Nat, (∀ f ∈ (env t).fields, f.offset ≠ i) → ws[i]? = zs[i]?) →
      Back env (.msg t) (.ptr (.struct vs)) (.ptr (.struct ws))
  | slice (z c n es sp ws sp') : BackL env c es ws →
      Back env (.slice z c) (.slice n es sp) (.slice (decide (ws = [])) ws sp')
  | map (i kc vc kd vd n m m') : m ≠ [] → BackM env vc m m' → Back env (.map i kc vc kd vd) (.map n m) (.map false m')
  | mapEmpty (i kc vc kd vd n k) : Key.toVal k = i.kzero →
      Back env (.map i kc vc kd vd) (.map n []) (.map false [(k, i.vzero)])

/-- The elements of a repeated field. -/
inductive BackL (env : Env) : Codec → List Val → List Val → Prop
  | nil (c) : BackL env c [] []
  | drop (c e es ws) : ¬ Written c e → BackL env c es ws → BackL env c (e :: es) ws
  | keep (c e es w ws) : Written c e → Back env c e w → BackL env c es ws → BackL env c (e :: es) (w :: ws)

/-- The entries of a map: same keys, in the same order. -/
inductive BackM (env : Env) : Codec → List (Key × Val) → List (Key × Val) → Prop
  | nil (c) : BackM env c [] []
  | cons (c k v w m m') : Back env c v w → BackM env c m m' → BackM env c ((k, v) :: m) ((k, w) :: m')
end

/-- Values that come back unchanged: no pointers to something that is not written, no unwritten elements in repeated
fields, repeated fields without elements are nil, no empty maps, fields without tag are zero. -/
inductive Canon (env : Env) : Codec → Val → Prop
  | normal (s v) : Canon env (.normal s) v
  | required (s v) : Canon env (.required s) v
  | option (s v) : Canon env (.option s) v
  | bytes (v) : Canon env .bytes v
  | ptrNil (z c) : Canon env (.ptr z c) .nilp
  | ptr (z c v) : Written c v → Canon env c v → Canon env (.ptr z c) (.ptr v)
  | msgNil (t) : Canon env (.msg t) .nilp
  | msg (t vs zs) : (env t).zero = .struct zs →
      (∀ f ∈ (env t).fields, ∀ v, vs[f.offset]? = some v → Canon env f.codec v) →
      (∀ i : Nat, (∀ f ∈ (env t).fields, f.offset ≠ i) → vs[i]? = zs[i]?) → Canon env (.msg t) (.ptr (.struct vs))
  | slice (z c es sp) : (∀ e ∈ es, Written c e) → (∀ e ∈ es, Canon env c e) →
      Canon env (.slice z c) (.slice (decide (es = [])) es sp)
  | map (i kc vc kd vd) (m : List (Key × Val)) : m ≠ [] → (∀ e ∈ m, Canon env vc e.2) →
      Canon env (.map i kc vc kd vd) (.map false m)

end Pb.Spec
