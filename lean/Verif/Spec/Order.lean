import Verif.Model.Value
import Verif.Spec.Records
/-
Messages that are equal up to the order of map entries.
-/
namespace Pb.Spec

mutual
/-- The same message, the entries of its maps listed in possibly different orders. -/
inductive Reorder : Val → Val → Prop
  | refl (v) : Reorder v v
  | ptr {v w} : Reorder v w → Reorder (.ptr v) (.ptr w)
  | struct {vs ws} : ReorderL vs ws → Reorder (.struct vs) (.struct ws)
  | slice {n es es' sp} : ReorderL es es' → Reorder (.slice n es sp) (.slice n es' sp)
  | map {n m m' m''} : m.Perm m' → ReorderM m' m'' → Reorder (.map n m) (.map n m'')
/-- Element by element. -/
inductive ReorderL : List Val → List Val → Prop
  | nil : ReorderL [] []
  | cons {v w vs ws} : Reorder v w → ReorderL vs ws → ReorderL (v :: vs) (w :: ws)
/-- Entry by entry. -/
inductive ReorderM : List (Key × Val) → List (Key × Val) → Prop
  | nil : ReorderM [] []
  | cons {k v w m m'} : Reorder v w → ReorderM m m' → ReorderM ((k, v) :: m) ((k, w) :: m')
end

mutual
/-- No map in the message has two or more entries. -/
def _root_.Pb.Val.mapsTrivial : Val → Bool
  | .opt _ v => v.mapsTrivial
  | .ptr v => v.mapsTrivial
  | .struct fs => Val.mapsTrivialL fs
  | .slice _ es _ => Val.mapsTrivialL es
  | .map _ m => m.length ≤ 1 && Val.mapsTrivialM m
  | _ => true
/-- On lists. -/
def _root_.Pb.Val.mapsTrivialL : List Val → Bool
  | [] => true
  | v :: vs => v.mapsTrivial && Val.mapsTrivialL vs
/-- On map entries. -/
def _root_.Pb.Val.mapsTrivialM : List (Key × Val) → Bool
  | [] => true
  | (_, v) :: m => v.mapsTrivial && Val.mapsTrivialM m
end

/-- Two lists of records that differ only in the order of records with the same field number, here and inside the bodies of
length-delimited records. -/
inductive Shuffle : List (Nat × Nat × Bytes) → List (Nat × Nat × Bytes) → Prop
  | refl (rs) : Shuffle rs rs
  /-- a record stays, or the records in its body are shuffled -/
  | keep (r) {rs rs'} : Shuffle rs rs' → Shuffle (r :: rs) (r :: rs')
  | body (n) {p d d' ds ds' rs rs'} : Varint64 p d.length → d.length = d'.length → Records d ds → Records d' ds' →
      Shuffle ds ds' → Shuffle rs rs' → Shuffle ((n, 2, p ++ d) :: rs) ((n, 2, p ++ d') :: rs')
  /-- records with the same number change places -/
  | swap (n wt d wt' d' rs) : Shuffle ((n, wt, d) :: (n, wt', d') :: rs) ((n, wt', d') :: (n, wt, d) :: rs)
  | trans {rs rs' rs''} : Shuffle rs rs' → Shuffle rs' rs'' → Shuffle rs rs''

end Pb.Spec
