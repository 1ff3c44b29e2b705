import Verif.Spec.Program
/-
The wire format of a message, from the declarations of its struct types alone: no reference to codecs or type analysis.
-/
namespace Pb.Spec

/-- The records with number `n`, wire type `e` and payloads `ds`. -/
def recordsFor (n e : Nat) (ds : List Bytes) : Bytes := (ds.map fun d => leb128 (8 * n + e) ++ d).flatten

mutual
/-- `WireValue D e z always T v ds`: a value `v` of Go type `T`, in a field with wire type `e` and zig-zag `z`, is represented
by records with the payloads `ds` (none or one). With `always`, zero is written too. -/
inductive WireValue (D : Decls) : Nat → Bool → Bool → GoType → Val → List Bytes → Prop
  | scalar (e z always T s v) : Means e z T s → (always = true ∨ v ≠ s.shape.zero) → WireValue D e z always T v [payload s v]
  /-- implicit presence: a zero scalar is left out -/
  | zero (e z T s) : Means e z T s → WireValue D e z false T s.shape.zero []
  | bytes (z always s) : WireValue D 2 z always (.slice .uint8) (.bytes (some s)) [delimited s]
  | bytesNil (z always) : WireValue D 2 z always (.slice .uint8) (.bytes none) []
  | msg (z always t vs body) : WireMsg D (D t) vs body → WireValue D 2 z always (.ptr (.named t)) (.ptr (.struct vs)) [delimited body]
  | ptr (e z always T v ds) : (∀ t, T ≠ .named t) → WireValue D e z always T v ds → WireValue D e z always (.ptr T) (.ptr v) ds
  | nil (e z always T) : WireValue D e z always (.ptr T) .nilp []

/-- `WireField D e z kt vt T v ds`: a field of type `T`. -/
inductive WireField (D : Decls) : Nat → Bool → Text → Text → FieldType → Val → List Bytes → Prop
  | single (e z kt vt T v ds) : WireValue D e z false T v ds → WireField D e z kt vt (.ty T) v ds
  /-- explicit presence -/
  | some (e z kt vt b s v) : Means e z (OptBase.goType b) s → WireField D e z kt vt (.opt b) (.opt true v) [payload s v]
  | none (e z kt vt b v) : WireField D e z kt vt (.opt b) (.opt false v) []
  /-- not packed: one record per element -/
  | repeated (e z kt vt T isNil es spare ds) : T ≠ .uint8 → WireList D e z T es ds →
      WireField D e z kt vt (.ty (.slice T)) (.slice isNil es spare) ds
  | map (z kt vt K V ke kn kc ve vn vc isNil m ds) : SaysTag kt ke (kn : Nat) kc false → SaysTag vt ve (vn : Nat) vc false →
      m ≠ [] → WireEntries D ke kn ve vn K V m ds → WireField D 2 z kt vt (.ty (.map K V)) (.map isNil m) ds
  /-- not protobuf's rule, but the library's: an empty map is one empty record -/
  | mapEmpty (z kt vt K V isNil) : WireField D 2 z kt vt (.ty (.map K V)) (.map isNil []) [[0#8]]

/-- The elements of a repeated field. -/
inductive WireList (D : Decls) : Nat → Bool → GoType → List Val → List Bytes → Prop
  | nil (e z T) : WireList D e z T [] []
  | cons (e z T v vs ds ds') : WireValue D e z true T v ds → WireList D e z T vs ds' → WireList D e z T (v :: vs) (ds ++ ds')

/-- The entries of a map: key type `K` with number `kn` and wire type `ke`, value type `V` with `vn` and `ve`. -/
inductive WireEntries (D : Decls) : Nat → Nat → Nat → Nat → GoType → GoType → List (Key × Val) → List Bytes → Prop
  | nil (ke kn ve vn K V) : WireEntries D ke kn ve vn K V [] []
  | cons (ke kn ve vn K V k v m kds vds ds) : WireValue D ke false true K (Key.toVal k) kds → WireValue D ve false true V v vds →
      WireEntries D ke kn ve vn K V m ds → WireEntries D ke kn ve vn K V ((k, v) :: m)
        (delimited (recordsFor kn ke kds ++ recordsFor vn ve vds) :: ds)

/-- `WireMsg D d vs b`: a struct with declaration `d` and field values `vs` is represented by `b`: the records of its
exported, tagged fields in order of declaration. -/
inductive WireMsg (D : Decls) : StructDecl → List Val → Bytes → Prop
  | nil : WireMsg D [] [] []
  | skip (f fs v vs b) : ¬ f.Active → WireMsg D fs vs b → WireMsg D (f :: fs) (v :: vs) b
  | field (f fs v vs s e n c z ds b) : f.Active → f.tag = Option.some s → SaysTag s e (n : Nat) c z →
      WireField D e z f.keyTag f.valTag f.ty v ds → WireMsg D fs vs b →
      WireMsg D (f :: fs) (v :: vs) (recordsFor n e ds ++ b)
end

end Pb.Spec
