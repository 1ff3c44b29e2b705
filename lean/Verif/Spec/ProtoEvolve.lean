import Verif.Spec.Evolve
import Verif.Spec.Generator
/-
Versions of .proto files: which changes keep messages understandable.
-/
namespace Pb.Spec

/-- string and bytes -/
def TextKind (k : Kind) : Prop := k = .string ∨ k = .bytes

/-- `KindCompatible R k k'`: a receiver with type `k'` understands values of type `k`. `R` says which messages are versions
of each other. -/
inductive KindCompatible (R : TypeId → TypeId → Prop) : Kind → Kind → Prop
  | scalar (k s k' s') : KindIs k s → KindIs k' s' → Convertible s s' → KindCompatible R k k'
  | text (k k') : TextKind k → TextKind k' → KindCompatible R k k'
  | message (t t') : R t t' → KindCompatible R (.message t) (.message t')

/-- The field is not a map. -/
def NoMap (f : ProtoField) : Prop := ∀ key, f.label ≠ .map key

/-- Fields may change between implicit, optional and repeated; maps stay maps. -/
inductive FieldCompatible (R : TypeId → TypeId → Prop) : ProtoField → ProtoField → Prop
  | plain (f f') : NoMap f → NoMap f' → KindCompatible R f.kind f'.kind → FieldCompatible R f f'
  | map (f f' key key') : f.label = .map key → f'.label = .map key' → KindCompatible R key key' →
      KindCompatible R f.kind f'.kind → FieldCompatible R f f'

/-- Fields with the same number are compatible. Fields may be added, removed, renamed and reordered. -/
def ProtoVersions (P P' : Protos) (R : TypeId → TypeId → Prop) : Prop :=
  ∀ t t', R t t' → ∀ f ∈ P t, ∀ f' ∈ P' t', ¬ InOneof f → ¬ InOneof f' → f.number = f'.number → FieldCompatible R f f'

end Pb.Spec
