import Verif.Spec.Generator
import Verif.Spec.Cache
/-
Conditions on .proto files under which the caches of type analysis are harmless, from the .proto files alone.
-/
namespace Pb.Spec

/-- `ProtoNeeds P r t`: messages of type `r` may contain messages of type `t`, going by the fields outside of oneofs. -/
inductive ProtoNeeds (P : Protos) (r : TypeId) : TypeId → Prop
  | root : ProtoNeeds P r r
  | field (t f u) : ProtoNeeds P r t → f ∈ P t → ¬ InOneof f → f.kind = .message u → ProtoNeeds P r u

/-- The protobuf types with Go type `int32`, or those with Go type `int64`. (Enums are `int32`.) -/
inductive SameGo : Kind → Kind → Prop
  | w32 (k k') : k ∈ [Kind.int32, .sint32, .sfixed32, .enum] → k' ∈ [Kind.int32, .sint32, .sfixed32, .enum] → SameGo k k'
  | w64 (k k') : k ∈ [Kind.int64, .sint64, .sfixed64] → k' ∈ [Kind.int64, .sint64, .sfixed64] → SameGo k k'

/-- The messages contained in messages of type `r` do not have both `repeated int32` (or enum) and `repeated sint32` fields, nor
both `repeated int64` and `repeated sint64`. -/
def NoMixing (P : Protos) (r : TypeId) : Prop :=
  ∀ t u, ProtoNeeds P r t → ProtoNeeds P r u → ∀ f ∈ P t, ∀ g ∈ P u, f.label = .repeated → g.label = .repeated →
    SameGo f.kind g.kind → kindZigzag f.kind = kindZigzag g.kind

/-- No message type contains itself: there is a measure that is smaller for the types of the fields. -/
def ProtoAcyclic (P : Protos) (rank : TypeId → Nat) : Prop :=
  ∀ t, ∀ f ∈ P t, ¬ InOneof f → ∀ u, f.kind = .message u → rank u < rank t

end Pb.Spec
