import Verif.Spec.Typing
/-
Messages without repeated fields.
-/
namespace Pb.Spec

/-- The field is not repeated. Maps are not, whatever their values are. -/
def _root_.Pb.Codec.notRepeated : Codec → Prop
  | .slice _ _ => False
  | .ptr _ c => c.notRepeated
  | _ => True

/-- The field holds a message of this type. -/
def _root_.Pb.Codec.holdsMsg : Codec → TypeId → Prop
  | .msg t, t' => t = t'
  | .ptr _ c, t' => c.holdsMsg t'
  | _, _ => False

/-- `Inside env t t'`: messages of type `t'` occur within messages of type `t`, other than in repeated fields and maps. -/
inductive Inside (env : Env) : TypeId → TypeId → Prop
  | self (t) : Inside env t t
  | field (t f t' t'') : f ∈ (env t).fields → f.codec.holdsMsg t' → Inside env t' t'' → Inside env t t''

/-- Neither the message nor the messages within it have repeated fields. -/
def NoRepeated (env : Env) (t : TypeId) : Prop := ∀ t', Inside env t t' → ∀ f ∈ (env t').fields, f.codec.notRepeated

end Pb.Spec
