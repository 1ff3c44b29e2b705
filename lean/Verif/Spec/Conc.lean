import Verif.Model.Conc
import Verif.Model.Api
import Verif.Spec.Graph
/-
Which calls a program may make: on messages of the right type, that are in memory given to the call.
-/
namespace Pb.Flat

/-- Allocation `b` is a message of type `t` with the value `v`; parts may be shared. -/
def HasMsg (lay : Lay) (m : Mem) (t : TypeId) (b : Nat) (v : Val) (B : List Nat) : Prop :=
  ∃ vs cs, v = .struct vs ∧ m[b]? = some (.mem cs) ∧ cs.length = lay.size t ∧ RepF lay m (lay.slots t) cs vs B

/-- A call on a message in memory `m`, with the allocations `given` for it. -/
inductive Proper (lay : Lay) (env : Env) (m : Mem) (given : List Nat) : Req → Prop
  /-- Size of a message that is not too deep for the stack -/
  | size (d t b v B n) : HasMsg lay m t b v B → (∀ x ∈ b :: B, x ∈ given) → Pb.size env (.msg t v) = .ok n → v.depth < d →
      Proper lay env m given (.size d t ⟨b, 0⟩)
  /-- Marshal of a message, unless it panics -/
  | marshal (d t b v B bs) : HasMsg lay m t b v B → (∀ x ∈ b :: B, x ∈ given) → Pb.marshal env (.msg t v) = .ok (.ok bs) →
      v.depth < d → Proper lay env m given (.marshal d t ⟨b, 0⟩)
  /-- Unmarshal of any bytes into a message without sharing -/
  | unmarshal (bs t b v B) : Holds lay m t b v B → FitsMsg lay.shapes t v → (∀ x ∈ b :: B, x ∈ given) →
      Proper lay env m given (.unmarshal bs t ⟨b, 0⟩)
  /-- Unmarshal of any bytes into a message in memory with sharing and cycles -/
  | graph (bs t a T) : Graph lay T m → MsgAt lay T a t →
      (∀ (b : Nat) κ, T[b]? = some κ → κ = .other ∨ (∃ s, κ = .text s) ∨ b ∈ given) → Proper lay env m given (.unmarshal bs t a)

end Pb.Flat
