import Verif.Spec.Records
/-
Inputs for machines with `w`-bit integers.
-/
namespace Pb.Spec

/-- Nowhere in `b` is there the notation of a varint with more than `w + 2` bits, so that every tag carries a field number that
fits an `int`. -/
def SmallVarints (w : Nat) (b : Bytes) : Prop :=
  ∀ pre p suf n, b = pre ++ p ++ suf → Varint64 p n → n < 2 ^ (w + 2)

end Pb.Spec
