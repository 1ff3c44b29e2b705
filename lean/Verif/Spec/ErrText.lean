import Verif.Spec.Tag
import Verif.Spec.Wire
import Verif.Model.ErrText
/-
What the text of an error says to its reader.
-/
namespace Pb.Spec

/-- What went wrong. -/
inductive Cause where
  | truncated
  | overflow
  | unknownType
  | expected (t : Nat)
deriving DecidableEq, Repr

/-- `SaysError s path c`: the text `s` says that `c` went wrong in the field reached by `path`, from the outside in; each step is a
field number and the wire type found. -/
inductive SaysError : Text → List (Int × Int) → Cause → Prop
  | truncated : SaysError t!"unexpected EOF" [] .truncated
  | overflow : SaysError t!"varint overflowed 64 bits integer" [] .overflow
  | unknownType : SaysError t!"unknown wire type" [] .unknownType
  | expected (s t) : Numeral s t → SaysError (t!"expected wire type " ++ s) [] (.expected t)
  | field (q n r t s path c) : Integer q n → Integer r t → SaysError s path c →
      SaysError (t!"field number " ++ (q ++ (t!" with wire type " ++ (r ++ (t!": " ++ s))))) ((n, t) :: path) c

/-- The steps to the innermost error: what a program gets that follows `FieldNumber`, `WireType` and `Unwrap`. -/
def errPath : Err → List (Nat × Nat)
  | .field n t e => (n, t) :: errPath e
  | _ => []

/-- The cause of the innermost error. -/
def errCause : Err → Cause
  | .field _ _ e => errCause e
  | .unexpectedEOF => .truncated
  | .varintOverflow => .overflow
  | .wireTypeUnknown => .unknownType
  | .expectedWireType t => .expected t

/-- What can be wrong with the argument of Unmarshal. -/
inductive Misuse where
  | nonPointer
  | pointerToNonStruct
  | nilPointer
deriving DecidableEq, Repr

/-- `SaysMisuse s m ty`: the text says that the argument, of type `ty`, is wrong in this way. -/
inductive SaysMisuse : Text → Misuse → Text → Prop
  | nonPointer (ty) : SaysMisuse (t!"proto: Unmarshal(non-pointer" ++ (ty ++ t!")")) .nonPointer ty
  | pointerToNonStruct (ty) : SaysMisuse (t!"proto: Unmarshal(bad pointer" ++ (ty ++ t!")")) .pointerToNonStruct ty
  | nilPointer (ty) : SaysMisuse (t!"proto: Unmarshal(nil " ++ (ty ++ t!")")) .nilPointer ty

/-- How an argument is wrong. -/
inductive Misused : Arg → Misuse → Prop
  | nonPointer : Misused .nonPtr .nonPointer
  | pointerToNonStruct (n) : Misused (.ptrOther n) .pointerToNonStruct
  | nilPointer (t) : Misused (.nilMsg t) .nilPointer

end Pb.Spec
