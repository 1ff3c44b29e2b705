import Verif.Model.GenText
import Verif.Model.Width
/-
The texts of errors: proto/error.go, and the `fmt.Errorf` calls of proto/proto.go and proto/struct.go.
-/
namespace Pb

/-- The text of an error of the decode loop on a machine with `w`-bit integers.
* `io.ErrUnexpectedEOF` (standard library): "unexpected EOF"
* decode.go:16, error.go:9, struct.go:100
* error.go:17-19 with error.go:23-29: `FieldNumber: int(f), WireType: int(t)` of `uint`s. -/
def Err.text (w : Nat) : Err → Text
  | .unexpectedEOF => t!"unexpected EOF"
  | .varintOverflow => t!"varint overflowed 64 bits integer"
  | .wireTypeUnknown => t!"unknown wire type"
  | .expectedWireType t => t!"expected wire type " ++ decimal t
  | .field n t e => t!"field number " ++ (intText (wrapInt w n) ++ (t!" with wire type " ++ (intText (wrapInt w t) ++ (t!": " ++ e.text w))))

/-- error.go:37-51 `(*InvalidUnmarshalError).Error`; `ty` is `e.Type.String()`. What `e.Type` is follows from the argument of
Unmarshal (proto.go:43-50). -/
def invalidUnmarshalText (ty : Text) : Arg → Text
  | .nilIface => t!"proto: Unmarshal(nil)"
  | .nonPtr => t!"proto: Unmarshal(non-pointer" ++ (ty ++ t!")")
  | .ptrOther _ => t!"proto: Unmarshal(bad pointer" ++ (ty ++ t!")")
  | .nilMsg _ => t!"proto: Unmarshal(nil " ++ (ty ++ t!")")
  | .msg _ _ => t!"proto: Unmarshal(nil " ++ (ty ++ t!")")

/-- The text of an error of Marshal or Unmarshal when called with argument `a` of type `ty` (`%T` prints `reflect.TypeOf(v).String()`,
standard library).
* proto.go:28, proto.go:45-49, proto.go:54-56, proto.go:57-59. -/
def ApiErr.text (w : Nat) (ty : Text) (a : Arg) : ApiErr → Text
  | .notPointer => t!"proto.Marshal(" ++ (ty ++ t!"): not a pointer")
  | .invalidUnmarshal => invalidUnmarshalText ty a
  | .decode e => e.text w
  | .shortRead n len => t!"proto.Unmarshal(" ++ (ty ++ (t!"): read=" ++ (decimal n ++ (t!" < buffer=" ++ decimal len))))

end Pb
