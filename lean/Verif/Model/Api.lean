import Verif.Model.Codec
/-
API: proto/proto.go, proto/error.go, proto/option.go.
-/
namespace Pb

/-- The dynamic value of an `interface{}` argument, as far as proto.go distinguishes. -/
inductive Arg where
  /-- the nil interface: `reflect.TypeOf` gives a nil `reflect.Type` -/
  | nilIface
  /-- a value whose type is not a pointer -/
  | nonPtr
  /-- a pointer (nil or not) to something that is not a struct -/
  | ptrOther (isNil : Bool)
  /-- a nil pointer to a message struct -/
  | nilMsg (t : TypeId)
  /-- a pointer to a message struct -/
  | msg (t : TypeId) (v : Val)
deriving Repr

/-- Errors returned by the API functions.
* `notPointer`: proto.go:28
* `invalidUnmarshal`: error.go:33-35 `*InvalidUnmarshalError`
* `decode e`: an error of the decode loop (proto.go:54-56)
* `shortRead n len`: proto.go:57-59 `read=%d < buffer=%d`. -/
inductive ApiErr where
  | notPointer
  | invalidUnmarshal
  | decode (e : Err)
  | shortRead (n len : Nat)
deriving DecidableEq, Repr

/-- proto.go:15-23 `Size`. `t.Kind()` on a nil `reflect.Type` panics, as does `NumField` of a non-struct in
`cachedStructInfoOf`; for a nil message pointer struct.go:36-38 applies. -/
def size (env : Env) (a : Arg) : Except Fault Nat :=
  match a with
  | .nilIface => .error .panic
  | .nonPtr => .error .panic
  | .ptrOther _ => .error .panic
  | .nilMsg _ => .ok 0
  | .msg t v => sizeMsg env (v.depth + 1) t v

/-- proto.go:25-35 `Marshal`; for a nil message pointer struct.go:47-49 applies. -/
def marshal (env : Env) (a : Arg) : Except Fault (Except ApiErr Bytes) :=
  match a with
  | .nilIface => .error .panic
  | .nonPtr => .ok (.error .notPointer)
  | .ptrOther _ => .error .panic
  | .nilMsg _ => .ok (.ok [])
  | .msg t v => do
    let _n ← sizeMsg env (v.depth + 1) t v  -- proto.go:32, capacity of the buffer
    let b ← encodeMsg env (v.depth + 1) t [] v
    return .ok b

/-- Result of `Unmarshal`: the target afterwards and the error, if any. -/
structure UnmarshalRes where
  target : Arg
  err : Option ApiErr
deriving Repr

/-- proto.go:37-61 `Unmarshal`. -/
def unmarshal (env : Env) (b : Bytes) (a : Arg) : Except Fault UnmarshalRes :=
  if b.length = 0 then .ok ⟨a, none⟩
  else
    match a with
    | .nilIface => .error .panic
    | .nonPtr => .ok ⟨a, some .invalidUnmarshal⟩
    | .ptrOther _ => .ok ⟨a, some .invalidUnmarshal⟩
    | .nilMsg _ => .ok ⟨a, some .invalidUnmarshal⟩
    | .msg t v => do
      match ← decodeMsg env (b.length + 1) t b v with
      | .err v e => return ⟨.msg t v, some (.decode e)⟩
      | .ok v n =>
        if n < b.length then return ⟨.msg t v, some (.shortRead n b.length)⟩
        else return ⟨.msg t v, none⟩

/-- error.go:17-21: `errors.Is(err, target)` for a sentinel error follows `Unwrap` through the layers of
`*UnmarshalFieldError`. -/
def Err.is (target : Err) : Err → Bool
  | .field n t e => decide (Err.field n t e = target) || Err.is target e
  | e => decide (e = target)

/-- The innermost error. -/
def Err.root : Err → Err
  | .field _ _ e => e.root
  | e => e

/-- option.go:7-10 `Option[T]`. -/
structure GoOption (α : Type) where
  some : Bool
  value : α

namespace GoOption
variable {α : Type}
/-- option.go:12-17 `Some`. -/
def Some (v : α) : GoOption α := { some := true, value := v }
/-- option.go:19-21 `None`; `zero` is the zero value of the type. -/
def None (zero : α) : GoOption α := { some := false, value := zero }
/-- option.go:23-25 `IsSome`. -/
def IsSome (o : GoOption α) : Bool := o.some
/-- option.go:27-29 `IsNone`. -/
def IsNone (o : GoOption α) : Bool := !o.some
/-- option.go:31-37 `Unwrap`. -/
def Unwrap (zero : α) (o : GoOption α) : α := if o.IsSome then o.value else zero
/-- option.go:39-44 `UnwrapOr`. -/
def UnwrapOr (o : GoOption α) (d : α) : α := if o.IsSome then o.value else d
end GoOption

/-- option.go:51 `Bool`. -/
def mkBool (v : Bool) : GoOption Bool := GoOption.Some v
/-- option.go:54 `Int32`. -/
def mkInt32 (v : U32) : GoOption U32 := GoOption.Some v
/-- option.go:57 `Int64`. -/
def mkInt64 (v : U64) : GoOption U64 := GoOption.Some v
/-- option.go:60 `Float32` (bits). -/
def mkFloat32 (v : U32) : GoOption U32 := GoOption.Some v
/-- option.go:63 `Float64` (bits). -/
def mkFloat64 (v : U64) : GoOption U64 := GoOption.Some v
/-- option.go:66 `Uint32`. -/
def mkUint32 (v : U32) : GoOption U32 := GoOption.Some v
/-- option.go:69 `Uint64`. -/
def mkUint64 (v : U64) : GoOption U64 := GoOption.Some v
/-- option.go:72 `String`. -/
def mkString (v : Bytes) : GoOption Bytes := GoOption.Some v

/-- The memory of an `Option[T]` field. -/
def GoOption.toVal {α : Type} (f : α → Val) (o : GoOption α) : Val := .opt o.some (f o.value)

end Pb
