import Verif.Model.Codec
/-
Struct tags: proto/struct.go:151-227, proto/map.go:96-98, proto/proto.go:87-100.
-/
namespace Pb

/-- Text of a struct tag value. -/
abbrev Text := List Char

/-- `strings.Split(s, ",")` (struct.go:225-227 `splitFields`): always at least one piece. -/
def splitFields : Text → List Text
  | [] => [[]]
  | c :: cs =>
    if c = ',' then [] :: splitFields cs
    else
      match splitFields cs with
      | [] => [[c]]
      | p :: ps => (c :: p) :: ps

/-- Value of a decimal digit. -/
def digitVal (c : Char) : Option Nat :=
  if '0' ≤ c ∧ c ≤ '9' then some (c.toNat - '0'.toNat) else none

/-- A non-empty sequence of decimal digits, accumulated from `n`. -/
def parseDigits (n : Nat) : Text → Option Nat
  | [] => some n
  | c :: cs =>
    match digitVal c with
    | some d => parseDigits (10 * n + d) cs
    | none => none

/-- `strconv.Atoi` (standard library): optional sign, at least one decimal digit, result in the range
of a 64-bit `int`. -/
def atoi (s : Text) : Option Int :=
  match s with
  | [] => none
  | c :: cs =>
    let (neg, ds) := if c = '-' then (true, cs) else if c = '+' then (false, cs) else (false, s)
    if ds = [] then none
    else
      match parseDigits 0 ds with
      | none => none
      | some n =>
        if neg then (if n ≤ 2 ^ 63 then some (-(n : Int)) else none)
        else (if n < 2 ^ 63 then some (n : Int) else none)

/-- struct.go:151-157 `structTag`. -/
structure StructTag where
  wireType : Nat := 0
  fieldNumber : U64 := 0#64
  repeated : Bool := false
  zigzag : Bool := false
deriving DecidableEq, Repr

/-- struct.go:167-184, `case 0`: the wire type name. -/
def parseWireType (t : StructTag) (f : Text) : Option StructTag :=
  if f = "varint".toList then some { t with wireType := wtVarint }
  else if f = "bytes".toList then some { t with wireType := wtVarlen }
  else if f = "fixed32".toList then some { t with wireType := wtFixed32 }
  else if f = "fixed64".toList then some { t with wireType := wtFixed64 }
  else if f = "zigzag32".toList then some { t with wireType := wtVarint, zigzag := true }
  else if f = "zigzag64".toList then some { t with wireType := wtVarint, zigzag := true }
  else none

/-- struct.go:193-201, `case 2`: the field option. -/
def parseOption (t : StructTag) (f : Text) : Option StructTag :=
  if f = "opt".toList then some t
  else if f = "rep".toList then some { t with repeated := true }
  else none

/-- struct.go:164-220, the loop over the comma-separated pieces; `i` is the index of the head. The
result holds the tag as filled so far and whether an error was returned (map.go's callers at
walker.go:240,246 ignore the error and use the partial tag). -/
def parseFields (i : Nat) (t : StructTag) : List Text → StructTag × Bool
  | [] => (t, false)
  | f :: fs =>
    match i with
    | 0 =>
      match parseWireType t f with
      | some t => parseFields (i + 1) t fs
      | none => (t, true)
    | 1 =>
      match atoi f with
      | some n => parseFields (i + 1) { t with fieldNumber := BitVec.ofInt 64 n } fs
      | none => (t, true)
    | 2 =>
      match parseOption t f with
      | some t => parseFields (i + 1) t fs
      | none => (t, true)
    | _ => parseFields (i + 1) t fs

/-- struct.go:159-223 `parseStructTag`. -/
def parseStructTag (tag : Text) : StructTag × Bool := parseFields 0 {} (splitFields tag)

/-- walker.go:165 (and 241, 247): `uint64(t.fieldNumber)<<3 | uint64(t.wireType)`. -/
def StructTag.wiretag (t : StructTag) : U64 := (t.fieldNumber <<< 3) ||| BitVec.ofNat 64 t.wireType

/-- proto.go:87-100 `wireType.String`. -/
def wireTypeName (wt : Nat) : Text :=
  if wt = wtVarint then "varint".toList
  else if wt = wtVarlen then "bytes".toList
  else if wt = wtFixed32 then "fixed32".toList
  else if wt = wtFixed64 then "fixed64".toList
  else "unknown".toList

/-- The character of a decimal digit. -/
def digitChar (d : Nat) : Char := Char.ofNat ('0'.toNat + d)

/-- Decimal notation of a natural number with at most the given number of digits. -/
def decimalUpTo : Nat → Nat → Text
  | 0, _ => []
  | k + 1, n => if n < 10 then [digitChar n] else decimalUpTo k (n / 10) ++ [digitChar (n % 10)]

/-- Decimal notation of a natural number, as written by `fmt`'s `%d` and `strconv.Itoa` (standard library). -/
def decimal (n : Nat) : Text := decimalUpTo (n + 1) n

/-- map.go:96-98 `formatWireTag`: the value of the `protobuf` key of the resulting struct tag (the quoting
around it is undone by `StructTag.Lookup`). -/
def formatWireTag (wire : U64) : Text :=
  wireTypeName (wtType wire) ++ [','] ++ decimal (wtNumber wire) ++ ",opt".toList

end Pb
