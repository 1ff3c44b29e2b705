import Verif.Model.Walker
/-
Struct tags as they stand in Go source: `key:"value" key:"value"`, written by internal/generator/main.go:513-533 and
by proto/map.go:96-98, read by `reflect.StructTag.Lookup` and `Get` (standard library, reflect/type.go).
-/
namespace Pb

/-- `strconv.Quote` (standard library), for text none of whose characters needs escaping. The replacement of backquotes
that follows in main.go:529 does nothing on such text. -/
def quote (s : Text) : Text := '"' :: (s ++ ['"'])

/-- internal/generator/main.go:520-533 `structTags.String`, without the backquotes, which the Go compiler removes. -/
def renderTags : List (Text × Text) → Text
  | [] => []
  | [(k, v)] => k ++ ':' :: quote v
  | (k, v) :: rest => k ++ ':' :: (quote v ++ ' ' :: renderTags rest)

/-- Characters of a tag key (`Lookup`: neither space nor control character, colon or quote). -/
def nameChar (c : Char) : Bool := ' ' < c && c != ':' && c != '"' && c != '\x7f'

/-- `Lookup`: scan a quoted string up to its closing quote; the text in between and what follows. -/
def scanValue : Text → Option (Text × Text)
  | [] => none
  | '"' :: rest => some ([], rest)
  | '\\' :: [] => none
  | '\\' :: c :: rest => (scanValue rest).map fun (q, r) => ('\\' :: c :: q, r)
  | c :: rest => (scanValue rest).map fun (q, r) => (c :: q, r)

/-- `strconv.Unquote` (standard library) of a quoted text, for text without escapes; a newline is refused. Text with escapes
is not modelled (none). -/
def unquote (q : Text) : Option Text := if '\\' ∈ q ∨ '\n' ∈ q then none else some q

/-- `reflect.StructTag.Lookup` (standard library), for at most the given number of pairs. -/
def lookupUpTo (key : Text) : Nat → Text → Option Text
  | 0, _ => none
  | k + 1, tag =>
    let tag := tag.dropWhile (· == ' ')
    let name := tag.takeWhile nameChar
    if name = [] then none
    else
      match tag.dropWhile nameChar with
      | ':' :: '"' :: rest =>
        match scanValue rest with
        | none => none
        | some (q, rest) => if name = key then unquote q else lookupUpTo key k rest
      | _ => none

/-- `reflect.StructTag.Lookup` (standard library). Every pair takes at least one character, so the length is a bound. -/
def lookupTag (key tag : Text) : Option Text := lookupUpTo key tag.length tag

/-- walker.go:152, 240, 246: what the library reads from the tag text of a struct field. -/
def declOf (exported : Bool) (raw : Text) (ty : FieldType) : FieldDecl :=
  ⟨exported, lookupTag "protobuf".toList raw, (lookupTag "protobuf_key".toList raw).getD [],
    (lookupTag "protobuf_val".toList raw).getD [], ty⟩

end Pb
