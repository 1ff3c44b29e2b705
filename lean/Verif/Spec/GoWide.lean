import Verif.Spec.GoSyntax
/-
Functions written with a little more of Go than `Spec/GoSyntax` reads: comments between slashes and stars, function literals, type
assertions, map types, composite literals, and definitions of two variables by two values. They are rewritten as words that do not occur
in Go, before the parser of `Spec/GoSyntax` reads the rest.

* `func(...) ... { ... }` becomes the word `func#`, for the first literal in a function, `func##`, for the second, and so on; the literals
  are kept apart
* `e.(*T)` becomes the selection of `(*T)` in `e`
* `map[K]*T` becomes `map[][K]*T`, which is read as a product
* `x := T{k: ...}` becomes `x := &T{k: ...}`: a struct and a pointer to it are the same to `Spec/GoWalk`
* `[]reflect.StructField{{...}, {...}}` becomes a call of `StructField[]` with arguments `&StructField{...}`
* `a, b := x, y` becomes `a, b := (,)(x, y)`
-/
namespace Pb.Go

/-- The text without comments between slashes and stars; `c` says whether inside of one. -/
def stripBlocks (c : Bool) : Text → Text
  | [] => []
  | '/' :: '*' :: cs => if c then stripBlocks c cs else stripBlocks true cs
  | '*' :: '/' :: cs => if c then stripBlocks false cs else '*' :: '/' :: stripBlocks c cs
  | x :: cs => if c then stripBlocks c cs else x :: stripBlocks c cs

/-- Where the search for function literals stands: the number of marks for the next one, and, inside of one, how many braces are open and
its tokens, backwards. -/
structure Hoist where
  mark : Text
  inside : Option (Nat × List Tok)

/-- The tokens with words for the function literals, and the literals. -/
def hoist (h : Hoist) : List Tok → List Tok × List (List Tok)
  | [] => ([], [])
  | t :: ts =>
    match h.inside with
    | none =>
      if t = .word t!"func" then
        let r := hoist ⟨h.mark ++ t!"#", some (0, [t])⟩ ts
        (.word (t!"func#" ++ h.mark) :: r.1, r.2)
      else
        let r := hoist h ts
        (t :: r.1, r.2)
    | some (n, acc) =>
      if t = .op t!"{" then hoist ⟨h.mark, some (n + 1, t :: acc)⟩ ts
      else if t = .op t!"}" ∧ n = 1 then
        let r := hoist ⟨h.mark, none⟩ ts
        (r.1, (t :: acc).reverse :: r.2)
      else if t = .op t!"}" then hoist ⟨h.mark, some (n - 1, t :: acc)⟩ ts
      else hoist ⟨h.mark, some (n, t :: acc)⟩ ts

/-- Inside `[]reflect.StructField{...}`, with `n` braces open in it. -/
inductive InElems where
  | no
  | at (n : Nat)

/-- Type assertions, map types and composite literals. -/
def desugar : InElems → List Tok → List Tok
  | _, [] => []
  | .at 0, .op ['{'] :: ts => .op t!"&" :: .word t!"StructField" :: .op t!"{" :: desugar (.at 1) ts
  | .at 0, .op ['}'] :: ts => .op t!")" :: desugar .no ts
  | .at n, .op ['{'] :: ts => .op t!"{" :: desugar (.at (n + 1)) ts
  | .at n, .op ['}'] :: ts => .op t!"}" :: desugar (.at (n - 1)) ts
  | e, .op ['.'] :: .op ['('] :: .op ['*'] :: .word c :: .op [')'] :: ts =>
    .op t!"." :: .word (t!"(*" ++ c ++ t!")") :: desugar e ts
  | e, .op [':', '='] :: .word c :: .op ['{'] :: .word k :: ts =>
    .op t!":=" :: .op t!"&" :: .word c :: .op t!"{" :: .word k :: desugar e ts
  | e, .op ['['] :: .op [']'] :: .word p :: .op ['.'] :: .word c :: .op ['{'] :: ts =>
    if p = t!"reflect" ∧ c = t!"StructField" then .word t!"StructField[]" :: .op t!"(" :: desugar (.at 0) ts
    else .op t!"[" :: .op t!"]" :: .word p :: .op t!"." :: .word c :: .op t!"{" :: desugar e ts
  | e, .word w :: ts => .word (if w = t!"map" then t!"map[]" else w) :: desugar e ts
  | e, t :: ts => t :: desugar e ts

/-- A comma before the end of the statement or the start of a block, outside of parentheses. -/
def topComma : Nat → List Tok → Bool
  | _, [] => false
  | n, .op o :: ts =>
    if o = t!"(" then topComma (n + 1) ts
    else if o = t!")" then topComma (n - 1) ts
    else if n = 0 ∧ o = t!"{" then false
    else if n = 0 ∧ o = t!"," then true
    else topComma n ts
  | _, .semi :: _ => false
  | n, _ :: ts => topComma n ts

/-- Definitions by several values; `b` says whether inside of one. -/
def pairUp (b : Bool) : List Tok → List Tok
  | [] => []
  | .op [':', '='] :: ts =>
    if topComma 0 ts then .op t!":=" :: .word t!"(,)" :: .op t!"(" :: pairUp true ts else .op t!":=" :: pairUp b ts
  | .semi :: ts => if b then .op t!")" :: .semi :: pairUp false ts else .semi :: pairUp b ts
  | t :: ts => t :: pairUp b ts

/-- The function declared in a text, and the function literals in it. -/
def parseWide (src : Text) : Option (FuncDecl × List (List Tok)) :=
  match tokens (stripBlocks false src) with
  | some (f :: ts) =>
    let r := hoist ⟨[], none⟩ ts
    let ts := pairUp false (desugar .no r.1)
    match parseDecl (2 * ts.length + 20) (f :: ts) with
    | some (.func d, [.semi]) => some (d, r.2)
    | _ => none
  | _ => none

end Pb.Go
