import Verif.Model.GenText
/-
Templates of package text/template, as far as the library uses them: text outside of `{{` and `}}` is copied, `{{.F}}` is a field of
the element at hand, and what is between `{{range .L}}` and `{{end}}` is repeated for the elements of a list.
-/
namespace Pb.Go

/-- A piece of a template. -/
inductive Piece where
  | text (t : Text)
  | field (n : Text)
  | range (n : Text)
  | stop
deriving DecidableEq, Repr

/-- What is between `{{` and `}}`. -/
def action? : Text → Option Piece
  | '.' :: n => some (.field n)
  | 'r' :: 'a' :: 'n' :: 'g' :: 'e' :: ' ' :: '.' :: n => some (.range n)
  | ['e', 'n', 'd'] => some .stop
  | _ => none

/-- The pieces of a template; `acc` is what has been read of the current piece, backwards, and `b` says that it is an action. -/
def pieces (acc : Text) (b : Bool) : Text → Option (List Piece)
  | [] => if b then none else some [.text acc.reverse]
  | '{' :: '{' :: r => if b then none else (pieces [] true r).map (.text acc.reverse :: ·)
  | '}' :: '}' :: r =>
    if b then
      match action? acc.reverse, pieces [] false r with
      | some a, some ps => some (a :: ps)
      | _, _ => none
    else none
  | c :: r => pieces (c :: acc) b r

/-- The fields of an element of a list. -/
abbrev Record := List (Text × Text)

def Record.get (n : Text) : Record → Option Text
  | [] => none
  | (m, v) :: r => if m = n then some v else Record.get n r

/-- The body of a range for one element. -/
def renderItem (x : Record) : List Piece → Option Text
  | [] => some []
  | .text t :: ps => (renderItem x ps).map (t ++ ·)
  | .field n :: ps =>
    match x.get n, renderItem x ps with
    | some v, some t => some (v ++ t)
    | _, _ => none
  | _ => none

/-- The body of a range for all elements. -/
def renderItems (ps : List Piece) : List Record → Option Text
  | [] => some []
  | x :: xs =>
    match renderItem x ps, renderItems ps xs with
    | some t, some u => some (t ++ u)
    | _, _ => none

/-- A template whose data are lists of records. `cur` is the list of the range we are in, and the pieces of its body so far, backwards. -/
def renderPieces (data : Text → Option (List Record)) : Option (List Record × List Piece) → List Piece → Option Text
  | none, [] => some []
  | some _, [] => none
  | none, .text t :: ps => (renderPieces data none ps).map (t ++ ·)
  | none, .range n :: ps =>
    match data n with
    | some xs => renderPieces data (some (xs, [])) ps
    | none => none
  | none, _ => none
  | some (xs, acc), .stop :: ps =>
    match renderItems acc.reverse xs, renderPieces data none ps with
    | some t, some u => some (t ++ u)
    | _, _ => none
  | some (xs, acc), p :: ps => renderPieces data (some (xs, p :: acc)) ps

/-- The text a template gives. -/
def render (data : Text → Option (List Record)) (tmpl : Text) : Option Text :=
  match pieces [] false tmpl with
  | some ps => renderPieces data none ps
  | none => none

end Pb.Go
