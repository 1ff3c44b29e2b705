import Verif.Model.GenText
/-
How Go reads source text: tokens, semicolons and declarations, as the language specification says (sections Source code
representation, Lexical elements, Types, Declarations), for the part of the language that generated files use. Text outside of this part
is refused, except that function bodies are kept as tokens.
-/
namespace Pb.Spec

/-! ### tokens -/

inductive Tok where
  /-- identifier, keyword or number -/
  | word (w : Text)
  /-- one character of an operator or punctuation -/
  | op (c : Char)
  /-- raw string literal -/
  | raw (s : Text)
  /-- interpreted string literal without escapes -/
  | str (s : Text)
  /-- semicolon, written or inserted at the end of a line -/
  | semi
deriving DecidableEq, Repr

/-- Letters (of ASCII), digits and underscore. -/
def isWordChar (c : Char) : Bool :=
  ('a' ≤ c && c ≤ 'z') || ('A' ≤ c && c ≤ 'Z') || ('0' ≤ c && c ≤ '9') || c == '_'

/-- Characters that must not occur in source text: NUL, and the byte order mark. -/
def isIllegal (c : Char) : Bool := c == '\x00' || c == '﻿'

def isOpChar (c : Char) : Bool := c ∈ t!"(){}[]*.,:=!-"

/-- The keywords of Go. -/
def keywords : List Text :=
  [t!"break", t!"case", t!"chan", t!"const", t!"continue", t!"default", t!"defer", t!"else", t!"fallthrough", t!"for", t!"func",
   t!"go", t!"goto", t!"if", t!"import", t!"interface", t!"map", t!"package", t!"range", t!"return", t!"select", t!"struct",
   t!"switch", t!"type", t!"var"]

/-- A semicolon is inserted at the end of a line after an identifier, a literal, or one of four keywords. -/
def endsAfterWord (w : Text) : Bool :=
  w ∉ keywords || w ∈ [t!"break", t!"continue", t!"fallthrough", t!"return"]

/-- ... and after a closing bracket. -/
def endsAfterOp (c : Char) : Bool := c ∈ t!")]}"

/-- Where the reading of tokens stands; `e` says that a semicolon is to be inserted at the end of the line. -/
inductive LexState where
  | start (e : Bool)
  | word (w : Text)
  | slash (e : Bool)
  | comment (e : Bool)
  | raw (s : Text)
  | str (s : Text)
deriving DecidableEq, Repr

/-- The semicolon inserted at the end of a line. -/
def lineEnd (e : Bool) : List Tok := if e then [.semi] else []

/-- One character between tokens. -/
def stepStart (e : Bool) (c : Char) : Option (List Tok × LexState) :=
  if c = '\n' then some (lineEnd e, .start false)
  else if c = ' ' ∨ c = '\t' ∨ c = '\r' then some ([], .start e)
  else if isWordChar c then some ([], .word [c])
  else if c = '/' then some ([], .slash e)
  else if c = '`' then some ([], .raw [])
  else if c = '"' then some ([], .str [])
  else if c = ';' then some ([.semi], .start false)
  else if isOpChar c then some ([.op c], .start (endsAfterOp c))
  else none

/-- One character: the tokens that are complete, and the new state. General comments, escapes and non-ASCII identifiers are
refused. -/
def lexStep : LexState → Char → Option (List Tok × LexState)
  | .start e, c => stepStart e c
  | .word w, c =>
    if isWordChar c then some ([], .word (w ++ [c]))
    else (stepStart (endsAfterWord w) c).map fun r => (.word w :: r.1, r.2)
  | .slash e, c => if c = '/' then some ([], .comment e) else none
  | .comment e, c =>
    if c = '\n' then some (lineEnd e, .start false)
    else if isIllegal c then none
    else some ([], .comment e)
  | .raw s, c =>
    if c = '`' then some ([.raw s], .start true)
    else if isIllegal c then none
    else if c = '\r' then some ([], .raw s)
    else some ([], .raw (s ++ [c]))
  | .str s, c =>
    if c = '"' then some ([.str s], .start true)
    else if isIllegal c ∨ c = '\n' ∨ c = '\\' then none
    else some ([], .str (s ++ [c]))

/-- Reading a piece of text. -/
def lexRun : LexState → Text → Option (List Tok × LexState)
  | s, [] => some ([], s)
  | s, c :: cs =>
    match lexStep s c with
    | none => none
    | some (ts, s) => (lexRun s cs).map fun r => (ts ++ r.1, r.2)

/-- The end of the text counts as the end of a line. -/
def lexEnd : LexState → Option (List Tok)
  | .start e | .comment e => some (lineEnd e)
  | .word w => some (.word w :: lineEnd (endsAfterWord w))
  | .slash _ | .raw _ | .str _ => none

/-- The tokens of a source text. -/
def tokens (src : Text) : Option (List Tok) :=
  match lexRun (.start false) src with
  | none => none
  | some (ts, s) => (lexEnd s).map (ts ++ ·)

/-! ### declarations -/

/-- Types. -/
inductive TypeExpr where
  | name (pkg : Option Text) (n : Text)
  /-- a generic type with one argument -/
  | inst (pkg : Text) (n : Text) (arg : TypeExpr)
  | ptr (t : TypeExpr)
  | slice (t : TypeExpr)
  | array (len : Text) (t : TypeExpr)
  | map (k v : TypeExpr)
  /-- `func()` -/
  | func
deriving DecidableEq, Repr

structure SrcField where
  name : Text
  ty : TypeExpr
  tag : Option Text
deriving DecidableEq, Repr

inductive SrcDecl where
  /-- `type name = t` -/
  | alias (name : Text) (t : TypeExpr)
  | struct (name : Text) (fields : List SrcField)
  /-- an interface type, with the names of its methods, which have no parameters and results -/
  | interface (name : Text) (methods : List Text)
  /-- `const ( name type = value ... )`; a value as its tokens -/
  | consts (cs : List (Text × TypeExpr × List Tok))
  /-- `const name = value` -/
  | const (name : Text) (value : List Tok)
  /-- a method without parameters: name and type of the receiver, which is a pointer, result, and the tokens of the body -/
  | method (recv : Option Text) (recvType : Text) (name : Text) (result : Option TypeExpr) (body : List Tok)
deriving DecidableEq, Repr

/-- A type at the beginning of `ts`, nested at most so deep. -/
def parseType : Nat → List Tok → Option (TypeExpr × List Tok)
  | 0, _ => none
  | d + 1, ts =>
    match ts with
    | .op c :: ts =>
      if c = '*' then
        match parseType d ts with
        | some (t, ts) => some (.ptr t, ts)
        | none => none
      else if c = '[' then
        match ts with
        | .op c :: ts =>
          if c = ']' then
            match parseType d ts with
            | some (t, ts) => some (.slice t, ts)
            | none => none
          else none
        | .word n :: .op c :: ts =>
          if c = ']' then
            match parseType d ts with
            | some (t, ts) => some (.array n t, ts)
            | none => none
          else none
        | _ => none
      else none
    | .word w :: ts =>
      if w = t!"map" then
        match ts with
        | .op c :: ts =>
          if c = '[' then
            match parseType d ts with
            | some (k, .op c :: ts) =>
              if c = ']' then
                match parseType d ts with
                | some (v, ts) => some (.map k v, ts)
                | none => none
              else none
            | _ => none
          else none
        | _ => none
      else if w = t!"func" then
        match ts with
        | .op c :: .op c' :: ts => if c = '(' ∧ c' = ')' then some (.func, ts) else none
        | _ => none
      else if w ∈ keywords then none
      else
        match ts with
        | .op c :: .word n :: ts =>
          if c = '.' then
            match ts with
            | .op c :: ts' =>
              if c = '[' then
                match parseType d ts' with
                | some (t, .op c :: ts) => if c = ']' then some (.inst w n t, ts) else none
                | _ => none
              else some (.name (some w) n, ts)
            | ts => some (.name (some w) n, ts)
          else some (.name none w, .op c :: .word n :: ts)
        | ts => some (.name none w, ts)
    | _ => none

/-- A type. -/
def parseTy (ts : List Tok) : Option (TypeExpr × List Tok) := parseType ts.length ts

/-- The fields of a struct up to the closing brace, at most so many. -/
def parseSrcFields : Nat → List Tok → Option (List SrcField × List Tok)
  | 0, _ => none
  | k + 1, ts =>
    match ts with
    | .op c :: ts => if c = '}' then some ([], ts) else none
    | .word n :: ts =>
      match parseTy ts with
      | some (t, .raw s :: .semi :: ts) => (parseSrcFields k ts).map fun r => (⟨n, t, some s⟩ :: r.1, r.2)
      | some (t, .semi :: ts) => (parseSrcFields k ts).map fun r => (⟨n, t, none⟩ :: r.1, r.2)
      | _ => none
    | _ => none

/-- The methods of an interface up to the closing brace, at most so many. -/
def parseMethods : Nat → List Tok → Option (List Text × List Tok)
  | 0, _ => none
  | k + 1, ts =>
    match ts with
    | .op c :: ts => if c = '}' then some ([], ts) else none
    | .word n :: .op c :: .op c' :: .semi :: ts =>
      if c = '(' ∧ c' = ')' then (parseMethods k ts).map fun r => (n :: r.1, r.2) else none
    | _ => none

/-- The tokens up to the next semicolon. -/
def takeValue : List Tok → Option (List Tok × List Tok)
  | [] => none
  | .semi :: ts => some ([], ts)
  | t :: ts => (takeValue ts).map fun r => (t :: r.1, r.2)

/-- The constants of a group up to the closing parenthesis, at most so many. -/
def parseConsts : Nat → List Tok → Option (List (Text × TypeExpr × List Tok) × List Tok)
  | 0, _ => none
  | k + 1, ts =>
    match ts with
    | .op c :: ts => if c = ')' then some ([], ts) else none
    | .word n :: ts =>
      match parseTy ts with
      | some (t, .op c :: ts) =>
        if c = '=' then
          match takeValue ts with
          | some (v, ts) => (parseConsts k ts).map fun r => ((n, t, v) :: r.1, r.2)
          | none => none
        else none
      | _ => none
    | _ => none

/-- The tokens up to the closing brace that matches; `d` are open inside. -/
def takeBody : Nat → List Tok → Option (List Tok × List Tok)
  | _, [] => none
  | d, .op c :: ts =>
    if c = '{' then (takeBody (d + 1) ts).map fun r => (.op c :: r.1, r.2)
    else if c = '}' then
      match d with
      | 0 => some ([], ts)
      | d + 1 => (takeBody d ts).map fun r => (.op c :: r.1, r.2)
    else (takeBody d ts).map fun r => (.op c :: r.1, r.2)
  | d, t :: ts => (takeBody d ts).map fun r => (t :: r.1, r.2)

/-- After the receiver of a method: name, result and body. -/
def parseMethod (recv : Option Text) (recvType : Text) : List Tok → Option (SrcDecl × List Tok)
  | .word n :: .op c :: .op c' :: ts =>
    if c = '(' ∧ c' = ')' then
      match ts with
      | .op c :: ts' =>
        if c = '{' then
          match takeBody 0 ts' with
          | some (b, ts) => some (.method recv recvType n none b, ts)
          | none => none
        else
          match parseTy ts with
          | some (t, .op c :: ts) =>
            if c = '{' then
              match takeBody 0 ts with
              | some (b, ts) => some (.method recv recvType n (some t) b, ts)
              | none => none
            else none
          | _ => none
      | _ =>
        match parseTy ts with
        | some (t, .op c :: ts) =>
          if c = '{' then
            match takeBody 0 ts with
            | some (b, ts) => some (.method recv recvType n (some t) b, ts)
            | none => none
          else none
        | _ => none
    else none
  | _ => none

/-- A declaration at the beginning of `ts`. -/
def parseDecl : List Tok → Option (SrcDecl × List Tok)
  | .word w :: ts =>
    if w = t!"type" then
      match ts with
      | .word n :: .op c :: ts =>
        if c = '=' then
          match parseTy ts with
          | some (t, ts) => some (.alias n t, ts)
          | none => none
        else none
      | .word n :: .word w :: .op c :: ts =>
        if c = '{' then
          if w = t!"struct" then (parseSrcFields (ts.length + 1) ts).map fun r => (.struct n r.1, r.2)
          else if w = t!"interface" then (parseMethods (ts.length + 1) ts).map fun r => (.interface n r.1, r.2)
          else none
        else none
      | _ => none
    else if w = t!"const" then
      match ts with
      | .op c :: ts => if c = '(' then (parseConsts (ts.length + 1) ts).map fun r => (.consts r.1, r.2) else none
      | .word n :: .op c :: ts => if c = '=' then (takeValue ts).map fun r => (.const n r.1, .semi :: r.2) else none
      | _ => none
    else if w = t!"func" then
      match ts with
      | .op c :: .op c' :: .word t :: .op c'' :: ts =>
        if c = '(' ∧ c' = '*' ∧ c'' = ')' then parseMethod none t ts else none
      | .op c :: .word x :: .op c' :: .word t :: .op c'' :: ts =>
        if c = '(' ∧ c' = '*' ∧ c'' = ')' then parseMethod (some x) t ts else none
      | _ => none
    else none
  | _ => none

/-- At most so many declarations, each with a semicolon behind. -/
def parseDecls : Nat → List Tok → Option (List SrcDecl)
  | _, [] => some []
  | 0, _ => none
  | k + 1, ts =>
    match parseDecl ts with
    | some (d, .semi :: ts) => (parseDecls k ts).map (d :: ·)
    | _ => none

/-- A source file: the name of the package and the declarations. -/
def parseFile (src : Text) : Option (Text × List SrcDecl) :=
  match tokens src with
  | some (.word w :: .word p :: .semi :: ts) =>
    if w = t!"package" then (parseDecls ts.length ts).map (p, ·) else none
  | _ => none

/-- An identifier. -/
def IsIdent (w : Text) : Prop := w ≠ [] ∧ (∀ c ∈ w, isWordChar c) ∧ w ∉ keywords ∧ ∀ c, w.head? = some c → ¬ ('0' ≤ c ∧ c ≤ '9')

end Pb.Spec
