import Verif.Model.GenText
/-
Go functions as source text: tokens, syntax trees, and how text is read (The Go Programming Language Specification, sections "Lexical
elements", "Expressions", "Statements", "Function declarations"), for the part of the language in which the library is written.
Text outside of this part is refused.
-/
namespace Pb.Go

/-! ### tokens -/

inductive Tok where
  /-- identifier, keyword or number -/
  | word (w : Text)
  /-- operator or punctuation -/
  | op (o : Text)
  /-- interpreted string literal without escapes -/
  | str (s : Text)
  /-- semicolon, written or inserted at the end of a line -/
  | semi
deriving DecidableEq, Repr

def isWordChar (c : Char) : Bool :=
  ('a' ≤ c && c ≤ 'z') || ('A' ≤ c && c ≤ 'Z') || ('0' ≤ c && c ≤ '9') || c == '_'

def isOpChar (c : Char) : Bool := c ∈ t!"(){}[]*.,:=!-+<>&|^%/"

/-- Operators of more than one character, except `...`. -/
def longOps : List Text :=
  [t!"<<", t!">>", t!"&&", t!"||", t!"==", t!"!=", t!"<=", t!">=", t!":=", t!"+=", t!"-=", t!"*=", t!"/=", t!"|=", t!"&=", t!"^=",
   t!"++", t!"--", t!"<<=", t!">>="]

def keywords : List Text :=
  [t!"break", t!"case", t!"chan", t!"const", t!"continue", t!"default", t!"defer", t!"else", t!"fallthrough", t!"for", t!"func",
   t!"go", t!"goto", t!"if", t!"import", t!"interface", t!"map", t!"package", t!"range", t!"return", t!"select", t!"struct",
   t!"switch", t!"type", t!"var"]

/-- A semicolon is inserted at the end of a line after an identifier, a literal, or one of four keywords. -/
def endsAfterWord (w : Text) : Bool :=
  w ∉ keywords || w ∈ [t!"break", t!"continue", t!"fallthrough", t!"return"]

/-- ... and after these. -/
def endsAfterOp (o : Text) : Bool := o ∈ [t!")", t!"]", t!"}", t!"++", t!"--"]

/-- Where the reading of tokens stands; `e` says that a semicolon is to be inserted at the end of the line. Words and operators are
collected backwards. -/
inductive LexState where
  | start (e : Bool)
  | word (w : Text)
  | op (e : Bool) (o : Text)
  | comment (e : Bool)
  | str (s : Text)
deriving DecidableEq, Repr

/-- The semicolon inserted at the end of a line. -/
def lineEnd (e : Bool) : List Tok := if e then [.semi] else []

/-- One character between tokens. -/
def stepStart (e : Bool) (c : Char) : Option (List Tok × LexState) :=
  if c = '\n' then some (lineEnd e, .start false)
  else if c = ' ' ∨ c = '\t' then some ([], .start e)
  else if isWordChar c then some ([], .word [c])
  else if c = '"' then some ([], .str [])
  else if c = ';' then some ([.semi], .start false)
  else if isOpChar c then some ([], .op e [c])
  else none

/-- One character: the tokens that are complete, and the new state. -/
def lexStep : LexState → Char → Option (List Tok × LexState)
  | .start e, c => stepStart e c
  | .word w, c =>
    if isWordChar c then some ([], .word (c :: w))
    else (stepStart (endsAfterWord w.reverse) c).map fun r => (.word w.reverse :: r.1, r.2)
  | .op e o, c =>
    if o = t!"/" ∧ c = '/' then some ([], .comment e)
    else if (c :: o).reverse ∈ longOps then some ([], .op e (c :: o))
    else (stepStart (endsAfterOp o.reverse) c).map fun r => (.op o.reverse :: r.1, r.2)
  | .comment e, c => if c = '\n' then some (lineEnd e, .start false) else some ([], .comment e)
  | .str s, c =>
    if c = '"' then some ([.str s.reverse], .start true)
    else if c = '\n' ∨ c = '\\' then none
    else some ([], .str (c :: s))

def lexRun : LexState → Text → Option (List Tok × LexState)
  | s, [] => some ([], s)
  | s, c :: cs =>
    match lexStep s c with
    | none => none
    | some (ts, s) => (lexRun s cs).map fun r => (ts ++ r.1, r.2)

/-- The end of the text counts as the end of a line. -/
def lexEnd : LexState → Option (List Tok)
  | .start e | .comment e => some (lineEnd e)
  | .word w => some (.word w.reverse :: lineEnd (endsAfterWord w.reverse))
  | .op _ o => some (.op o.reverse :: lineEnd (endsAfterOp o.reverse))
  | .str _ => none

/-- The tokens of a source text. -/
def tokens (src : Text) : Option (List Tok) :=
  match lexRun (.start false) src with
  | none => none
  | some (ts, s) => (lexEnd s).map (ts ++ ·)

/-! ### syntax trees -/

inductive BinOp where
  | add | sub | mul | div | rem | shl | shr | and | or | xor | eq | ne | lt | le | gt | ge | land | lor
deriving DecidableEq, Repr

inductive UnOp where
  | neg | not | deref | addr
  /-- `[]T` -/
  | sliceOf
deriving DecidableEq, Repr

/-- Expressions and types. `arg` and `none` make lists. -/
inductive Expr where
  | ident (n : Text)
  | num (n : Nat)
  | str (s : Text)
  | un (o : UnOp) (e : Expr)
  | bin (o : BinOp) (a b : Expr)
  | call (f args : Expr)
  | sel (e : Expr) (n : Text)
  /-- also a generic type with its argument -/
  | index (e i : Expr)
  /-- `e[lo:hi]` -/
  | slice (e lo hi : Expr)
  /-- `e...` as last argument -/
  | spread (e : Expr)
  /-- `t{k: v, ...}` -/
  | lit (t elems : Expr)
  | kv (k v : Expr)
  | none
  | arg (e rest : Expr)
deriving DecidableEq, Repr

/-- Statements. A block is a `seq` that ends with `skip`. -/
inductive Stmt where
  | skip
  | seq (s rest : Stmt)
  /-- `a, b := e` -/
  | define (l : Expr) (e : Expr)
  /-- `a, b = e, f` -/
  | assign (l r : Expr)
  /-- `a += e` -/
  | opAssign (o : BinOp) (l r : Expr)
  /-- `var n t` -/
  | var (n : Text) (t : Expr)
  | ret (es : Expr)
  /-- `if init; c { t } else { e }` -/
  | ite (init : Stmt) (c : Expr) (t e : Stmt)
  /-- `switch tag { cases }` -/
  | switch (tag : Expr) (cases : Stmt)
  | case (es : Expr) (body rest : Stmt)
  | default (body rest : Stmt)
  /-- `for k, v := range e { body }` -/
  | range (k v : Text) (e : Expr) (body : Stmt)
  /-- `for init; c; post { body }` -/
  | loop (init : Stmt) (c : Expr) (post : Stmt) (body : Stmt)
  | expr (e : Expr)
  /-- `defer e` -/
  | defer (e : Expr)
  | cont
deriving DecidableEq, Repr

structure FuncDecl where
  recv : Option (Text × Expr)
  name : Text
  params : List (Text × Expr)
  /-- Results with their names, which are empty if there are none. -/
  results : List (Text × Expr)
  body : Stmt
deriving DecidableEq, Repr

inductive Decl where
  | func (f : FuncDecl)
  /-- `var name = value` -/
  | var (name : Text) (value : Expr)
  | imports (paths : List Text)
  /-- `package` and `type` declarations: the tokens after the keyword -/
  | other (w : Text) (ts : List Tok)
deriving DecidableEq, Repr

/-! ### reading -/

def digit? (c : Char) : Option Nat :=
  if '0' ≤ c ∧ c ≤ '9' then some (c.toNat - '0'.toNat)
  else if 'a' ≤ c ∧ c ≤ 'f' then some (c.toNat - 'a'.toNat + 10)
  else if 'A' ≤ c ∧ c ≤ 'F' then some (c.toNat - 'A'.toNat + 10)
  else none

def readDigits (base : Nat) : Nat → Text → Option Nat
  | n, [] => some n
  | n, c :: cs =>
    match digit? c with
    | some d => if d < base then readDigits base (base * n + d) cs else none
    | none => none

/-- A number: decimal without leading zero, or hexadecimal. -/
def number? : Text → Option Nat
  | '0' :: 'x' :: c :: cs => readDigits 16 0 (c :: cs)
  | ['0'] => some 0
  | '0' :: _ => none
  | [] => none
  | cs => readDigits 10 0 cs

/-- Binary operators and their precedence. -/
def binOp? (o : Text) : Option (BinOp × Nat) :=
  if o = t!"||" then some (.lor, 1)
  else if o = t!"&&" then some (.land, 2)
  else if o = t!"==" then some (.eq, 3)
  else if o = t!"!=" then some (.ne, 3)
  else if o = t!"<" then some (.lt, 3)
  else if o = t!"<=" then some (.le, 3)
  else if o = t!">" then some (.gt, 3)
  else if o = t!">=" then some (.ge, 3)
  else if o = t!"+" then some (.add, 4)
  else if o = t!"-" then some (.sub, 4)
  else if o = t!"|" then some (.or, 4)
  else if o = t!"^" then some (.xor, 4)
  else if o = t!"*" then some (.mul, 5)
  else if o = t!"/" then some (.div, 5)
  else if o = t!"%" then some (.rem, 5)
  else if o = t!"<<" then some (.shl, 5)
  else if o = t!">>" then some (.shr, 5)
  else if o = t!"&" then some (.and, 5)
  else none

def unOp? (o : Text) : Option UnOp :=
  if o = t!"-" then some .neg
  else if o = t!"!" then some .not
  else if o = t!"*" then some .deref
  else if o = t!"&" then some .addr
  else none

mutual

/-- A unary expression. -/
def parseUnary : Nat → List Tok → Option (Expr × List Tok)
  | 0, _ => none
  | d + 1, ts =>
    match ts with
    | .op ['&'] :: .word w :: .op ['{'] :: ts =>
      match parseElems d ts with
      | some (es, ts) => some (.un .addr (.lit (.ident w) es), ts)
      | none => none
    | .op o :: ts =>
      match unOp? o with
      | some u =>
        match parseUnary d ts with
        | some (e, ts) => some (.un u e, ts)
        | none => none
      | none =>
        if o = t!"(" then
          match parseBinary d 1 ts with
          | some (e, .op c :: ts) => if c = t!")" then parsePostfix d e ts else none
          | _ => none
        else if o = t!"[" then
          match ts with
          | .op c :: ts =>
            if c = t!"]" then
              match parseUnary d ts with
              | some (e, ts) => some (.un .sliceOf e, ts)
              | none => none
            else none
          | _ => none
        else none
    | .word w :: .op ['{'] :: .op ['}'] :: ts =>
      if w = t!"interface" then some (.ident t!"interface{}", ts) else if w ∈ keywords then none else some (.lit (.ident w) .none, ts)
    | .word w :: ts =>
      match number? w with
      | some n => some (.num n, ts)
      | none => if w ∈ keywords then none else parsePostfix d (.ident w) ts
    | .str s :: ts => some (.str s, ts)
    | _ => none

/-- What follows an operand. -/
def parsePostfix : Nat → Expr → List Tok → Option (Expr × List Tok)
  | 0, _, _ => none
  | d + 1, e, ts =>
    match ts with
    | .op o :: ts' =>
      if o = t!"." then
        match ts' with
        | .word n :: ts => parsePostfix d (.sel e n) ts
        | _ => some (e, ts)
      else if o = t!"(" then
        match parseArgs d ts' with
        | some (as, ts) => parsePostfix d (.call e as) ts
        | none => none
      else if o = t!"[" then
        match ts' with
        | .op c :: ts =>
          if c = t!":" then
            match parseBinary d 1 ts with
            | some (hi, .op c :: ts) => if c = t!"]" then parsePostfix d (.slice e .none hi) ts else none
            | _ => none
          else
            match parseBinary d 1 ts' with
            | some (i, .op c :: ts) => if c = t!"]" then parsePostfix d (.index e i) ts else none
            | _ => none
        | ts' =>
          match parseBinary d 1 ts' with
          | some (i, .op c :: ts) =>
            if c = t!"]" then parsePostfix d (.index e i) ts
            else if c = t!":" then
              match ts with
              | .op c :: ts =>
                if c = t!"]" then parsePostfix d (.slice e i .none) ts else none
              | ts =>
                match parseBinary d 1 ts with
                | some (hi, .op c :: ts) => if c = t!"]" then parsePostfix d (.slice e i hi) ts else none
                | _ => none
            else none
          | _ => none
      else some (e, ts)
    | ts => some (e, ts)

/-- Arguments up to the closing parenthesis. -/
def parseArgs : Nat → List Tok → Option (Expr × List Tok)
  | 0, _ => none
  | d + 1, ts =>
    match ts with
    | .op c :: ts' =>
      if c = t!")" then some (.none, ts') else parseArgs1 d ts
    | ts => parseArgs1 d ts

/-- At least one argument. -/
def parseArgs1 : Nat → List Tok → Option (Expr × List Tok)
  | 0, _ => none
  | d + 1, ts =>
    match parseBinary d 1 ts with
    | some (e, .op c :: ts) =>
      if c = t!")" then some (.arg e .none, ts)
      else if c = t!"," then
        match parseArgs d ts with
        | some (as, ts) => some (.arg e as, ts)
        | none => none
      else
        match c, ts with
        | ['.'], .op ['.'] :: .op ['.'] :: .op [')'] :: ts => some (.arg (.spread e) .none, ts)
        | _, _ => none
    | _ => none

/-- Operators of precedence `p` and higher. -/
def parseBinary : Nat → Nat → List Tok → Option (Expr × List Tok)
  | 0, _, _ => none
  | d + 1, p, ts =>
    match parseUnary d ts with
    | some (e, ts) => parseMore d p e ts
    | none => none

/-- Operators of precedence `p` and higher, after the first operand. -/
def parseMore : Nat → Nat → Expr → List Tok → Option (Expr × List Tok)
  | 0, _, _, _ => none
  | d + 1, p, a, ts =>
    match ts with
    | .op o :: ts' =>
      match binOp? o with
      | some (b, q) =>
        if p ≤ q then
          match parseBinary d (q + 1) ts' with
          | some (e, ts) => parseMore d p (.bin b a e) ts
          | none => none
        else some (a, ts)
      | none => some (a, ts)
    | ts => some (a, ts)

/-- Keyed elements of a composite literal, up to the closing brace. -/
def parseElems : Nat → List Tok → Option (Expr × List Tok)
  | 0, _ => none
  | d + 1, ts =>
    match ts with
    | .op o :: ts => if o = t!"}" then some (.none, ts) else none
    | .word k :: .op c :: ts =>
      if c = t!":" then
        match parseBinary d 1 ts with
        | some (v, .op o :: ts) =>
          if o = t!"}" then some (.arg (.kv (.ident k) v) .none, ts)
          else if o = t!"," then
            match parseElems d ts with
            | some (es, ts) => some (.arg (.kv (.ident k) v) es, ts)
            | none => none
          else none
        | _ => none
      else none
    | _ => none

end

/-- Expressions with commas between them. -/
def parseList : Nat → List Tok → Option (Expr × List Tok)
  | 0, _ => none
  | d + 1, ts =>
    match parseBinary d 1 ts with
    | some (e, .op c :: ts) =>
      if c = t!"," then
        match parseList d ts with
        | some (es, ts) => some (.arg e es, ts)
        | none => none
      else some (.arg e .none, .op c :: ts)
    | some (e, ts) => some (.arg e .none, ts)
    | none => none

/-- `x op= e`, without the equals sign. -/
def assignOp? (o : Text) : Option BinOp :=
  if o = t!"+=" then some .add
  else if o = t!"-=" then some .sub
  else if o = t!"*=" then some .mul
  else if o = t!"/=" then some .div
  else if o = t!"|=" then some .or
  else if o = t!"&=" then some .and
  else if o = t!"^=" then some .xor
  else if o = t!"<<=" then some .shl
  else if o = t!">>=" then some .shr
  else none

/-- A statement without a block in it. -/
def parseSimple (d : Nat) (ts : List Tok) : Option (Stmt × List Tok) :=
  match parseList d ts with
  | some (l, .op o :: ts) =>
    if o = t!":=" then
      match parseBinary d 1 ts with
      | some (e, ts) => some (.define l e, ts)
      | none => none
    else if o = t!"=" then
      match parseList d ts with
      | some (r, ts) => some (.assign l r, ts)
      | none => none
    else if o = t!"++" then
      match l with
      | .arg x .none => some (.opAssign .add x (.num 1), ts)
      | _ => none
    else
      match assignOp? o, l with
      | some b, .arg x .none =>
        match parseBinary d 1 ts with
        | some (e, ts) => some (.opAssign b x e, ts)
        | none => none
      | _, .arg x .none => some (.expr x, .op o :: ts)
      | _, _ => none
  | some (.arg x .none, ts) => some (.expr x, ts)
  | _ => none

mutual

/-- `{ ... }` -/
def parseBlock : Nat → List Tok → Option (Stmt × List Tok)
  | 0, _ => none
  | d + 1, ts =>
    match ts with
    | .op o :: ts => if o = t!"{" then parseStmts d ts else none
    | _ => none

/-- Statements up to the closing brace. -/
def parseStmts : Nat → List Tok → Option (Stmt × List Tok)
  | 0, _ => none
  | d + 1, ts =>
    match ts with
    | .op o :: ts' =>
      if o = t!"}" then some (.skip, ts') else parseStmts1 d ts
    | ts => parseStmts1 d ts

/-- At least one statement. -/
def parseStmts1 : Nat → List Tok → Option (Stmt × List Tok)
  | 0, _ => none
  | d + 1, ts =>
    match parseStmt d ts with
    | some (s, .semi :: ts) =>
      match parseStmts d ts with
      | some (r, ts) => some (.seq s r, ts)
      | none => none
    | _ => none

/-- One statement. -/
def parseStmt : Nat → List Tok → Option (Stmt × List Tok)
  | 0, _ => none
  | d + 1, ts =>
    match ts with
    | .word w :: ts' =>
      if w = t!"return" then
        match ts' with
        | .semi :: _ => some (.ret .none, ts')
        | ts =>
          match parseList d ts with
          | some (es, ts) => some (.ret es, ts)
          | none => none
      else if w = t!"continue" then some (.cont, ts')
      else if w = t!"defer" then
        match parseBinary d 1 ts' with
        | some (e, ts) => some (.defer e, ts)
        | none => none
      else if w = t!"var" then
        match ts' with
        | .word n :: ts =>
          match parseUnary d ts with
          | some (t, ts) => some (.var n t, ts)
          | none => none
        | _ => none
      else if w = t!"if" then parseIf d ts'
      else if w = t!"switch" then
        match ts' with
        | .op o :: ts =>
          if o = t!"{" then
            match parseCases d ts with
            | some (cs, ts) => some (.switch .none cs, ts)
            | none => none
          else none
        | ts =>
          match parseBinary d 1 ts with
          | some (e, .op o :: ts) =>
            if o = t!"{" then
              match parseCases d ts with
              | some (cs, ts) => some (.switch e cs, ts)
              | none => none
            else none
          | _ => none
      else if w = t!"for" then parseFor d ts'
      else parseSimple d ts
    | ts => parseSimple d ts

/-- After `if`. -/
def parseIf : Nat → List Tok → Option (Stmt × List Tok)
  | 0, _ => none
  | d + 1, ts =>
    match parseSimple d ts with
    | some (s, .semi :: ts) =>
      match parseBinary d 1 ts with
      | some (c, ts) => parseIfBody d s c ts
      | none => none
    | some (.expr c, ts) => parseIfBody d .skip c ts
    | _ => none

def parseIfBody : Nat → Stmt → Expr → List Tok → Option (Stmt × List Tok)
  | 0, _, _, _ => none
  | d + 1, s, c, ts =>
    match parseBlock d ts with
    | some (t, .word w :: ts) =>
      if w = t!"else" then
        match ts with
        | .word w' :: ts =>
          if w' = t!"if" then
            match parseIf d ts with
            | some (e, ts) => some (.ite s c t (.seq e .skip), ts)
            | none => none
          else none
        | ts =>
          match parseBlock d ts with
          | some (e, ts) => some (.ite s c t e, ts)
          | none => none
      else none
    | some (t, ts) => some (.ite s c t .skip, ts)
    | none => none

/-- The cases of a switch, up to the closing brace. -/
def parseCases : Nat → List Tok → Option (Stmt × List Tok)
  | 0, _ => none
  | d + 1, ts =>
    match ts with
    | .op o :: ts => if o = t!"}" then some (.skip, ts) else none
    | .word w :: ts =>
      if w = t!"case" then
        match parseList d ts with
        | some (es, .op o :: ts) =>
          if o = t!":" then
            match parseCaseBody d ts with
            | some (b, ts) =>
              match parseCases d ts with
              | some (r, ts) => some (.case es b r, ts)
              | none => none
            | none => none
          else none
        | _ => none
      else if w = t!"default" then
        match ts with
        | .op o :: ts =>
          if o = t!":" then
            match parseCaseBody d ts with
            | some (b, ts) =>
              match parseCases d ts with
              | some (r, ts) => some (.default b r, ts)
              | none => none
            | none => none
          else none
        | _ => none
      else none
    | _ => none

/-- The statements of a case. -/
def parseCaseBody : Nat → List Tok → Option (Stmt × List Tok)
  | 0, _ => none
  | d + 1, ts =>
    match ts with
    | .op o :: ts' => if o = t!"}" then some (.skip, ts) else
        match parseStmt d (.op o :: ts') with
        | some (s, .semi :: ts) =>
          match parseCaseBody d ts with
          | some (r, ts) => some (.seq s r, ts)
          | none => none
        | _ => none
    | .word w :: ts' =>
      if w = t!"case" ∨ w = t!"default" then some (.skip, ts)
      else
        match parseStmt d (.word w :: ts') with
        | some (s, .semi :: ts) =>
          match parseCaseBody d ts with
          | some (r, ts) => some (.seq s r, ts)
          | none => none
        | _ => none
    | _ => none

/-- After `for`. -/
def parseFor : Nat → List Tok → Option (Stmt × List Tok)
  | 0, _ => none
  | d + 1, ts =>
    match ts with
    | .word k :: .op c :: .word v :: .op o :: .word r :: ts' =>
      if c = t!"," ∧ o = t!":=" ∧ r = t!"range" then
        match parseBinary d 1 ts' with
        | some (e, ts) =>
          match parseBlock d ts with
          | some (b, ts) => some (.range k v e b, ts)
          | none => none
        | none => none
      else parseLoop d ts
    | ts => parseLoop d ts

def parseLoop : Nat → List Tok → Option (Stmt × List Tok)
  | 0, _ => none
  | d + 1, ts =>
    match parseSimple d ts with
    | some (i, .semi :: ts) =>
      match parseBinary d 1 ts with
      | some (c, .semi :: ts) =>
        match parseSimple d ts with
        | some (p, ts) =>
          match parseBlock d ts with
          | some (b, ts) => some (.loop i c p b, ts)
          | none => none
        | none => none
      | _ => none
    | some (.expr c, ts) =>
      match parseBlock d ts with
      | some (b, ts) => some (.loop .skip c .skip b, ts)
      | none => none
    | _ => none

end

/-- Parameters, each with a name and a type, up to the closing parenthesis. -/
def parseParams : Nat → List Tok → Option (List (Text × Expr) × List Tok)
  | 0, _ => none
  | d + 1, ts =>
    match ts with
    | .op o :: ts => if o = t!")" then some ([], ts) else none
    | .word n :: ts =>
      match parseUnary d ts with
      | some (t, .op o :: ts) =>
        if o = t!")" then some ([(n, t)], ts)
        else if o = t!"," then
          match parseParams d ts with
          | some (ps, ts) => some ((n, t) :: ps, ts)
          | none => none
        else none
      | _ => none
    | _ => none

/-- Types with commas between them, up to the closing parenthesis. -/
def parseTypes : Nat → List Tok → Option (List (Text × Expr) × List Tok)
  | 0, _ => none
  | d + 1, ts =>
    match parseUnary d ts with
    | some (t, .op o :: ts) =>
      if o = t!")" then some ([([], t)], ts)
      else if o = t!"," then
        match parseTypes d ts with
        | some (ps, ts) => some (([], t) :: ps, ts)
        | none => none
      else none
    | _ => none

/-- The results of a function. -/
def parseResults (d : Nat) (ts : List Tok) : Option (List (Text × Expr) × List Tok) :=
  match ts with
  | .op o :: ts' =>
    if o = t!"{" then some ([], ts)
    else if o = t!"(" then
      match parseTypes d ts' with
      | some r => some r
      | none => parseParams d ts'
    else
      match parseUnary d ts with
      | some (t, ts) => some ([([], t)], ts)
      | none => none
  | ts =>
    match parseUnary d ts with
    | some (t, ts) => some ([([], t)], ts)
    | none => none

/-- Parameters, results and body. -/
def parseFunc (d : Nat) (recv : Option (Text × Expr)) (ts : List Tok) : Option (FuncDecl × List Tok) :=
  match ts with
  | .word n :: .op o :: ts =>
    if o = t!"(" then
      match parseParams d ts with
      | some (ps, ts) =>
        match parseResults d ts with
        | some (rs, ts) =>
          match parseBlock d ts with
          | some (b, ts) => some (⟨recv, n, ps, rs, b⟩, ts)
          | none => none
        | none => none
      | none => none
    else none
  | _ => none

/-- The strings of an import declaration. -/
def parsePaths : List Tok → Option (List Text × List Tok)
  | .str s :: .semi :: ts =>
    match parsePaths ts with
    | some (ps, ts) => some (s :: ps, ts)
    | none => none
  | .op o :: ts => if o = t!")" then some ([], ts) else none
  | _ => none

/-- The tokens up to a semicolon outside of parentheses, brackets and braces. -/
def upToSemi : Nat → List Tok → List Tok × List Tok
  | _, [] => ([], [])
  | 0, .semi :: ts => ([], .semi :: ts)
  | n, t :: ts =>
    let n := match t with
      | .op o => if o ∈ [t!"(", t!"[", t!"{"] then n + 1 else if o ∈ [t!")", t!"]", t!"}"] then n - 1 else n
      | _ => n
    let r := upToSemi n ts
    (t :: r.1, r.2)

/-- One declaration. -/
def parseDecl (d : Nat) (ts : List Tok) : Option (Decl × List Tok) :=
  match ts with
  | .word w :: ts =>
    if w = t!"func" then
      match ts with
      | .op o :: ts =>
        if o = t!"(" then
          match parseParams d ts with
          | some ([r], ts) =>
            match parseFunc d (some r) ts with
            | some (f, ts) => some (.func f, ts)
            | none => none
          | _ => none
        else none
      | ts =>
        match parseFunc d none ts with
        | some (f, ts) => some (.func f, ts)
        | none => none
    else if w = t!"var" then
      match ts with
      | .word n :: .op o :: ts =>
        if o = t!"=" then
          match parseBinary d 1 ts with
          | some (e, .op b :: ts) =>
            if b = t!"{" then
              match parseElems d ts with
              | some (es, ts) => some (.var n (.lit e es), ts)
              | none => none
            else none
          | some (e, ts) => some (.var n e, ts)
          | none => none
        else none
      | _ => none
    else if w = t!"import" then
      match ts with
      | .op o :: ts =>
        if o = t!"(" then
          match parsePaths ts with
          | some (ps, ts) => some (.imports ps, ts)
          | none => none
        else none
      | .str s :: ts => some (.imports [s], ts)
      | _ => none
    else if w = t!"package" ∨ w = t!"type" then
      let r := upToSemi 0 ts
      some (.other w r.1, r.2)
    else none
  | _ => none

/-- Declarations with semicolons after them. -/
def parseDecls : Nat → List Tok → Option (List Decl)
  | _, [] => some []
  | 0, _ => none
  | d + 1, ts =>
    match parseDecl d ts with
    | some (x, .semi :: ts) =>
      match parseDecls d ts with
      | some xs => some (x :: xs)
      | none => none
    | _ => none

/-- The declarations in a piece of source text. -/
def parse (src : Text) : Option (List Decl) :=
  match tokens src with
  | some ts => parseDecls (2 * ts.length + 20) ts
  | none => none

/-- The function literal with which a statement ends, as `return func(...) { ... }` or `c.size = func(...) { ... }`. -/
def parseClosure (src : Text) : Option FuncDecl :=
  match tokens src with
  | some ts =>
    match ts.dropWhile (· ≠ .word t!"func") with
    | _ :: ts =>
      match parseFunc (2 * ts.length + 20) none (.word [] :: ts) with
      | some (f, [.semi]) => some f
      | _ => none
    | [] => none
  | none => none

end Pb.Go
