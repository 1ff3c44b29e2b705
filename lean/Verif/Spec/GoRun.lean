import Verif.Spec.GenSource
/-
Running getters: the statements and expressions of the Go language (specification: "If statements", "Return statements", "Selectors",
"Type assertions", "Conversions", "Assignability") that occur in generated methods.
-/
namespace Pb.Spec

/-- Expressions. `conv e n` is the conversion `e(n)` of a number. -/
inductive GExpr where
  | ident (n : Text)
  | num (n : Int)
  | str (s : Text)
  | sel (e : GExpr) (n : Text)
  | call (e : GExpr)
  | conv (e : GExpr) (n : Int)
deriving DecidableEq, Repr

/-- Statements. -/
inductive GStmt where
  /-- `return e` -/
  | ret (e : GExpr)
  /-- `if x != nil { return e }` -/
  | ifNotNil (x : Text) (e : GExpr)
  /-- `if v, ok := e.(*t); cond { return r }` -/
  | ifAssert (v ok : Text) (e : GExpr) (t : Text) (cond : Text) (r : GExpr)
deriving DecidableEq, Repr

/-! ### parsing -/

def isDigit (c : Char) : Bool := '0' ≤ c && c ≤ '9'

/-- A decimal number. -/
def readNat (s : Text) : Option Nat :=
  if s ≠ [] ∧ s.all isDigit then some (s.foldl (fun n c => 10 * n + (c.toNat - '0'.toNat)) 0) else none

/-- What follows an operand: selectors, calls without arguments, conversions of numbers. -/
def parsePostfix : Nat → GExpr → List Tok → Option (GExpr × List Tok)
  | 0, e, ts => some (e, ts)
  | d + 1, e, ts =>
    match ts with
    | .op '.' :: .word n :: ts => parsePostfix d (.sel e n) ts
    | .op '(' :: .op ')' :: ts => parsePostfix d (.call e) ts
    | .op '(' :: .op '-' :: .word w :: .op ')' :: ts =>
      match readNat w with
      | some n => parsePostfix d (.conv e (-(n : Int))) ts
      | none => none
    | .op '(' :: .word w :: .op ')' :: ts =>
      match readNat w with
      | some n => parsePostfix d (.conv e n) ts
      | none => none
    | ts => some (e, ts)

/-- An expression at the beginning of `ts`. -/
def parseExpr : List Tok → Option (GExpr × List Tok)
  | .str s :: ts => some (.str s, ts)
  | .word w :: ts =>
    match readNat w with
    | some n => some (.num n, ts)
    | none => parsePostfix (ts.length + 1) (.ident w) ts
  | _ => none

/-- `return e` with the semicolon after it. -/
def parseReturn : List Tok → Option (GExpr × List Tok)
  | .word r :: ts =>
    if r = t!"return" then
      match parseExpr ts with
      | some (e, .semi :: ts) => some (e, ts)
      | _ => none
    else none
  | _ => none

/-- `{ return e }` with the semicolon after it. -/
def parseBlock : List Tok → Option (GExpr × List Tok)
  | .op '{' :: ts =>
    match parseReturn ts with
    | some (e, .op '}' :: .semi :: ts) => some (e, ts)
    | _ => none
  | _ => none

/-- One statement. -/
def parseStmt : List Tok → Option (GStmt × List Tok)
  | .word k :: .word x :: .op '!' :: .op '=' :: .word n :: ts =>
    if k = t!"if" ∧ n = t!"nil" then
      match parseBlock ts with
      | some (e, ts) => some (.ifNotNil x e, ts)
      | none => none
    else none
  | .word k :: .word v :: .op ',' :: .word ok :: .op ':' :: .op '=' :: ts =>
    if k = t!"if" then
      match parseExpr ts with
      | some (e, .op '.' :: .op '(' :: .op '*' :: .word t :: .op ')' :: .semi :: .word c :: ts) =>
        match parseBlock ts with
        | some (r, ts) => some (.ifAssert v ok e t c r, ts)
        | none => none
      | _ => none
    else none
  | ts =>
    match parseReturn ts with
    | some (e, ts) => some (.ret e, ts)
    | none => none

/-- A body of at most so many statements. -/
def parseBody : Nat → List Tok → Option (List GStmt)
  | _, [] => some []
  | 0, _ => none
  | d + 1, ts =>
    match parseStmt ts with
    | some (s, ts) =>
      match parseBody d ts with
      | some ss => some (s :: ss)
      | none => none
    | none => none

/-! ### running -/

/-- Values. `nil`, `num`, `text` are constants without type; `typed` are the values of fields that the library knows, with their
type. Pointers to structs are nil or have the values of fields. A value of an interface is nil or such a pointer with its type. -/
inductive GVal where
  | nil
  | num (n : Int)
  | text (s : Text)
  | flag (b : Bool)
  | typed (t : GoType) (v : Val)
  | ptr (type : Text) (fields : Option (List (Text × GVal)))
  | iface (name : Text) (dyn : Option (Text × Option (List (Text × GVal))))

/-- `panic`: run-time panic. `stuck`: the program does not compile (or goes beyond this part of Go). -/
inductive GFault where
  | panic | stuck
deriving DecidableEq, Repr

/-- A package: the declarations of a file, what names of types mean in it, and the constants of the package. -/
structure Pkg where
  decls : List SrcDecl
  scope : Scope
  consts : Text → Option Int

/-- The value of a name among local variables, or among fields. -/
def lookupVar (n : Text) : List (Text × GVal) → Option GVal
  | [] => none
  | (m, v) :: r => if m = n then some v else lookupVar n r

/-- The method `n` of pointers to `T`: receiver, result type, body. -/
def findMethod (T n : Text) : List SrcDecl → Option (Option Text × Option TypeExpr × List Tok)
  | [] => none
  | .method r T' n' t b :: ds => if T' = T ∧ n' = n then some (r, t, b) else findMethod T n ds
  | _ :: ds => findMethod T n ds

/-- A number as a value of type int32; the compiler checks the range. -/
def toInt32 (n : Int) : Except GFault GVal :=
  if -(2 ^ 31) ≤ n ∧ n < 2 ^ 31 then .ok (.typed .int32 (.w32 (BitVec.ofInt 32 n))) else .error .stuck

/-- Local names hide those of the package, which hide predeclared ones; local names hide imported packages, too. `call` calls a
method. -/
def evalExpr (P : Pkg) (call : GVal → Text → Except GFault GVal) (vars : List (Text × GVal)) : GExpr → Except GFault GVal
  | .ident n =>
    match lookupVar n vars with
    | some v => .ok v
    | none =>
      match P.consts n with
      | some k => .ok (.num k)
      | none => if n = t!"nil" then .ok .nil else if n = t!"false" then .ok (.flag false) else if n = t!"true" then .ok (.flag true)
          else .error .stuck
  | .num n => .ok (.num n)
  | .str s => .ok (.text s)
  | .sel e n =>
    match evalExpr P call vars e with
    | .ok (.ptr _ none) => .error .panic
    | .ok (.ptr _ (some fs)) =>
      match lookupVar n fs with
      | some v => .ok v
      | none => .error .stuck
    | .ok _ => .error .stuck
    | .error f => .error f
  | .call (.sel e n) =>
    match evalExpr P call vars e with
    | .ok v => call v n
    | .error f => .error f
  | .call _ => .error .stuck
  | .conv (.ident t) n =>
    if (lookupVar t vars).isSome then .error .stuck
    else if typeMeans P.scope (.name none t) = some .int32 then toInt32 n else .error .stuck
  | .conv (.sel (.ident p) t) n =>
    if (lookupVar p vars).isSome then .error .stuck
    else if typeMeans P.scope (.name (some p) t) = some .int32 then toInt32 n else .error .stuck
  | .conv _ _ => .error .stuck

/-- The methods of the interface `n`, if the file declares it. -/
def interfaceMethods (n : Text) : List SrcDecl → Option (List Text)
  | [] => none
  | .interface n' ms :: ds => if n' = n then some ms else interfaceMethods n ds
  | _ :: ds => interfaceMethods n ds

/-- The name of a type that is an interface declared in the file. -/
def interfaceName (ds : List SrcDecl) : TypeExpr → Option Text
  | .name none n => if (interfaceMethods n ds).isSome then some n else none
  | _ => none

/-- The value as one of type `t`. -/
def assignTo (P : Pkg) (t : TypeExpr) : GVal → Except GFault GVal
  | .iface n d => if interfaceName P.decls t = some n then .ok (.iface n d) else .error .stuck
  | .nil =>
    match interfaceName P.decls t, typeMeans P.scope t with
    | some n, _ => .ok (.iface n none)
    | none, some (.ptr t) => .ok (.typed (.ptr t) .nilp)
    | none, some (.slice .uint8) => .ok (.typed (.slice .uint8) (.bytes none))
    | none, _ => .error .stuck
  | .flag b => if typeMeans P.scope t = some .bool then .ok (.typed .bool (.b8 b)) else .error .stuck
  | .text s =>
    if typeMeans P.scope t = some .string then .ok (.typed .string (.str (s.map fun c => BitVec.ofNat 8 c.toNat))) else .error .stuck
  | .num n =>
    match typeMeans P.scope t with
    | some .int32 => toInt32 n
    | some .uint32 => if 0 ≤ n ∧ n < 2 ^ 32 then .ok (.typed .uint32 (.w32 (BitVec.ofInt 32 n))) else .error .stuck
    | some .int64 => if -(2 ^ 63) ≤ n ∧ n < 2 ^ 63 then .ok (.typed .int64 (.w64 (BitVec.ofInt 64 n))) else .error .stuck
    | some .uint64 => if 0 ≤ n ∧ n < 2 ^ 64 then .ok (.typed .uint64 (.w64 (BitVec.ofInt 64 n))) else .error .stuck
    | some .float32 => if n = 0 then .ok (.typed .float32 (.w32 0#32)) else .error .stuck
    | some .float64 => if n = 0 then .ok (.typed .float64 (.w64 0#64)) else .error .stuck
    | _ => .error .stuck
  | .typed t' v => if typeMeans P.scope t = some t' then .ok (.typed t' v) else .error .stuck
  | .ptr .. => .error .stuck

/-- Pointers to `T` implement the interface `n`: they have its methods. -/
def implements (ds : List SrcDecl) (T n : Text) : Bool :=
  match interfaceMethods n ds with
  | some ms => ms.all fun k => (findMethod T k ds).isSome
  | none => false

/-- The type assertion `d.(*t)` with two results. -/
def assertType (t : Text) : Option (Text × Option (List (Text × GVal))) → GVal × Bool
  | some (t', fs) => if t' = t then (.ptr t fs, true) else (.ptr t none, false)
  | none => (.ptr t none, false)

/-- Statements of a function with result type `t`. -/
def runBody (P : Pkg) (call : GVal → Text → Except GFault GVal) (t : TypeExpr) (vars : List (Text × GVal)) : List GStmt → Except GFault GVal
  | [] => .error .stuck
  | .ret e :: _ =>
    match evalExpr P call vars e with
    | .ok v => assignTo P t v
    | .error f => .error f
  | .ifNotNil x e :: ss =>
    match lookupVar x vars with
    | some (.ptr _ none) => runBody P call t vars ss
    | some (.ptr _ (some _)) =>
      match evalExpr P call vars e with
      | .ok v => assignTo P t v
      | .error f => .error f
    | _ => .error .stuck
  | .ifAssert v ok e ty c r :: ss =>
    match evalExpr P call vars e with
    | .ok (.iface n dyn) =>
      if (lookupVar ty vars).isNone ∧ implements P.decls ty n = true then
        let vars' := (v, (assertType ty dyn).1) :: (ok, .flag (assertType ty dyn).2) :: vars
        match evalExpr P call vars' (.ident c) with
        | .ok (.flag true) =>
          match evalExpr P call vars' r with
          | .ok v => assignTo P t v
          | .error f => .error f
        | .ok (.flag false) => runBody P call t vars ss
        | .ok _ => .error .stuck
        | .error f => .error f
      else .error .stuck
    | .ok _ => .error .stuck
    | .error f => .error f

/-- Call of a method without arguments on a pointer, with at most so many calls inside each other. -/
def callMethod (P : Pkg) : Nat → GVal → Text → Except GFault GVal
  | 0, _, _ => .error .stuck
  | d + 1, .ptr T fs, n =>
    match findMethod T n P.decls with
    | some (some r, some t, body) =>
      match parseBody body.length body with
      | some ss => runBody P (callMethod P d) t [(r, .ptr T fs)] ss
      | none => .error .stuck
    | _ => .error .stuck
  | _ + 1, _, _ => .error .stuck

/-! ### messages with a oneof -/

/-- The methods a file declares, with the types they belong to. -/
def declaredMethods : List SrcDecl → List (Text × Text)
  | [] => []
  | .method _ T n _ _ :: ds => (T, n) :: declaredMethods ds
  | _ :: ds => declaredMethods ds

/-- No type, no method and no field of a struct is declared twice; else Go refuses the file. -/
structure NoDuplicates (ds : List SrcDecl) : Prop where
  types : (declaredTypes ds).Nodup
  methods : (declaredMethods ds).Nodup
  fields : ∀ n fs, .struct n fs ∈ ds → (fs.map SrcField.name).Nodup

/-- The values of the fields of a struct `T` that has one field, with value `v`. -/
inductive WrapperFields (P : Pkg) (T : Text) (v : Val) : List (Text × GVal) → Prop
  | mk (n e tag t) : .struct T [⟨n, e, tag⟩] ∈ P.decls → typeMeans P.scope e = some t → WrapperFields P T v [(n, .typed t v)]

/-- The value of the interface of the oneof: nil, or a pointer to the wrapper struct of a member. -/
inductive OneofIs (P : Pkg) (o : TextOneof) : OneofVal → Option (Text × Option (List (Text × GVal))) → Prop
  | none : OneofIs P o .none .none
  | wrapper (j g v fs) : o.members[j]? = some g → WrapperFields P g.ident v fs → OneofIs P o (.wrapper j v) (some (g.ident, some fs))
  | nilWrapper (j g) : o.members[j]? = some g → OneofIs P o (.nilWrapper j) (some (g.ident, .none))

/-- A pointer to a message in a Go program: nil, or the fields of the struct have values, and that of the oneof is what `x` says. -/
inductive ReceiverIs (P : Pkg) (m : TextMessage) (o : TextOneof) : Receiver → GVal → Prop
  | nil : ReceiverIs P m o .nil (.ptr m.name none)
  | msg (x fs vs d) : .struct m.name fs ∈ P.decls → vs.map Prod.fst = fs.map SrcField.name → OneofIs P o x d →
      (o.name, .iface (oneofInterfaceName o) d) ∈ vs → ReceiverIs P m o (.msg x) (.ptr m.name (some vs))

/-- What the getter of a member of a oneof needs of the rest of the Go package. `x` is the name of the receiver. -/
structure GetterScope (P : Pkg) (f : TextField) : Prop where
  nil : P.consts t!"nil" = none
  false : P.consts t!"false" = none
  first : f.field.kind = .enum → f.enumFirst.pkg = none → P.consts f.enumFirst.name = some f.enumNumber ∧ f.enumFirst.name ≠ t!"x"
  range : f.field.kind = .enum → -(2 ^ 31) ≤ f.enumNumber ∧ f.enumNumber < 2 ^ 31
  pkg : f.field.kind = .enum → f.enum.pkg ≠ some t!"x" ∧ f.enum.name ≠ t!"x"
  ident : f.ident ≠ t!"x"

end Pb.Spec
