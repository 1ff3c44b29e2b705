import Verif.Model.GenCodecText
import Verif.Spec.GoTemplate
/-
The programs proto/gen/required/main.go and proto/gen/option/main.go, which write required_codec.go and option_codec.go. Reading and
printing of Go files (go/parser, go/format) are not modelled: files are lists of declarations here, without comments and layout.
-/
namespace Pb.Go

/-! ### gen/required -/

/-- gen/required/main.go:22-27 -/
def needTransform : List Text :=
  [t!"bool", t!"string", t!"float32", t!"float64", t!"int32", t!"int64", t!"uint32", t!"uint64", t!"fixed32", t!"fixed64", t!"zigzag32",
   t!"zigzag64"]

/-- `strings.TrimPrefix` -/
def trimPrefix (p s : Text) : Text := if p.isPrefixOf s then s.drop p.length else s

/-- `strings.TrimSuffix` -/
def trimSuffix (p s : Text) : Text := if p.isSuffixOf s then s.take (s.length - p.length) else s

/-- gen/required/main.go:132-139: a return statement is among the statements of the block. -/
def hasReturn : Stmt → Bool
  | .seq (.ret _) _ => true
  | .seq _ r => hasReturn r
  | _ => false

/-- The statements of two blocks, one after the other. -/
def appendBlock : Stmt → Stmt → Stmt
  | .seq a r, b => .seq a (appendBlock r b)
  | .skip, b => b
  | s, b => .seq s b

/-- gen/required/main.go:149-151: the init statement of an `if`, if there is one, comes first. -/
def withInit : Stmt → Stmt → Stmt
  | .skip, out => out
  | i, out => .seq i out

/-- gen/required/main.go:129-156: the statements of a body, with those of `if` statements in place of these, until a return statement
was among the latter. -/
def transformFuncBody : Stmt → Stmt
  | .seq (.ite i _ t _) r =>
    withInit i (if hasReturn t then appendBlock t .skip else appendBlock t (transformFuncBody r))
  | .seq s r => .seq s (transformFuncBody r)
  | s => s

/-- gen/required/main.go:53-61: the function is one of those to be transformed. -/
def needFunc (name : Text) : Bool :=
  (t!"size".isPrefixOf name || t!"encode".isPrefixOf name) &&
    decide ((trimPrefix t!"encode" (trimPrefix t!"sizeOf" name)).map Char.toLower ∈ needTransform)

/-- gen/required/main.go:64-65 -/
def transformFunc (f : FuncDecl) : FuncDecl := { f with name := f.name ++ t!"Required", body := transformFuncBody f.body }

/-- gen/required/main.go:117-123; `none` where a type assertion panics. -/
def transformElems : Expr → Option Expr
  | .none => some .none
  | .arg (.kv (.ident k) (.ident v)) r =>
    match transformElems r with
    | some r => some (.arg (.kv (.ident k) (.ident (if k = t!"decode" then v else v ++ t!"Required"))) r)
    | none => none
  | _ => none

/-- gen/required/main.go:101-127, for one variable: the new specification, or nothing; `none` for a panic. -/
def transformVar (name : Text) (value : Expr) : Option (Option Decl) :=
  let name := trimSuffix t!"Codec" (trimSuffix t!"Codec" name)
  if name ∈ needTransform then
    match value with
    | .lit t es =>
      match transformElems es with
      | some es => some (some (.var (name ++ t!"RequiredCodec") (.lit t es)))
      | none => none
    | _ => none
  else some none

/-- gen/required/main.go:84-99 -/
def filterImport (paths : List Text) : List Text := paths.filter (fun p => decide (p ≠ t!"io"))

/-- gen/required/main.go:45-82, for a file without methods: the declarations that are kept. (`package` is not one of `f.Decls`, and
stays.) -/
def transformDecls : List Decl → Option (List Decl)
  | [] => some []
  | .func f :: r =>
    match transformDecls r with
    | some ds => some (if needFunc f.name then .func (transformFunc f) :: ds else ds)
    | none => none
  | .imports ps :: r =>
    match transformDecls r with
    | some ds => some (.imports (filterImport ps) :: ds)
    | none => none
  | .var n e :: r =>
    match transformVar n e, transformDecls r with
    | some (some d), some ds => some (d :: ds)
    | some none, some ds => some ds
    | _, _ => none
  | .other w ts :: r =>
    match transformDecls r with
    | some ds => some (if w = t!"package" then .other w ts :: ds else ds)
    | none => none

/-- The declaration has a receiver. -/
def isMethod : Decl → Bool
  | .func f => f.recv.isSome
  | _ => false

/-- What becomes of a declaration that has been visited when `transform` returns early (line 51): the nodes of the tree have been changed
in place, but those that should be left out are still there (of variables an empty declaration, which is nothing here). -/
def visited : Decl → Option (List Decl)
  | .func f => some [.func (if needFunc f.name then transformFunc f else f)]
  | .imports ps => some [.imports (filterImport ps)]
  | .var n e =>
    match transformVar n e with
    | some (some d) => some [d]
    | some none => some []
    | none => none
  | d => some [d]

/-- `visited` for all declarations before the first method. -/
def visitedAll : List Decl → Option (List Decl)
  | [] => some []
  | d :: ds =>
    if isMethod d then some (d :: ds)
    else
      match visited d, visitedAll ds with
      | some xs, some ys => some (xs ++ ys)
      | _, _ => none

/-- gen/required/main.go:45-82 -/
def transform (ds : List Decl) : Option (List Decl) := if ds.any isMethod then visitedAll ds else transformDecls ds

/-! ### gen/option -/

/-- gen/option/main.go:56-69 -/
def decoders : List (Text × Text) :=
  [(t!"bool", t!"Bool"), (t!"string", t!"String"), (t!"int32", t!"Int32"), (t!"uint32", t!"Uint32"), (t!"int64", t!"Int64"),
   (t!"uint64", t!"Uint64"), (t!"int32", t!"Zigzag32"), (t!"int64", t!"Zigzag64"), (t!"uint32", t!"Fixed32"), (t!"uint64", t!"Fixed64"),
   (t!"float32", t!"Float32"), (t!"float64", t!"Float64")]

/-- gen/option/main.go:71-73 -/
def decoderRecord (d : Text × Text) : Record := [(t!"Type", d.1), (t!"Name", d.2), (t!"Codec", d.2.map Char.toLower)]

/-- gen/option/main.go:75-84: what is written to the buffer, for any list of decoders. -/
def optionText (ds : List (Text × Text)) : Option Text :=
  render (fun n => if n = t!"Decoder" then some (ds.map decoderRecord) else none) decodeTmpl

end Pb.Go
