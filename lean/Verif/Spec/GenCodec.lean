import Verif.Spec.GoExec
/-
What gen/required should do to a function: the tests of its top-level `if` statements are taken to be true. And when a function is such
that statements can be moved out of these blocks: the names declared in them do not clash with others.
-/
namespace Pb.Go

/-- A condition that always holds: `"" == ""`. -/
def always : Expr := .bin .eq (.str []) (.str [])

/-- The conditions of the top-level `if` statements of a block are replaced by one that always holds. -/
def untested : Stmt → Stmt
  | .seq (.ite i _ t e) r => .seq (.ite i always t e) (untested r)
  | .seq s r => .seq s (untested r)
  | s => s

/-- The same for the body of a function. -/
def untestedFunc (f : FuncDecl) : FuncDecl := { f with body := untested f.body }

/-- The names of variables in a list of places. -/
def placeNames : Expr → List Text
  | .arg (.ident n) r => n :: placeNames r
  | _ => []

/-- The names a block declares, without those of blocks in it. -/
def declared : Stmt → List Text
  | .seq a b => declared a ++ declared b
  | .define l _ => placeNames l
  | .var n _ => [n]
  | _ => []

/-- The identifiers in an expression. -/
def idents : Expr → List Text
  | .ident n => [n]
  | .un _ e => idents e
  | .bin _ a b => idents a ++ idents b
  | .call f a => idents f ++ idents a
  | .sel e _ => idents e
  | .index e i => idents e ++ idents i
  | .slice e a b => idents e ++ (idents a ++ idents b)
  | .spread e => idents e
  | .lit t es => idents t ++ idents es
  | .kv k v => idents k ++ idents v
  | .arg e r => idents e ++ idents r
  | _ => []

/-- A simple statement, which can be in front of the condition of an `if`. -/
def simple : Stmt → Bool
  | .skip => true
  | .define .. => true
  | .assign .. => true
  | .opAssign .. => true
  | .expr _ => true
  | _ => false

/-- A return statement is among the statements of the block. -/
def returns : Stmt → Bool
  | .seq (.ret _) _ => true
  | .seq _ r => returns r
  | _ => false

/-- The block begins with a return statement in which these names do not occur. -/
def returnsWithout (ns : List Text) : Stmt → Bool
  | .seq (.ret es) _ => (idents es).all fun n => decide (n ∉ ns)
  | _ => false

/-- The names declared in top-level `if` statements are new, where `ns` are those in use. If there are any, then the `if` returns, or a
return statement without them follows. -/
def tidy (ns : List Text) : Stmt → Bool
  | .seq (.ite i _ t _) r =>
    simple i && ((declared i ++ declared t).all fun n => decide (n ∉ ns)) && ((declared t).all fun n => decide (n ∉ declared i)) &&
    if (declared i ++ declared t).isEmpty then tidy ns r
    else returns t || returnsWithout (declared i ++ declared t) r
  | .seq s r => tidy (declared s ++ ns) r
  | _ => true

/-- ... for a function, whose parameters and results are in use. -/
def tidyFunc (f : FuncDecl) : Bool :=
  tidy (f.results.map Prod.fst ++ f.params.map Prod.fst ++ (f.recv.map Prod.fst).toList) f.body

/-- In a run of this block all top-level `if` statements that are reached have a true condition, and to look at it changes nothing. -/
def AllTrue (C : Calls) (d : Nat) : Stmt → State → Prop
  | .seq (.ite i c t e) r, s =>
    (∀ f s', exec C d i { s with block := 0 } = .ok (f, s') → eval C s'.vars c s'.mem = .ok (.bool true, s'.mem)) ∧
    ∀ s', exec C d (.ite i c t e) s = .ok (.next, s') → AllTrue C d r s'
  | .seq a r, s => ∀ s', exec C d a s = .ok (.next, s') → AllTrue C d r s'
  | _, _ => True

end Pb.Go
