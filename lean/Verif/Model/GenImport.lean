import Verif.Spec.GenSource
/-
Public imports: internal/generator/main.go:53-75 `GenerateFile`, 88-166 `genImport`.

`go/parser` (standard library) is represented by `Spec.parseFile`, and `GeneratedFile.Content` (protogen), which lays the text out
anew, leaves alone what it reads. The import declarations that protogen adds are left out: `genForward` ignores them (main.go:158).
-/
namespace Pb
open Spec (Tok TypeExpr SrcDecl parseFile isExported)

mutual
/-- A .proto file as the generator sees it: the names it uses, its own contents, Go import path, `GoDescriptorIdent`, and what it
imports. -/
inductive TextUnit where
  | mk (names : TextNames) (file : TextFile) (goPath desc : Text) (imports : TextImports)
/-- Imported files that the generator knows (`gen.FilesByPath`): path, whether the import is public, and the name under which the
Go package is imported. -/
inductive TextImports where
  | nil
  | cons (path : Text) (isPublic : Bool) (alias : Text) (unit : TextUnit) (rest : TextImports)
end

def TextUnit.names : TextUnit → TextNames
  | .mk n _ _ _ _ => n
def TextUnit.file : TextUnit → TextFile
  | .mk _ f _ _ _ => f
def TextUnit.goPath : TextUnit → Text
  | .mk _ _ g _ _ => g
def TextUnit.desc : TextUnit → Text
  | .mk _ _ _ d _ => d
def TextUnit.imports : TextUnit → TextImports
  | .mk _ _ _ _ i => i

/-- main.go:122-140 `genForward`: `tok` is the keyword, `selector` says that the type or value is of the form `p.x`. -/
def forwardText (alias desc : Text) (tok name : Text) (selector : Bool) : Text :=
  if isExported name = false then []
  else if name = desc then []
  else if selector then []
  else tok ++ t!" " ++ name ++ t!" = " ++ alias ++ t!"." ++ name ++ t!"\n"

/-- Whether a type is an `ast.SelectorExpr`. -/
def isSelector : TypeExpr → Bool
  | .name (some _) _ => true
  | _ => false

/-- Whether a value is an `ast.SelectorExpr`. -/
def isSelectorValue : List Tok → Bool
  | [.word _, .op c, .word _] => c == '.'
  | _ => false

/-- main.go:143-164: the declarations of the imported file, one by one. Methods are no `ast.GenDecl`. -/
def declForwards (alias desc : Text) : SrcDecl → Text
  | .alias n t => forwardText alias desc t!"type" n (isSelector t)
  | .struct n _ | .interface n _ => forwardText alias desc t!"type" n false
  | .consts cs => cs.flatMap fun c => forwardText alias desc t!"const" c.1 (isSelectorValue c.2.2)
  | .const n v => forwardText alias desc t!"const" n (isSelectorValue v)
  | .method .. => []

mutual
/-- main.go:53-75 `GenerateFile`; none if an imported file cannot be read back (`gen.Error`). -/
def unitText : TextUnit → Option Text
  | .mk N f goPath _ imports => (importsText goPath imports).map fun t => headerText f ++ (t ++ bodyText N f)
/-- main.go:64-66, 88-166 `genImport`: nothing for files of the same Go package and for imports that are not public; otherwise the
imported file is generated, read, and its declarations are forwarded. -/
def importsText (goPath : Text) : TextImports → Option Text
  | .nil => some []
  | .cons path isPublic alias unit rest =>
    if unit.goPath = goPath then importsText goPath rest
    else if isPublic = false then importsText goPath rest
    else
      match unitText unit with
      | none => none
      | some src =>
        match parseFile src with
        | none => none
        | some (_, ds) =>
          (importsText goPath rest).map fun r =>
            t!"// Symbols defined in public import of " ++ path ++ t!".\n" ++ t!"\n" ++ ds.flatMap (declForwards alias unit.desc) ++
              t!"\n" ++ r
end

mutual
/-- How often `GenerateFile` is called for one file (main.go:108). -/
def unitGenerations : TextUnit → Nat
  | .mk _ _ goPath _ imports => 1 + importsGenerations goPath imports
def importsGenerations (goPath : Text) : TextImports → Nat
  | .nil => 0
  | .cons _ isPublic _ unit rest =>
    if unit.goPath = goPath then importsGenerations goPath rest
    else if isPublic = false then importsGenerations goPath rest
    else unitGenerations unit + importsGenerations goPath rest
end

end Pb
