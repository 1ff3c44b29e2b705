import Verif.Model.GenImport
/-
What public imports should forward.
-/
namespace Pb.Spec

/-- The types a file declares for others: enums, messages, and the wrappers of oneof members. -/
def typeNames (f : TextFile) : List Text :=
  f.enums.map TextEnum.name ++ f.messages.flatMap fun m => m.name :: m.oneofs.flatMap fun o => o.members.map TextField.ident

/-- The constants: the values of its enums. -/
def valueNames (f : TextFile) : List Text := f.enums.flatMap fun e => e.values.map TextEnumValue.name

/-- `type n = alias.n`. -/
def typeForward (alias n : Text) : SrcDecl := .alias n (.name (some alias) n)

/-- `const n = alias.n`. -/
def constForward (alias n : Text) : SrcDecl := .const n [.word alias, .op '.', .word n]

/-- The forwards for a file, in the order of its declarations; the name of the file descriptor is left out. -/
def forwardDecls (alias desc : Text) (f : TextFile) : List SrcDecl :=
  (f.enums.flatMap fun e =>
    ([e.name].filter (· ≠ desc)).map (typeForward alias) ++ ((e.values.map TextEnumValue.name).filter (· ≠ desc)).map (constForward alias)) ++
  f.messages.flatMap fun m =>
    ((m.name :: m.oneofs.flatMap fun o => o.members.map TextField.ident).filter (· ≠ desc)).map (typeForward alias)

/-- The forwards for the imports of a file of the given Go package. -/
def importDecls (goPath : Text) : TextImports → List SrcDecl
  | .nil => []
  | .cons _ isPublic alias unit rest =>
    (if isPublic = true ∧ unit.goPath ≠ goPath then forwardDecls alias unit.desc unit.file else []) ++ importDecls goPath rest

/-- The declarations of a file with imports. -/
def unitDecls (u : TextUnit) : List SrcDecl := importDecls u.goPath u.imports ++ fileDecls u.names u.file

/-- One import of a file. -/
structure Import where
  path : Text
  isPublic : Bool
  alias : Text
  unit : TextUnit

/-- The imports of a file as a list. -/
def importList : TextImports → List Import
  | .nil => []
  | .cons path isPublic alias unit rest => ⟨path, isPublic, alias, unit⟩ :: importList rest

/-- A file whose symbols are to be visible: imported publicly from another Go package. -/
def Forwards (u : TextUnit) (i : Import) : Prop := i ∈ importList u.imports ∧ i.isPublic = true ∧ i.unit.goPath ≠ u.goPath

/-- Names that start with a capital letter: all that protogen gives to types, wrappers and enum values. -/
def NamesExported (f : TextFile) : Prop := (∀ n ∈ typeNames f, isExported n = true) ∧ ∀ n ∈ valueNames f, isExported n = true

mutual
/-- Files with legal names and comments. -/
def TextUnitOK : TextUnit → Prop
  | .mk N f _ _ imports => TextNamesOK N ∧ TextFileOK f ∧ NamesExported f ∧ TextImportsOK imports
def TextImportsOK : TextImports → Prop
  | .nil => True
  | .cons path _ alias unit rest => Legal path ∧ '\n' ∉ path ∧ IsIdent alias ∧ TextUnitOK unit ∧ TextImportsOK rest
end

end Pb.Spec
