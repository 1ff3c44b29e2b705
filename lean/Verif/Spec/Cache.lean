import Verif.Model.Cache
import Verif.Spec.Program
/-
What the caches of type analysis may be asked and what they may hold, as conditions on the declarations of a program.
-/
namespace Pb.Cache

/-- `Asks f conf T`: to choose the codec of the field `f`, analysis asks for a codec for the type `T` with the settings
`conf`. -/
inductive Asks (f : FieldDecl) : Conf → GoType → Prop
  | single (text T) : f.exported = true → f.tag = some text → f.ty = .ty T →
      fixedCodec (parseStructTag text).1.wireType (.ty T) = none → (∀ E, baseTypeOf T ≠ .slice E) →
      (∀ k v, baseTypeOf T ≠ .map k v) → Asks f { zigzag := (parseStructTag text).1.zigzag, required := false } T
  | elem (text E) : f.exported = true → f.tag = some text → f.ty = .ty (.slice E) → E ≠ .uint8 →
      Asks f { zigzag := (parseStructTag text).1.zigzag, required := true } E
  | pointee (text E B) : f.exported = true → f.tag = some text → f.ty = .ty (.ptr E) → baseTypeOf E = .slice B →
      Asks f { zigzag := (parseStructTag text).1.zigzag, required := true } E
  | key (text K V) : f.exported = true → f.tag = some text → f.ty = .ty (.map K V) →
      Asks f { zigzag := (parseStructTag f.keyTag).1.zigzag, required := true } K
  | val (text K V) : f.exported = true → f.tag = some text → f.ty = .ty (.map K V) →
      Asks f { zigzag := (parseStructTag f.valTag).1.zigzag, required := true } V

/-- `Collects f conf T E`: the field `f` of type `T` gets a codec for repeated fields with elements of type `E`. (The second
case are pointers to byte slices and pointers to such: a mistake of the library, see C53.) -/
inductive Collects (f : FieldDecl) : Conf → GoType → GoType → Prop
  | slice (text E) : f.exported = true → f.tag = some text → f.ty = .ty (.slice E) → E ≠ .uint8 →
      Collects f { zigzag := (parseStructTag text).1.zigzag, required := true } (.slice E) E
  | pointer (text E B) : f.exported = true → f.tag = some text → f.ty = .ty (.ptr E) → baseTypeOf E = .slice B →
      Collects f { zigzag := (parseStructTag text).1.zigzag, required := true } (.ptr E) E

mutual
/-- `Within D r k`: analysis of the message type `r` extends to the struct type `k`. -/
inductive Within (D : Decls) (r : TypeId) : InfoKey → Prop
  | root : Within D r (.named r)
  | msg (conf t) : Uses D r conf (.ptr (.named t)) → Within D r (.named t)
  | entry (k f text K V) : Within D r k → f ∈ k.decl D → f.exported = true → f.tag = some text → f.ty = .ty (.map K V) →
      Within D r (.anon (entryDecl K V (parseStructTag f.keyTag).1.wiretag (parseStructTag f.valTag).1.wiretag))
/-- `Uses D r conf T`: analysis of the message type `r` asks for a codec for the type `T` with the settings `conf`. -/
inductive Uses (D : Decls) (r : TypeId) : Conf → GoType → Prop
  | field (k f conf T) : Within D r k → f ∈ k.decl D → Asks f conf T → Uses D r conf T
  | ptr (conf T) : Uses D r conf (.ptr T) → (∀ t, T ≠ .named t) → Uses D r conf T
end

/-- `Keeps D r T c`: analysis of the message type `r` may have kept a codec under the type `T` that is meant to be `c`. -/
inductive Keeps (D : Decls) (r : TypeId) : GoType → Codec → Prop
  | msg (t) : Keeps D r (.ptr (.named t)) (.msg t)
  | ptr (conf T c) : Uses D r conf (.ptr T) → (∀ t, T ≠ .named t) → wCodec conf (.ptr T) = .ok c → Keeps D r (.ptr T) c
  | slice (k f conf T E c) : Within D r k → f ∈ k.decl D → Collects f conf T E → wCodec conf E = .ok c →
      Keeps D r T (.slice (zeroOf E) c)
  | map (k f text K V c) : Within D r k → f ∈ k.decl D → f.exported = true → f.tag = some text → f.ty = .ty (.map K V) →
      Keeps D r (.map K V) c

/-- Whatever analysis of `r` finds in its cache for a type is what it is looking for. -/
structure Consistent (D : Decls) (r : TypeId) : Prop where
  asked : ∀ conf T c, Uses D r conf T → Keeps D r T c → wCodec conf T = .ok c
  collected : ∀ k f conf T E c c', Within D r k → f ∈ k.decl D → Collects f conf T E → wCodec conf E = .ok c →
    Keeps D r T c' → c' = .slice (zeroOf E) c

/-- `Mentions T t`: the struct type `t` occurs in the type `T`. -/
inductive Mentions : GoType → TypeId → Prop
  | named (t) : Mentions (.named t) t
  | ptr (T t) : Mentions T t → Mentions (.ptr T) t
  | slice (T t) : Mentions T t → Mentions (.slice T) t
  | key (K V t) : Mentions K t → Mentions (.map K V) t
  | val (K V t) : Mentions V t → Mentions (.map K V) t

/-- No message type contains itself, not even indirectly: there is a measure that is smaller for the types of the fields. -/
def Acyclic (D : Decls) (rank : TypeId → Nat) : Prop :=
  ∀ t, ∀ f ∈ D t, f.exported = true → f.tag ≠ none → ∀ T u, f.ty = .ty T → Mentions T u → rank u < rank t

/-- `Needs D r t`: messages of type `r` may contain messages of type `t`, going by the fields that take part. -/
inductive Needs (D : Decls) (r : TypeId) : TypeId → Prop
  | root : Needs D r r
  | field (t f T u) : Needs D r t → f ∈ D t → f.Active → f.ty = .ty T → Mentions T u → Needs D r u

/-- `Later p q`: the computation `p` of a goroutine can become `q`, where the operations on the shared state return anything
at all. -/
inductive Later {α : Type} : Prog α → Prog α → Prop
  | refl (p) : Later p p
  | op (o : Op) (k : o.Resp → Prog α) (r : o.Resp) (q) : Later (k r) q → Later (.op o k) q

/-- With the type info at address `i`, the API functions do for messages of type `t` what they do with analysis without
caches. -/
structure Works (D : Decls) (s : State) (i : Nat) (t : TypeId) : Prop where
  size : ∀ v, sizeAt D s i v = Pb.size (envOf D) (.msg t v)
  marshal : ∀ v, marshalAt D s i v = Pb.marshal (envOf D) (.msg t v)
  unmarshal : ∀ b v, unmarshalAt D s b i v = (Pb.unmarshal (envOf D) b (.msg t v)).map fun r => r.value v

/-- All calls so far have got their type infos. -/
def Settled (s : Sys) : Prop := ∀ t ∈ s.threads, ∃ i, t.prog = .ret i

/-- Fields as the generator declares them: no pointers other than to message types, no nested slices and maps. -/
inductive Plain : GoType → Prop
  | bool : Plain .bool
  | int32 : Plain .int32
  | int64 : Plain .int64
  | uint32 : Plain .uint32
  | uint64 : Plain .uint64
  | float32 : Plain .float32
  | float64 : Plain .float64
  | string : Plain .string
  | bytes : Plain (.slice .uint8)
  | msg (t) : Plain (.ptr (.named t))

/-- The types of the fields of a program: `Option[T]`, a plain type, or a slice or map of plain types. -/
inductive PlainField : FieldType → Prop
  | opt (b) : PlainField (.opt b)
  | one (T) : Plain T → PlainField (.ty T)
  | many (T) : Plain T → PlainField (.ty (.slice T))
  | map (K V) : Plain K → Plain V → PlainField (.ty (.map K V))

/-- All fields that take part in messages of type `r` have plain types, and these messages do not use zigzag encoding for some
fields of type `[]int32` (`[]int64`) and not for others. -/
structure Uniform (D : Decls) (r : TypeId) : Prop where
  plain : ∀ t, Needs D r t → ∀ f ∈ D t, f.Active → PlainField f.ty
  zigzag : ∀ t u, Needs D r t → Needs D r u → ∀ f ∈ D t, ∀ g ∈ D u, f.Active → g.Active → ∀ T, T = .int32 ∨ T = .int64 →
    f.ty = .ty (.slice T) → g.ty = .ty (.slice T) → ∀ x y, f.tag = some x → g.tag = some y →
    (parseStructTag x).1.zigzag = (parseStructTag y).1.zigzag

/-- `FieldParts enc i fs vs ps`: `ps` are the encodings, by `enc`, of those of the fields `fs` (from field index `i`) that take
part, given the values `vs` of the fields. -/
inductive FieldParts (enc : FieldDecl → Val → Except Fault Bytes) (vs : List Val) : Nat → List FieldDecl → List Bytes → Prop
  | nil (i) : FieldParts enc vs i [] []
  | skip (i f fs ps) : ¬ f.Active → FieldParts enc vs (i + 1) fs ps → FieldParts enc vs i (f :: fs) ps
  | part (i f fs ps v p) : f.Active → vs[i]? = some v → enc f v = .ok p → FieldParts enc vs (i + 1) fs ps →
      FieldParts enc vs i (f :: fs) (p :: ps)

end Pb.Cache
