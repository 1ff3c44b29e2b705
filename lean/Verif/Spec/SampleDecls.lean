import Verif.Spec.Program
import Verif.Spec.Sample
import Verif.Proofs.Tag
/-
The declarations of the sample program, and small programs on which the library misbehaves.
-/
namespace Pb.Sample
open Spec

/-- A field with a `protobuf` tag. -/
def tagged (tag : String) (ty : GoType) : FieldDecl := { tag := some tag.toList, ty := .ty ty }

/-- A map field. -/
def tagged3 (tag key val : String) (k v : GoType) : FieldDecl :=
  { tag := some tag.toList, keyTag := key.toList, valTag := val.toList, ty := .ty (.map k v) }

/-- The declarations of `Node`, `Flat`, `Pair` (see `Spec/Sample.lean`). -/
def decls : Decls
  | 0 => [tagged "varint,1,opt" .int32, tagged "bytes,2,opt" .string, tagged "bytes,3,rep" (.slice (.ptr (.named 0))),
          { tag := some "zigzag64,4,opt".toList, ty := .opt .int64 },
          tagged3 "bytes,5,rep" "bytes,1,opt" "bytes,2,opt" .string .string,
          { exported := false, tag := none, ty := .ty .other },
          tagged "bytes,6,opt" (.slice .uint8), tagged "bytes,7,opt" (.ptr (.named 0))]
  | 1 => [tagged "varint,1,opt" .bool, tagged "fixed32,2,opt" .uint32, tagged "fixed64,3,rep" (.slice .float64),
          tagged "varint,4,opt" (.ptr .uint64)]
  | 2 => [tagged "varint,1,opt" .bool, tagged "varint,2,opt" .int32]
  | _ => []

/-- Type analysis of the declarations yields the type infos of `Spec/Sample.lean`. -/
theorem envOf_decls : envOf decls = env := by
  funext t
  match t with
  | 0 => rfl
  | 1 => rfl
  | 2 => rfl
  | _ + 3 => rfl

theorem layoutOf_decls : layoutOf decls = layout := by
  funext t
  match t with
  | 0 => rfl
  | 1 => rfl
  | 2 => rfl
  | _ + 3 => rfl

theorem saysTag_range {s : Text} {e : Nat} {n : Int} {c z : Bool} (h : SaysTag s e n c z) : -2 ^ 63 ≤ n ∧ n < 2 ^ 63 := by
  have hi : ∀ {q : Text} {n : Int}, Integer q n → -2 ^ 63 ≤ n ∧ n < 2 ^ 63 := by
    intro q n h
    cases h <;> omega
  cases h with
  | one => decide
  | two _ _ _ _ _ _ h => exact hi h
  | three _ _ _ _ _ _ _ _ h _ => exact hi h
  | more _ _ _ _ _ _ _ _ _ h _ => exact hi h

/-- A tag with a small number says what it parses to. -/
theorem says_of {s : Text} {e n : Nat} {c z : Bool} (hn : n < 2 ^ 63)
    (h : parseStructTag s = ({ wireType := e, fieldNumber := BitVec.ofNat 64 n, repeated := c, zigzag := z }, false)) :
    SaysTag s e n c z := by
  obtain ⟨e', n', c', z', hs⟩ := says_of_parseStructTag h
  have h' := parseStructTag_of_says hs
  rw [h] at h'
  simp only [Prod.mk.injEq, StructTag.mk.injEq, and_true] at h'
  obtain ⟨rfl, h2, rfl, rfl⟩ := h'
  have hr := saysTag_range hs
  have : n' = n := by
    rw [← BitVec.ofInt_natCast] at h2
    have := congrArg BitVec.toInt h2
    simp only [BitVec.toInt_ofInt, Int.bmod_def] at this
    omega
  subst this
  exact hs

theorem says_unique {s : Text} {e e' : Nat} {n n' : Int} {c c' z z' : Bool} (h : SaysTag s e n c z) (h' : SaysTag s e' n' c' z') :
    e = e' ∧ n = n' ∧ c = c' ∧ z = z' := by
  have k := (parseStructTag_of_says h).symm.trans (parseStructTag_of_says h')
  simp only [Prod.mk.injEq, StructTag.mk.injEq, and_true] at k
  obtain ⟨rfl, h2, rfl, rfl⟩ := k
  have hr := saysTag_range h
  have hr' := saysTag_range h'
  have := congrArg BitVec.toInt h2
  simp only [BitVec.toInt_ofInt, Int.bmod_def] at this
  exact ⟨rfl, by omega, rfl, rfl⟩

/-- The number a tagged field says. -/
theorem says_number {f : FieldDecl} {s : Text} {e n : Nat} {c z : Bool} {m : Int} (hs : f.tag = some s) (hn : n < 2 ^ 63)
    (h : parseStructTag s = ({ wireType := e, fieldNumber := BitVec.ofNat 64 n, repeated := c, zigzag := z }, false))
    (hm : Says f m) : m = n := by
  obtain ⟨s', e', c', z', h1, h2⟩ := hm
  rw [hs] at h1; cases h1
  exact (says_unique h2 (says_of hn h)).2.1

theorem declOK {f : FieldDecl} {s : Text} {e n : Nat} {c z : Bool} (hs : f.tag = some s) (hn : n < 2 ^ 61)
    (h : parseStructTag s = ({ wireType := e, fieldNumber := BitVec.ofNat 64 n, repeated := c, zigzag := z }, false))
    (hf : FieldOK e z f.keyTag f.valTag f.ty) : DeclOK f :=
  ⟨s, e, n, c, z, hs, says_of (by omega) h, by omega, by omega, hf⟩

end Pb.Sample
