import Verif.Proofs.Tag
/-
C54: struct tags.
-/
namespace Pb.Props
open Spec

/-- C54. A tag text that says something is parsed as what it says, whatever attributes follow. -/
theorem C54_parses (s : Text) (e : Nat) (n : Int) (c z : Bool) (h : SaysTag s e n c z) :
    parseStructTag s = ({ wireType := e, fieldNumber := BitVec.ofInt 64 n, repeated := c, zigzag := z }, false) :=
  parseStructTag_of_says h

/-- C54. In particular the text `encoding,number,cardinality` for every encoding, number and cardinality, also followed
by further attributes. -/
theorem C54_parses_number (p r rest : Text) (e : Nat) (z c : Bool) (n : Nat) (hp : Encoding p e z) (hr : Cardinality r c)
    (hn : n < 2 ^ 63) :
    parseStructTag (p ++ ',' :: (decimal n ++ ',' :: r)) =
      ({ wireType := e, fieldNumber := BitVec.ofNat 64 n, repeated := c, zigzag := z }, false) ∧
    parseStructTag (p ++ ',' :: (decimal n ++ ',' :: (r ++ ',' :: rest))) =
      ({ wireType := e, fieldNumber := BitVec.ofNat 64 n, repeated := c, zigzag := z }, false) := by
  have hi := Integer.nat _ _ (numeral_decimal n) hn
  exact ⟨C54_parses _ _ _ _ _ (.three p e z _ _ r c hp hi hr), C54_parses _ _ _ _ _ (.more p e z _ _ r c rest hp hi hr)⟩

/-- C54. Every other text is refused: an unknown encoding, a number that is not an integer of 64 bits, or an unknown
cardinality. -/
theorem C54_refuses (s : Text) (h : ∀ e n c z, ¬ SaysTag s e n c z) : (parseStructTag s).2 = true := by
  cases hp : (parseStructTag s).2 with
  | true => rfl
  | false =>
    obtain ⟨e, n, c, z, hs⟩ := says_of_parseStructTag (s := s) (t := (parseStructTag s).1) (by rw [← hp])
    exact absurd hs (h e n c z)

/-- C54. A text never says two different things. -/
theorem C54_unambiguous (s : Text) (e e' : Nat) (n n' : Int) (c c' z z' : Bool) (h : SaysTag s e n c z)
    (h' : SaysTag s e' n' c' z') : e = e' ∧ BitVec.ofInt 64 n = BitVec.ofInt 64 n' ∧ c = c' ∧ z = z' := by
  have := (C54_parses _ _ _ _ _ h).symm.trans (C54_parses _ _ _ _ _ h')
  simpa using this

example : SaysTag "zigzag64,150,rep,name=x,proto3".toList 0 150 true true :=
  .more "zigzag64".toList _ _ "150".toList 150 "rep".toList _ "name=x,proto3".toList .zigzag64
    ((integer_iff _ _).mpr rfl) .rep

example : parseStructTag "zigzag64,150,rep,name=x,proto3".toList =
    ({ wireType := 0, fieldNumber := 150#64, repeated := true, zigzag := true }, false) := rfl

/-- C54. The tags of required fields and of groups, which the protobuf grammar knows, are refused. -/
theorem C54_required_and_group_refused (p rest : Text) (e : Nat) (z : Bool) (n : Nat) (hp : Encoding p e z) (hn : n < 2 ^ 63) :
    (parseStructTag (p ++ ',' :: (decimal n ++ ',' :: ("req".toList ++ ',' :: rest)))).2 = true ∧
    (parseStructTag ("group".toList ++ ',' :: rest)).2 = true := by
  have hi := Integer.nat _ _ (numeral_decimal n) hn
  constructor
  · simp only [parseStructTag, splitFields_comma (encoding_piece hp), splitFields_comma (integer_piece hi)]
    rw [splitFields_comma (by simp [Piece])]
    simp [parseFields, (parseWireType_iff _ _).mpr ⟨_, _, hp, rfl⟩, (integer_iff _ _).mp hi, parseOption]
  · simp only [parseStructTag]
    rw [splitFields_comma (by simp [Piece])]
    simp [parseFields, parseWireType]

example : Encoding "varint".toList 0 false ∧ (5 : Nat) < 2 ^ 63 := ⟨.varint, by decide⟩

end Pb.Props
