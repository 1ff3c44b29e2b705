import Verif.Model.Tag
/-
What a struct tag says, without reference to the parser.
-/
namespace Pb.Spec

/-- A decimal digit and its value. -/
inductive Digit : Char → Nat → Prop
  | d0 : Digit '0' 0
  | d1 : Digit '1' 1
  | d2 : Digit '2' 2
  | d3 : Digit '3' 3
  | d4 : Digit '4' 4
  | d5 : Digit '5' 5
  | d6 : Digit '6' 6
  | d7 : Digit '7' 7
  | d8 : Digit '8' 8
  | d9 : Digit '9' 9

/-- Positional notation in base ten, most significant digit first. -/
inductive Numeral : Text → Nat → Prop
  | one (c d) : Digit c d → Numeral [c] d
  | more (s n c d) : Numeral s n → Digit c d → Numeral (s ++ [c]) (10 * n + d)

/-- An integer that a 64-bit `int` can hold, with optional sign. -/
inductive Integer : Text → Int → Prop
  | nat (s n) : Numeral s n → n < 2 ^ 63 → Integer s n
  | pos (s n) : Numeral s n → n < 2 ^ 63 → Integer ('+' :: s) n
  | neg (s n) : Numeral s n → n ≤ 2 ^ 63 → Integer ('-' :: s) (-(n : Int))

/-- The encodings a tag may name: wire type and whether zig-zag coding applies. -/
inductive Encoding : Text → Nat → Bool → Prop
  | varint : Encoding "varint".toList 0 false
  | fixed64 : Encoding "fixed64".toList 1 false
  | bytes : Encoding "bytes".toList 2 false
  | fixed32 : Encoding "fixed32".toList 5 false
  | zigzag32 : Encoding "zigzag32".toList 0 true
  | zigzag64 : Encoding "zigzag64".toList 0 true

/-- The cardinalities a tag may name: whether the field is repeated. -/
inductive Cardinality : Text → Bool → Prop
  | opt : Cardinality "opt".toList false
  | rep : Cardinality "rep".toList true

/-- A piece of a tag: no comma. -/
def Piece (s : Text) : Prop := ',' ∉ s

/-- `SaysTag s e n c z`: the tag text `s` says wire type `e`, number `n`, repeated `c`, zig-zag `z`; pieces that are
left out at the end count as number 0 and not repeated, everything after the third is ignored. -/
inductive SaysTag : Text → Nat → Int → Bool → Bool → Prop
  | one (p e z) : Encoding p e z → SaysTag p e 0 false z
  | two (p e z q n) : Encoding p e z → Integer q n → SaysTag (p ++ ',' :: q) e n false z
  | three (p e z q n r c) : Encoding p e z → Integer q n → Cardinality r c → SaysTag (p ++ ',' :: (q ++ ',' :: r)) e n c z
  | more (p e z q n r c rest) : Encoding p e z → Integer q n → Cardinality r c →
      SaysTag (p ++ ',' :: (q ++ ',' :: (r ++ ',' :: rest))) e n c z

end Pb.Spec
