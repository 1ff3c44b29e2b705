import Verif.Model.Wire
/-
The wire primitives as the protobuf encoding guide describes them, on natural numbers and integers and
without reference to the model's functions.
-/
namespace Pb.Spec

/-- Minimal base-128 little-endian notation: groups of seven bits, least significant first, the top bit of each
byte telling whether more follow. -/
def leb128 (n : Nat) : Bytes :=
  if n < 128 then [BitVec.ofNat 8 n] else BitVec.ofNat 8 (n % 128 + 128) :: leb128 (n / 128)

/-- `Varint bs n`: the bytes `bs` are a base-128 notation of `n`, minimal or not. -/
inductive Varint : Bytes → Nat → Prop
  | last (c : Byte) : c.toNat < 128 → Varint [c] c.toNat
  | cont (c : Byte) (cs : Bytes) (n : Nat) :
      128 ≤ c.toNat → Varint cs n → Varint (c :: cs) (c.toNat - 128 + 128 * n)

/-- The number 0, 1, 2, ... that zig-zag coding assigns to 0, -1, 1, ... -/
def zigzag (n : Int) : Nat := if 0 ≤ n then (2 * n).toNat else (-2 * n - 1).toNat

/-- Base-256 little-endian notation of `n` with exactly `k` digits. -/
def base256 : Nat → Nat → Bytes
  | 0, _ => []
  | k + 1, n => BitVec.ofNat 8 (n % 256) :: base256 k (n / 256)

/-- The field number in the key of a record, as the encoding guide has it: `key = 8 * number + wire type`. -/
def keyNumber (w : U64) : Nat := w.toNat / 8

/-- The wire type in the key of a record. -/
def keyType (w : U64) : Nat := w.toNat % 8

end Pb.Spec
