import Verif.Spec.Wire
/-
The record structure of a protobuf message, as the encoding guide describes it, without reference to the model's
functions.
-/
namespace Pb.Spec

/-- A base-128 notation the library accepts: at most ten bytes, below 2^64. -/
structure Varint64 (bs : Bytes) (n : Nat) : Prop where
  notation_ : Varint bs n
  short : bs.length ≤ 10
  small : n < 2 ^ 64

/-- `Payload wt bs`: the bytes `bs` are one complete payload of wire type `wt`. -/
inductive Payload : Nat → Bytes → Prop
  /-- wire type 0: a varint -/
  | varint (bs n) : Varint64 bs n → Payload 0 bs
  /-- wire type 1: eight bytes -/
  | fixed64 (bs) : bs.length = 8 → Payload 1 bs
  /-- wire type 2: a length and that many bytes -/
  | varlen (p bs) : Varint64 p bs.length → Payload 2 (p ++ bs)
  /-- wire type 5: four bytes -/
  | fixed32 (bs) : bs.length = 4 → Payload 5 bs

/-- `TagBytes p num wt`: the bytes `p` are a tag with field number `num` and wire type `wt`. -/
def TagBytes (p : Bytes) (num wt : Nat) : Prop := wt < 8 ∧ Varint64 p (8 * num + wt)

/-- `Record bs num wt data`: `bs` is one complete record. -/
def Record (bs : Bytes) (num wt : Nat) (data : Bytes) : Prop :=
  ∃ p, TagBytes p num wt ∧ Payload wt data ∧ bs = p ++ data

/-- `Records bs rs`: `bs` is the concatenation of the records `rs` (given as number, wire type, payload). -/
inductive Records : Bytes → List (Nat × Nat × Bytes) → Prop
  | nil : Records [] []
  | cons (b bs num wt data rs) : Record b num wt data → Records bs rs →
      Records (b ++ bs) ((num, wt, data) :: rs)

/-- A record with number `num` starts at a record boundary of `b` (it need not be complete). -/
def Occurs (b : Bytes) (num : Nat) : Prop :=
  ∃ a rs p wt r, b = a ++ (p ++ r) ∧ Records a rs ∧ TagBytes p num wt

end Pb.Spec
