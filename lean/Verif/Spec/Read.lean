import Verif.Spec.Records
import Verif.Spec.Typing
/-
What a scalar payload means, from the protobuf encoding guide; no reference to the decode functions.
-/
namespace Pb.Spec

/-- The integer with zig-zag number `n`. -/
def unzigzag (n : Nat) : Int := if n % 2 = 0 then (n / 2 : Nat) else -((n / 2 : Nat) : Int) - 1

/-- `ReadsAs s data v`: the payload `data` denotes the value `v` of scalar type `s`. Integers are taken modulo the
width of the target. -/
inductive ReadsAs : Scalar → Bytes → Val → Prop
  | bool (data n) : Varint64 data n → ReadsAs .bool data (.b8 (n ≠ 0))
  | int32 (data n) : Varint64 data n → ReadsAs .int32 data (.w32 (BitVec.ofNat 32 n))
  | uint32 (data n) : Varint64 data n → ReadsAs .uint32 data (.w32 (BitVec.ofNat 32 n))
  | int64 (data n) : Varint64 data n → ReadsAs .int64 data (.w64 (BitVec.ofNat 64 n))
  | uint64 (data n) : Varint64 data n → ReadsAs .uint64 data (.w64 (BitVec.ofNat 64 n))
  | zigzag32 (data n) : Varint64 data n → ReadsAs .zigzag32 data (.w32 (BitVec.ofInt 32 (unzigzag n)))
  | zigzag64 (data n) : Varint64 data n → ReadsAs .zigzag64 data (.w64 (BitVec.ofInt 64 (unzigzag n)))
  | fixed32 (x : U32) : ReadsAs .fixed32 (base256 4 x.toNat) (.w32 x)
  | float32 (x : U32) : ReadsAs .float32 (base256 4 x.toNat) (.w32 x)
  | fixed64 (x : U64) : ReadsAs .fixed64 (base256 8 x.toNat) (.w64 x)
  | float64 (x : U64) : ReadsAs .float64 (base256 8 x.toNat) (.w64 x)
  | string (p s) : Varint64 p s.length → ReadsAs .string (p ++ s) (.str s)

/-- `BytesAs data s`: the length-delimited payload `data` has contents `s`. -/
def BytesAs (data s : Bytes) : Prop := ∃ p, Varint64 p s.length ∧ data = p ++ s

end Pb.Spec
