import Verif.Model.Heap
/-
The arrays behind the byte slices of a message.
-/
namespace Pb.Spec

mutual
/-- All byte slices in a slot: also those in the unused elements of slices. -/
def _root_.Pb.HVal.arrays : HVal → List Hdr
  | .bytes (some h) => [h]
  | .opt _ v => v.arrays
  | .ptr v => v.arrays
  | .struct fs => HVal.arraysL fs
  | .slice _ es sp => HVal.arraysL es ++ HVal.arraysL sp
  | .map _ es => HVal.arraysM es
  | _ => []
/-- Those of a list of slots. -/
def _root_.Pb.HVal.arraysL : List HVal → List Hdr
  | [] => []
  | v :: vs => v.arrays ++ HVal.arraysL vs
/-- Those of map entries. -/
def _root_.Pb.HVal.arraysM : List (Key × HVal) → List Hdr
  | [] => []
  | (_, v) :: es => v.arrays ++ HVal.arraysM es
end

/-- The address `x` belongs to the array of the slice, up to its capacity. -/
def _root_.Pb.Hdr.holds (h : Hdr) (x : Nat) : Prop := h.ptr ≤ x ∧ x < h.ptr + h.cap

/-- The address `x` belongs to the input. -/
def _root_.Pb.Win.holds (b : Win) (x : Nat) : Prop := b.ptr ≤ x ∧ x < b.ptr + b.len

/-- The arrays of the slices are allocated and not shorter than the slices. -/
def Alloc (m : Arena) (hs : List Hdr) : Prop := ∀ h ∈ hs, h.len ≤ h.cap ∧ h.ptr + h.cap ≤ m.next

/-- The arrays have no address in common. -/
def HdrApart (a b : Hdr) : Prop := ∀ x, a.holds x → ¬ b.holds x

/-- The slices do not overlap. -/
def Separate (hs : List Hdr) : Prop := hs.Pairwise HdrApart

/-- The input overlaps none of the slices. -/
def InputApart (b : Win) (hs : List Hdr) : Prop := ∀ h ∈ hs, ∀ x, b.holds x → ¬ h.holds x

end Pb.Spec
