import Verif.Model.Flat
import Verif.Spec.Wire
/-
What it means that raw memory holds a value, independent of the codecs.
-/
namespace Pb.Flat

/-- The places of `n` elements of shape `s` in an array that begins at `o`. -/
def elemSlots (s : Shape) (o : Nat) : Nat → List (Nat × Shape)
  | 0 => []
  | n + 1 => (o, s) :: elemSlots s (o + s.size) n

mutual
/-- `Rep lay m s cs v B`: the cells `cs` of a slot of shape `s`, together with the allocations `B` reached from it, hold the
value `v`. (The bytes of strings are not listed in `B`: they cannot change, so strings may share them.) -/
inductive Rep (lay : Lay) (m : Mem) : Shape → List Cell → Val → List Nat → Prop
  | b8 (x : Bool) : Rep lay m .b8 (boolCells x) (.b8 x) []
  | w32 (x : U32) : Rep lay m .w32 (byteCells (Spec.base256 4 x.toNat)) (.w32 x) []
  | w64 (x : U64) : Rep lay m .w64 (byteCells (Spec.base256 8 x.toNat)) (.w64 x) []
  /-- the empty string: whatever its pointer is -/
  | strNil (d : Option Addr) : Rep lay m .str (ptrCells d ++ intCells 0) (.str []) []
  | str (d : Addr) (bs s : Bytes) : m[d.blk]? = some (.ro bs) → (bs.drop d.off).take s.length = s → s ≠ [] →
      Rep lay m .str (ptrCells (some d) ++ intCells s.length) (.str s) []
  | bytesNil : Rep lay m .bytes (sliceCells none 0 0) (.bytes none) []
  /-- a section of an array, with room up to the capacity -/
  | bytes (d : Addr) (cap : Nat) (cs : List Cell) (s : Bytes) : m[d.blk]? = some (.mem cs) → d.off + cap ≤ cs.length →
      s.length ≤ cap → (cs.drop d.off).take s.length = byteCells s →
      Rep lay m .bytes (sliceCells (some d) s.length cap) (.bytes (some s)) [d.blk]
  /-- `struct { some bool; value T }`, with whatever is in the padding -/
  | opt (s : Shape) (cs : List Cell) (x : Bool) (v : Val) (B : List Nat) : cs.length = (Shape.opt s).size →
      cs.take 1 = boolCells x → Rep lay m s ((cs.drop (optOff s)).take s.size) v B →
      Rep lay m (.opt s) cs (.opt x v) B
  | ptrNil (s : Shape) : Rep lay m (.ptr s) (ptrCells none) .nilp []
  | ptr (s : Shape) (b : Nat) (cs : List Cell) (v : Val) (B : List Nat) : m[b]? = some (.mem cs) →
      Rep lay m s cs v B → Rep lay m (.ptr s) (ptrCells (some ⟨b, 0⟩)) (.ptr v) (b :: B)
  | msgNil (t : TypeId) : Rep lay m (.msg t) (ptrCells none) .nilp []
  | msg (t : TypeId) (b : Nat) (cs : List Cell) (vs : List Val) (B : List Nat) : m[b]? = some (.mem cs) →
      cs.length = lay.size t → RepF lay m (lay.slots t) cs vs B →
      Rep lay m (.msg t) (ptrCells (some ⟨b, 0⟩)) (.ptr (.struct vs)) (b :: B)
  | sliceNil (s : Shape) : Rep lay m (.slice s) (sliceCells none 0 0) (.slice true [] []) []
  /-- a section of an array: the elements, and the slots up to the capacity -/
  | slice (s : Shape) (d : Addr) (cs : List Cell) (es spare : List Val) (B : List Nat) : m[d.blk]? = some (.mem cs) →
      d.off % s.align = 0 → d.off ≤ cs.length → RepF lay m (elemSlots s d.off (es.length + spare.length)) cs (es ++ spare) B →
      Rep lay m (.slice s) (sliceCells (some d) es.length (es.length + spare.length)) (.slice false es spare) (d.blk :: B)
  | mapNil (k v : Shape) : Rep lay m (.map k v) (ptrCells none) (.map true []) []
  | map (k v : Shape) (b : Nat) (es : List (Nat × Nat)) (kvs : List (Key × Val)) (B : List Nat) : m[b]? = some (.map es) →
      RepM lay m k v es kvs B → Rep lay m (.map k v) (ptrCells (some ⟨b, 0⟩)) (.map false kvs) (b :: B)
  /-- memory the library does not look at: nothing is known -/
  | opaque (v : Val) : Rep lay m .opaque [] v []
/-- The cells `cs` of a struct or an array hold the values `vs` in the given places. -/
inductive RepF (lay : Lay) (m : Mem) : List (Nat × Shape) → List Cell → List Val → List Nat → Prop
  | nil (cs : List Cell) : RepF lay m [] cs [] []
  | cons (o : Nat) (s : Shape) (slots : List (Nat × Shape)) (cs : List Cell) (v : Val) (vs : List Val) (B B' : List Nat) :
      o + s.size ≤ cs.length → Rep lay m s ((cs.drop o).take s.size) v B → RepF lay m slots cs vs B' →
      RepF lay m ((o, s) :: slots) cs (v :: vs) (B ++ B')
/-- The entries of a map hold the given keys and values. -/
inductive RepM (lay : Lay) (m : Mem) : Shape → Shape → List (Nat × Nat) → List (Key × Val) → List Nat → Prop
  | nil (k v : Shape) : RepM lay m k v [] [] []
  | cons (k v : Shape) (kb vb : Nat) (kcs vcs : List Cell) (key : Key) (x : Val) (es : List (Nat × Nat))
      (kvs : List (Key × Val)) (B B' : List Nat) : m[kb]? = some (.mem kcs) → Rep lay m k kcs key.toVal [] →
      m[vb]? = some (.mem vcs) → Rep lay m v vcs x B → RepM lay m k v es kvs B' →
      RepM lay m k v ((kb, vb) :: es) ((key, x) :: kvs) (kb :: vb :: (B ++ B'))
end

/-- Allocation `b` is a message of type `t` with the value `v`, and it and the allocations `B` reached from it are all
different: no part of a message is shared. -/
def Holds (lay : Lay) (m : Mem) (t : TypeId) (b : Nat) (v : Val) (B : List Nat) : Prop :=
  (∃ vs cs, v = .struct vs ∧ m[b]? = some (.mem cs) ∧ cs.length = lay.size t ∧ RepF lay m (lay.slots t) cs vs B) ∧
    (b :: B).Nodup

/-- Struct types whose fields are aligned, do not overlap, and lie within the struct. -/
structure Lay.OK (lay : Lay) : Prop where
  apart : ∀ t, (lay.slots t).Pairwise fun a b => a.1 + a.2.size ≤ b.1
  within : ∀ t, ∀ s ∈ lay.slots t, s.1 + s.2.size ≤ lay.size t
  aligned : ∀ t, ∀ s ∈ lay.slots t, s.1 % s.2.align = 0

/-- The shapes of the fields. -/
def Lay.shapes (lay : Lay) : Layout := fun t => (lay.slots t).map (·.2)

/-- Shapes of Go types: map keys are scalars. -/
def KeysOK : Shape → Prop
  | .opt s | .ptr s | .slice s => KeysOK s
  | .map k v => k.isKey ∧ KeysOK v
  | _ => True

/-- A field of a Go struct: its size and alignment matter also if the library does not look at it. -/
structure GoField where
  shape : Shape
  size : Nat
  align : Nat

/-- The size and the alignment are those of the shape. -/
def GoField.OK (f : GoField) : Prop := f.shape.size ≤ f.size ∧ 0 < f.align ∧ f.align % f.shape.align = 0

/-- The Go compiler's layout of a struct (`gc`): every field at the next offset that its alignment allows. -/
def place : Nat → List GoField → List (Nat × Shape)
  | _, [] => []
  | o, f :: fs => (alignUp f.align o, f.shape) :: place (alignUp f.align o + f.size) fs

/-- Where the last field ends. -/
def placeEnd : Nat → List GoField → Nat
  | o, [] => o
  | o, f :: fs => placeEnd (alignUp f.align o + f.size) fs

/-- The layout of struct types with the given fields; the size is rounded up to the alignment of the struct. -/
def goLay (types : TypeId → List GoField) : Lay where
  slots t := place 0 (types t)
  size t := alignUp ((types t).foldl (fun a f => max a f.align) 1) (placeEnd 0 (types t))

end Pb.Flat
