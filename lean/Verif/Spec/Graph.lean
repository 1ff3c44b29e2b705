import Verif.Spec.Flat
import Verif.Spec.Encode
/-
Arbitrary object graphs in raw memory, independent of the codecs: what is known of every allocation, and what it means that
memory agrees with it. Unlike `Holds` (`Spec/Flat.lean`), which says that memory holds a value no part of which is shared, this
allows any number of pointers to the same place, cycles, pointers into the middle of an allocation (fields of a struct, elements of
an array), overlapping slices, and allocations nothing is known of.
-/
namespace Pb.Flat

/-- What is known of an allocation. -/
inductive Kind where
  /-- memory of the given size with slots of Go types in it: an offset and a shape each -/
  | mem (size : Nat) (slots : List (Nat × Shape))
  /-- the bytes of strings, which cannot change -/
  | text (s : Bytes)
  /-- a map -/
  | map (k v : Shape)
  /-- the memory of a key of a map, which cannot change and cannot be pointed to otherwise -/
  | key (s : Shape) (x : Key)
  /-- the memory of a value of a map, which cannot be pointed to otherwise -/
  | elem (s : Shape)
  /-- nothing -/
  | other

/-- What is known of all allocations. -/
abbrev Types := List Kind

/-- The address is that of a slot of shape `s`. -/
def SlotAt (T : Types) (a : Addr) (s : Shape) : Prop := ∃ N sl, T[a.blk]? = some (.mem N sl) ∧ (a.off, s) ∈ sl

/-- The address is that of a message of type `t`. -/
def MsgAt (lay : Lay) (T : Types) (a : Addr) (t : TypeId) : Prop :=
  ∃ N sl, T[a.blk]? = some (.mem N sl) ∧ ∀ q ∈ lay.slots t, (a.off + q.1, q.2) ∈ sl

/-- The address is that of an array of `n` elements of shape `s`. -/
def ArrayAt (T : Types) (a : Addr) (s : Shape) (n : Nat) : Prop :=
  ∃ N sl, T[a.blk]? = some (.mem N sl) ∧ a.off % s.align = 0 ∧ a.off + n * s.size ≤ N ∧ ∀ i < n, (a.off + i * s.size, s) ∈ sl

/-- The cells of a slot make up a value of its Go type: in particular, its pointers lead to something of the right type. -/
def Sound (lay : Lay) (T : Types) : Shape → List Cell → Prop
  | .b8, cs => ∃ x, cs = [.byte x]
  | .w32, cs => ∃ s : Bytes, s.length = 4 ∧ cs = byteCells s
  | .w64, cs => ∃ s : Bytes, s.length = 8 ∧ cs = byteCells s
  | .str, cs => ∃ d n, cs = ptrCells d ++ intCells n ∧
      (n = 0 ∨ ∃ a s, d = some a ∧ T[a.blk]? = some (.text s) ∧ a.off + n ≤ s.length)
  | .bytes, cs => cs = sliceCells none 0 0 ∨ ∃ a n cap, cs = sliceCells (some a) n cap ∧ n ≤ cap ∧ ArrayAt T a .b8 cap
  | .opt s, cs => cs.length = (Shape.opt s).size ∧ (∃ x, cs.take 1 = [.byte x]) ∧ Sound lay T s ((cs.drop (optOff s)).take s.size)
  | .ptr s, cs => cs = ptrCells none ∨ ∃ a, cs = ptrCells (some a) ∧ SlotAt T a s
  | .msg t, cs => cs = ptrCells none ∨ ∃ a, cs = ptrCells (some a) ∧ MsgAt lay T a t
  | .slice s, cs => cs = sliceCells none 0 0 ∨ ∃ a n cap, cs = sliceCells (some a) n cap ∧ n ≤ cap ∧ ArrayAt T a s cap
  | .map k v, cs => cs = ptrCells none ∨ ∃ b, cs = ptrCells (some ⟨b, 0⟩) ∧ T[b]? = some (.map k v)
  | .opaque, cs => cs = []

/-- The cells hold a key. -/
def KeyCells (T : Types) : Shape → Key → List Cell → Prop
  | .b8, .b8 t, cs => ∃ x, cs = [.byte x] ∧ t = (x != 0#8)
  | .w32, .w32 x, cs => cs = byteCells (Spec.base256 4 x.toNat)
  | .w64, .w64 x, cs => cs = byteCells (Spec.base256 8 x.toNat)
  | .str, .str s, cs => ∃ d, cs = ptrCells d ++ intCells s.length ∧
      (s = [] ∨ ∃ a bs, d = some a ∧ T[a.blk]? = some (.text bs) ∧ (bs.drop a.off).take s.length = s)
  | _, _, _ => False

/-- The entries of a map have the given keys, and values of shape `v`. -/
inductive EntriesAt (T : Types) (k v : Shape) : List (Nat × Nat) → List Key → Prop
  | nil : EntriesAt T k v [] []
  | cons (e : Nat × Nat) (x : Key) (es : List (Nat × Nat)) (ks : List Key) : T[e.1]? = some (.key k x) →
      T[e.2]? = some (.elem v) → EntriesAt T k v es ks → EntriesAt T k v (e :: es) (x :: ks)

/-- Slots that are aligned, lie within the allocation and do not overlap. -/
def SlotsOK (N : Nat) (sl : List (Nat × Shape)) : Prop :=
  (∀ q ∈ sl, q.1 % q.2.align = 0 ∧ q.1 + q.2.size ≤ N) ∧
    ∀ p ∈ sl, ∀ q ∈ sl, p = q ∨ p.1 + p.2.size ≤ q.1 ∨ q.1 + q.2.size ≤ p.1

/-- An allocation is of a kind. -/
def ObjOK (lay : Lay) (T : Types) : Kind → Obj → Prop
  | .mem N sl, .mem cs => SlotsOK N sl ∧ cs.length = N ∧ ∀ q ∈ sl, Sound lay T q.2 ((cs.drop q.1).take q.2.size)
  | .text s, .ro s' => s' = s
  | .map k v, .map es => ∃ ks, EntriesAt T k v es ks ∧ ks.Nodup
  | .key s x, .mem cs => KeyCells T s x cs
  | .elem s, .mem cs => Sound lay T s cs
  | .other, _ => True
  | _, _ => False

/-- Memory agrees with what is known of it. -/
def Graph (lay : Lay) (T : Types) (m : Mem) : Prop :=
  T.length = m.length ∧ ∀ (b : Nat) κ o, T[b]? = some κ → m[b]? = some o → ObjOK lay T κ o

/-! ### Reading -/

/-- From the value of shape `s` at `a` a pointer leads to the message of type `t` at `p`. -/
inductive Leads (m : Mem) : Shape → Addr → TypeId → Addr → Prop
  | msg (t a p) : loadPtr m a = .ok (some p) → Leads m (.msg t) a t p
  | ptr (s a p t q) : loadPtr m a = .ok (some p) → Leads m s p t q → Leads m (.ptr s) a t q
  | slice (s a p n i t q) : loadPtr m a = .ok (some p) → loadInt m (a.add 8) = .ok n → i < n →
      Leads m s (p.add (i * s.size)) t q → Leads m (.slice s) a t q
  | map (k v a b es e t q) : loadPtr m a = .ok (some ⟨b, 0⟩) → m[b]? = some (.map es) → e ∈ es →
      Leads m v ⟨e.2, 0⟩ t q → Leads m (.map k v) a t q

/-- A tagged field of the message `x` leads to the message `y`. -/
def Below (lay : Lay) (env : Env) (m : Mem) (y x : TypeId × Addr) : Prop :=
  ∃ f ∈ (env x.1).fields, Leads m f.codec.shape (x.2.add (lay.off x.1 f.offset)) y.1 y.2

/-- There is no infinite path of messages from this one: `Acc` is Lean's accessibility, what is below is well-founded. -/
def Finite (lay : Lay) (env : Env) (m : Mem) (t : TypeId) (a : Addr) : Prop := Acc (Below lay env m) (t, a)

/-- `Shows lay env m s a v`: following all pointers from the value of shape `s` at `a` gives `v`; what is shared occurs several
times in `v`. Only tagged fields count. -/
inductive Shows (lay : Lay) (env : Env) (m : Mem) : Shape → Addr → Val → Prop
  | scalar (s a x) : s.isKey → loadVal m a s = .ok x → Shows lay env m s a x
  | bytes (a x) : loadBytes m a = .ok x → Shows lay env m .bytes a (.bytes x)
  | none (s a) : loadBool m a = .ok false → Shows lay env m (.opt s) a (.opt false s.zero)
  | some (s a v) : loadBool m a = .ok true → Shows lay env m s (a.add (optOff s)) v → Shows lay env m (.opt s) a (.opt true v)
  | ptrNil (s a) : loadPtr m a = .ok none → Shows lay env m (.ptr s) a .nilp
  | ptr (s a p v) : loadPtr m a = .ok (some p) → Shows lay env m s p v → Shows lay env m (.ptr s) a (.ptr v)
  | msgNil (t a) : loadPtr m a = .ok none → Shows lay env m (.msg t) a .nilp
  | msg (t a p vs) : loadPtr m a = .ok (some p) → vs.length = (lay.slots t).length →
      (∀ f ∈ (env t).fields, ∀ v, vs[f.offset]? = some v → Shows lay env m f.codec.shape (p.add (lay.off t f.offset)) v) →
      Shows lay env m (.msg t) a (.ptr (.struct vs))
  | sliceNil (s a) : loadPtr m a = .ok none → loadInt m (a.add 8) = .ok 0 → Shows lay env m (.slice s) a (.slice true [] [])
  | slice (s a p es) : loadPtr m a = .ok (some p) → loadInt m (a.add 8) = .ok es.length →
      (∀ (i : Nat) v, es[i]? = some v → Shows lay env m s (p.add (i * s.size)) v) →
      Shows lay env m (.slice s) a (.slice false es [])
  | mapNil (k v a) : loadPtr m a = .ok none → Shows lay env m (.map k v) a (.map true [])
  | map (k v a b es kvs) : loadPtr m a = .ok (some ⟨b, 0⟩) → m[b]? = some (.map es) → es.length = kvs.length →
      (∀ (i : Nat) e x, es[i]? = some e → kvs[i]? = some x → loadVal m ⟨e.1, 0⟩ k = .ok x.1.toVal) →
      (∀ (i : Nat) e x, es[i]? = some e → kvs[i]? = some x → Shows lay env m v ⟨e.2, 0⟩ x.2) →
      Shows lay env m (.map k v) a (.map false kvs)

/-- The message of type `t` at `a` unfolds to the tree `v`. -/
def Unfolds (lay : Lay) (env : Env) (m : Mem) (t : TypeId) (a : Addr) (v : Val) : Prop :=
  ∃ vs, v = .struct vs ∧ vs.length = (lay.slots t).length ∧
    ∀ f ∈ (env t).fields, ∀ v, vs[f.offset]? = some v → Shows lay env m f.codec.shape (a.add (lay.off t f.offset)) v

end Pb.Flat
