import Verif.Spec.Generator
import Verif.Spec.Read
/-
Messages as the protobuf documentation sees them: field numbers with values, no Go types, no memory; and how a reader of
the wire format builds them. This is what any other implementation of protobuf agrees on. Nothing here refers to the
library; only `Repr…`, at the end, says which Go values stand for which abstract messages.
-/
namespace Pb.Spec

/-- Keys of maps. -/
inductive PKey where
  | bool (b : Bool)
  | int (n : Int)
  | text (s : Bytes)
deriving DecidableEq, Repr

mutual
/-- Values. -/
inductive PVal where
  | bool (b : Bool)
  /-- integers of all types, and enums -/
  | int (n : Int)
  /-- floating point numbers, as bit patterns -/
  | float (bits : Nat)
  /-- strings and bytes -/
  | text (s : Bytes)
  | msg (m : Nat → PField)

/-- What a message has for a field number. -/
inductive PField where
  /-- no value: absent, or no such field -/
  | unset
  | one (v : PVal)
  /-- repeated fields -/
  | many (vs : List PVal)
  /-- map fields -/
  | entries (f : PKey → Option PVal)
end

/-- A message: what it has for each field number. -/
abbrev PMsg := Nat → PField

def PKey.val : PKey → PVal
  | .bool b => .bool b
  | .int n => .int n
  | .text s => .text s

/-- The default value of a type without default option; for messages, the message is given. -/
def kindDefault (m : TypeId → PMsg) : Kind → PVal
  | .bool => .bool false
  | .enum | .int32 | .sint32 | .uint32 | .int64 | .sint64 | .uint64 | .sfixed32 | .fixed32 | .sfixed64 | .fixed64 => .int 0
  | .float | .double => .float 0
  | .string | .bytes => .text []
  | .message t | .group t => .msg (m t)

/-- What a new message has for a field: fields without presence have the default. -/
def fieldDefault (f : ProtoField) : PField :=
  match f.label with
  | .repeated => .many []
  | .map _ => .entries fun _ => none
  | .implicit =>
    match f.kind with
    | .message _ | .group _ => .unset
    | k => .one (kindDefault (fun _ _ => .unset) k)
  | _ => .unset

/-- A new message: nothing is set. -/
def newMsg (P : Protos) (t : TypeId) : PMsg := fun n =>
  match (P t).find? fun f => f.number == n with
  | some f => fieldDefault f
  | none => .unset

/-- The default value of a type. -/
def newVal (P : Protos) (k : Kind) : PVal := kindDefault (newMsg P) k

/-- `Denotes k data v`: the payload `data` of a field of scalar type `k` is the value `v`. Integers that do not fit are
truncated. -/
inductive Denotes : Kind → Bytes → PVal → Prop
  | bool (data n) : Varint64 data n → Denotes .bool data (.bool (n ≠ 0))
  | enum (data) (n : Nat) : Varint64 data n → Denotes .enum data (.int ((n : Int).bmod (2 ^ 32)))
  | int32 (data) (n : Nat) : Varint64 data n → Denotes .int32 data (.int ((n : Int).bmod (2 ^ 32)))
  | int64 (data) (n : Nat) : Varint64 data n → Denotes .int64 data (.int ((n : Int).bmod (2 ^ 64)))
  | uint32 (data) (n : Nat) : Varint64 data n → Denotes .uint32 data (.int (n % 2 ^ 32))
  | uint64 (data) (n : Nat) : Varint64 data n → Denotes .uint64 data (.int n)
  | sint32 (data n) : Varint64 data n → Denotes .sint32 data (.int ((unzigzag n).bmod (2 ^ 32)))
  | sint64 (data n) : Varint64 data n → Denotes .sint64 data (.int (unzigzag n))
  | fixed32 (n : Nat) : n < 2 ^ 32 → Denotes .fixed32 (base256 4 n) (.int n)
  | fixed64 (n : Nat) : n < 2 ^ 64 → Denotes .fixed64 (base256 8 n) (.int n)
  | sfixed32 (n : Nat) : n < 2 ^ 32 → Denotes .sfixed32 (base256 4 n) (.int ((n : Int).bmod (2 ^ 32)))
  | sfixed64 (n : Nat) : n < 2 ^ 64 → Denotes .sfixed64 (base256 8 n) (.int ((n : Int).bmod (2 ^ 64)))
  | float (n : Nat) : n < 2 ^ 32 → Denotes .float (base256 4 n) (.float n)
  | double (n : Nat) : n < 2 ^ 64 → Denotes .double (base256 8 n) (.float n)
  | string (data s) : BytesAs data s → Denotes .string data (.text s)
  | bytes (data s) : BytesAs data s → Denotes .bytes data (.text s)

/-- The message with what it has for one number replaced. -/
def PMsg.put (m : PMsg) (n : Nat) (x : PField) : PMsg := fun k => if k = n then x else m k

/-- The map with one entry set. -/
def putEntry (f : PKey → Option PVal) (k : PKey) (v : PVal) : PKey → Option PVal := fun x => if x = k then some v else f x

mutual
/-- `ParseOnto P k old data new`: the payload `data` of a field of type `k` whose value so far is `old` makes it `new`.
Scalars are replaced, messages merged. Bools have the one byte every encoder writes (longer ones are legal, see C28). -/
inductive ParseOnto (P : Protos) : Kind → PVal → Bytes → PVal → Prop
  | scalar (k old data new) : Denotes k data new → (k = .bool → data.length = 1) → ParseOnto P k old data new
  | message (t m data body rs m') : BytesAs data body → Records body rs → ParseMsg P t m rs m' →
      ParseOnto P (.message t) (.msg m) data (.msg m')

/-- `ParseField P l k old data new`: the same for fields with label `l`. Packed fields and oneofs are not covered. -/
inductive ParseField (P : Protos) : Label → Kind → PField → Bytes → PField → Prop
  | set (l k old data new) : l = .implicit ∨ l = .optional → ParseOnto P k old data new →
      ParseField P l k (.one old) data (.one new)
  /-- fields that are not set start with the default -/
  | first (l k data new) : l = .implicit ∨ l = .optional → ParseOnto P k (newVal P k) data new →
      ParseField P l k .unset data (.one new)
  /-- repeated fields grow by one value -/
  | repeated (k vs data new) : ParseOnto P k (newVal P k) data new →
      ParseField P .repeated k (.many vs) data (.many (vs ++ [new]))
  /-- maps get one entry; the entry is a message with key 1 and value 2 -/
  | map (key k f data body rs x v) : BytesAs data body → Records body rs →
      ParseEntry P key k (newVal P key) (newVal P k) rs x.val v →
      ParseField P (.map key) k (.entries f) data (.entries (putEntry f x v))

/-- `ParseMsg P t m rs m'`: the records `rs` of a message of type `t` turn `m` into `m'`. -/
inductive ParseMsg (P : Protos) : TypeId → PMsg → List (Nat × Nat × Bytes) → PMsg → Prop
  | nil (t m) : ParseMsg P t m [] m
  /-- unknown fields are skipped -/
  | unknown (t m n w data rs m') : (∀ f ∈ P t, f.number ≠ n) → ParseMsg P t m rs m' → ParseMsg P t m ((n, w, data) :: rs) m'
  | known (t m f data rs x m') : f ∈ P t → ParseField P f.label f.kind (m f.number) data x →
      ParseMsg P t (m.put f.number x) rs m' → ParseMsg P t m ((f.number, fieldWire f, data) :: rs) m'

/-- `ParseEntry P key k x v rs x' v'`: the records `rs` of a map entry turn key `x` and value `v` into `x'`, `v'`. -/
inductive ParseEntry (P : Protos) : Kind → Kind → PVal → PVal → List (Nat × Nat × Bytes) → PVal → PVal → Prop
  | nil (key k x v) : ParseEntry P key k x v [] x v
  | unknown (key k x v n w data rs x' v') : n ≠ 1 → n ≠ 2 → ParseEntry P key k x v rs x' v' →
      ParseEntry P key k x v ((n, w, data) :: rs) x' v'
  | key (key k x v data rs x1 x' v') : ParseOnto P key x data x1 → ParseEntry P key k x1 v rs x' v' →
      ParseEntry P key k x v ((1, kindWire key, data) :: rs) x' v'
  | value (key k x v data rs v1 x' v') : ParseOnto P k v data v1 → ParseEntry P key k x v1 rs x' v' →
      ParseEntry P key k x v ((2, kindWire k, data) :: rs) x' v'
end

/-- `Parses P t b m`: a reader of messages of type `t` takes the bytes `b` for the message `m`. -/
def Parses (P : Protos) (t : TypeId) (b : Bytes) (m : PMsg) : Prop := ∃ rs, Records b rs ∧ ParseMsg P t (newMsg P t) rs m

mutual
/-- No map inside is empty. -/
inductive FullVal : PVal → Prop
  | bool (b) : FullVal (.bool b)
  | int (n) : FullVal (.int n)
  | float (n) : FullVal (.float n)
  | text (s) : FullVal (.text s)
  | msg (m : Nat → PField) : (∀ n, FullField (m n)) → FullVal (.msg m)

/-- No map inside is empty, nor is the field itself an empty map. -/
inductive FullField : PField → Prop
  | unset : FullField .unset
  | one (v) : FullVal v → FullField (.one v)
  | many (vs : List PVal) : (∀ v ∈ vs, FullVal v) → FullField (.many vs)
  | entries (f : PKey → Option PVal) (x v) : f x = some v → (∀ x v, f x = some v → FullVal v) → FullField (.entries f)
end

/-! ### Go values -/

/-- `ScalarIs k v p`: the Go value `v` of a field of scalar type `k` is the value `p`. -/
inductive ScalarIs : Kind → Val → PVal → Prop
  | bool (b) : ScalarIs .bool (.b8 b) (.bool b)
  | enum (x : U32) : ScalarIs .enum (.w32 x) (.int x.toInt)
  | int32 (x : U32) : ScalarIs .int32 (.w32 x) (.int x.toInt)
  | int64 (x : U64) : ScalarIs .int64 (.w64 x) (.int x.toInt)
  | uint32 (x : U32) : ScalarIs .uint32 (.w32 x) (.int x.toNat)
  | uint64 (x : U64) : ScalarIs .uint64 (.w64 x) (.int x.toNat)
  | sint32 (x : U32) : ScalarIs .sint32 (.w32 x) (.int x.toInt)
  | sint64 (x : U64) : ScalarIs .sint64 (.w64 x) (.int x.toInt)
  | fixed32 (x : U32) : ScalarIs .fixed32 (.w32 x) (.int x.toNat)
  | fixed64 (x : U64) : ScalarIs .fixed64 (.w64 x) (.int x.toNat)
  | float (x : U32) : ScalarIs .float (.w32 x) (.float x.toNat)
  | double (x : U64) : ScalarIs .double (.w64 x) (.float x.toNat)
  | string (s) : ScalarIs .string (.str s) (.text s)

mutual
/-- `ReprVal P k v p`: the Go value `v`, not nil, of a field or element of type `k` is the value `p`. -/
inductive ReprVal (P : Protos) : Kind → Val → PVal → Prop
  | scalar (k v p) : ScalarIs k v p → ReprVal P k v p
  | bytes (s) : ReprVal P .bytes (.bytes (some s)) (.text s)
  | message (t vs m) : ReprMsg P t vs m → ReprVal P (.message t) (.ptr (.struct vs)) (.msg m)

/-- `ReprSlot P k v p`: the same where nil stands for the default: values of maps. -/
inductive ReprSlot (P : Protos) : Kind → Val → PVal → Prop
  | val (k v p) : ReprVal P k v p → ReprSlot P k v p
  | bytesNil : ReprSlot P .bytes (.bytes none) (.text [])
  | messageNil (t) : ReprSlot P (.message t) .nilp (.msg (newMsg P t))

/-- `ReprField P l k v x`: the contents `v` of a struct field generated for a field of type `k` with label `l`. -/
inductive ReprField (P : Protos) : Label → Kind → Val → PField → Prop
  | scalar (k v p) : ScalarIs k v p → ReprField P .implicit k v (.one p)
  /-- implicit presence: nil and empty byte slices are the same -/
  | bytes (s) : ReprField P .implicit .bytes (.bytes (some s)) (.one (.text s))
  | bytesNil : ReprField P .implicit .bytes (.bytes none) (.one (.text []))
  | message (l t vs m) : l = .implicit ∨ l = .optional → ReprMsg P t vs m →
      ReprField P l (.message t) (.ptr (.struct vs)) (.one (.msg m))
  | messageNil (l t) : l = .implicit ∨ l = .optional → ReprField P l (.message t) .nilp .unset
  | some (k v p) : ScalarIs k v p → ReprField P .optional k (.opt true v) (.one p)
  | none (k v) : ReprField P .optional k (.opt false v) .unset
  | optBytes (s) : ReprField P .optional .bytes (.bytes (some s)) (.one (.text s))
  | optBytesNil : ReprField P .optional .bytes (.bytes none) .unset
  /-- no nil elements; there must be nothing left over in the spare capacity of slices of messages (see C14) -/
  | repeated (k isNil es spare ps) : (∀ t, k = .message t → ∀ v ∈ spare, v = .nilp) → ReprList P k es ps →
      ReprField P .repeated k (.slice isNil es spare) (.many ps)
  | map (key k isNil m ps f) : ReprEntries P key k m ps → (∀ e ∈ ps, f e.1 = .some e.2) →
      (∀ x, (∀ e ∈ ps, e.1 ≠ x) → f x = .none) → ReprField P (.map key) k (.map isNil m) (.entries f)

/-- The elements of a repeated field. -/
inductive ReprList (P : Protos) : Kind → List Val → List PVal → Prop
  | nil (k) : ReprList P k [] []
  | cons (k v p es ps) : ReprVal P k v p → ReprList P k es ps → ReprList P k (v :: es) (p :: ps)

/-- The entries of a map, in any order. -/
inductive ReprEntries (P : Protos) : Kind → Kind → List (Key × Val) → List (PKey × PVal) → Prop
  | nil (key k) : ReprEntries P key k [] []
  | cons (key k x v px pv m ps) : ScalarIs key (Key.toVal x) px.val → ReprSlot P k v pv → ReprEntries P key k m ps →
      ReprEntries P key k ((x, v) :: m) ((px, pv) :: ps)

/-- `ReprMsg P t vs m`: the Go struct with fields `vs` is the message `m`. The fields of the struct are those of the message,
in the same order (there are no oneofs). -/
inductive ReprMsg (P : Protos) : TypeId → List Val → PMsg → Prop
  | mk (t vs) (m : PMsg) : (∀ (i : Nat) f v, (P t)[i]? = .some f → vs[i]? = .some v → ReprField P f.label f.kind v (m f.number)) →
      (∀ n, (∀ f ∈ P t, f.number ≠ n) → m n = .unset) → ReprMsg P t vs m
end

/-- No field belongs to a oneof. -/
def NoOneofs (P : Protos) : Prop := ∀ t, ∀ f ∈ P t, ¬ InOneof f

end Pb.Spec
