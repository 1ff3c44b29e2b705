import Verif.Model.GenFile
/-
What a generator should declare for a .proto file: one type for every enum and every message, however deeply nested, and none for
the entry messages of maps.
-/
namespace Pb.Spec

/-- `Within file m`: the message `m` is declared in the file, on top or inside of another message. -/
inductive Within (file : ProtoFile) : MsgTree → Prop
  | top (m) : m ∈ file.messages → Within file m
  | inside (m n) : Within file m → n ∈ m.nested → Within file n

mutual
/-- The descriptors of a message and of all messages inside it. -/
def msgIds : MsgTree → List Nat
  | .node i _ _ ms => i :: msgsIds ms
/-- The same for several messages. -/
def msgsIds : List MsgTree → List Nat
  | [] => []
  | m :: ms => msgIds m ++ msgsIds ms
end

mutual
/-- The enums declared in a message and in all messages inside it. -/
def msgEnums : MsgTree → List Nat
  | .node _ _ es ms => es ++ msgsEnums ms
/-- The same for several messages. -/
def msgsEnums : List MsgTree → List Nat
  | [] => []
  | m :: ms => msgEnums m ++ msgsEnums ms
end

/-- No two messages and no two enums of the file share a descriptor. -/
def DistinctDecls (file : ProtoFile) : Prop :=
  (msgsIds file.messages).Nodup ∧ (file.enums ++ msgsEnums file.messages).Nodup

/-- `TypeDefault first k v`: the Go value `v` is the default value of fields of type `k` without default option. For an enum it is
the first value, `first`. -/
inductive TypeDefault (first : U32) : Kind → Val → Prop
  | bool : TypeDefault first .bool (.b8 false)
  | enum : TypeDefault first .enum (.w32 first)
  | num32 (k) : k = .int32 ∨ k = .sint32 ∨ k = .uint32 ∨ k = .sfixed32 ∨ k = .fixed32 ∨ k = .float → TypeDefault first k (.w32 0#32)
  | num64 (k) : k = .int64 ∨ k = .sint64 ∨ k = .uint64 ∨ k = .sfixed64 ∨ k = .fixed64 ∨ k = .double → TypeDefault first k (.w64 0#64)
  | string : TypeDefault first .string (.str [])
  | bytes : TypeDefault first .bytes (.bytes none)
  | message (t) : TypeDefault first (.message t) .nilp
  | group (t) : TypeDefault first (.group t) .nilp

/-- The default of a field: the one given in the .proto file, else that of the type. -/
inductive FieldDefault (first : U32) (k : Kind) : Option Val → Val → Prop
  | given (v) : FieldDefault first k (some v) v
  | none (v) : TypeDefault first k v → FieldDefault first k none v

/-- The value of a member of a oneof: what it was set to if it is the one that is set, else its default (`given` is the one in the
.proto file, if any). A nil pointer to a wrapper struct sets nothing. -/
inductive OneofGet (first : U32) (k : Kind) (given : Option Val) (member : Nat) : Receiver → Val → Prop
  | set (v) : OneofGet first k given member (.msg (.wrapper member v)) v
  | other (m v d) : m ≠ member → FieldDefault first k given d → OneofGet first k given member (.msg (.wrapper m v)) d
  | nilWrapper (m d) : FieldDefault first k given d → OneofGet first k given member (.msg (.nilWrapper m)) d
  | unset (d) : FieldDefault first k given d → OneofGet first k given member (.msg .none) d
  | nil (d) : FieldDefault first k given d → OneofGet first k given member .nil d

end Pb.Spec
