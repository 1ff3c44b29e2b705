import Verif.Spec.Typing
/-
What a message holds in memory: string bytes, elements, nested messages, capacity.
-/
namespace Pb

/-- Bytes a map key holds. -/
def Key.held : Key → Nat
  | .str s => s.length
  | _ => 0

mutual
/-- Total of what a value holds: 1 for every byte of a string or byte slice (also of map keys), `ce` for every element of
a repeated field and every entry of a map, `cm` for every message. What sits in the slots between the length and the
capacity of a slice counts too (but not the empty slots themselves, see `Val.capOK`). -/
def Val.total (ce cm : Nat) : Val → Nat
  | .str s => s.length
  | .bytes (some s) => s.length
  | .opt _ v => v.total ce cm
  | .ptr v => v.total ce cm
  | .struct fs => cm + Val.totalL ce cm fs
  | .slice _ es sp => ce * es.length + Val.totalL ce cm es + Val.totalL ce cm sp
  | .map _ m => ce * m.length + Val.totalM ce cm m
  | _ => 0
/-- `total` of a list. -/
def Val.totalL (ce cm : Nat) : List Val → Nat
  | [] => 0
  | v :: vs => v.total ce cm + Val.totalL ce cm vs
/-- `total` of map entries. -/
def Val.totalM (ce cm : Nat) : List (Key × Val) → Nat
  | [] => 0
  | (k, v) :: vs => k.held + v.total ce cm + Val.totalM ce cm vs
end

mutual
/-- Bytes of all strings and byte slices. -/
def Val.chars : Val → Nat
  | .str s => s.length
  | .bytes (some s) => s.length
  | .opt _ v => v.chars
  | .ptr v => v.chars
  | .struct fs => Val.charsL fs
  | .slice _ es sp => Val.charsL es + Val.charsL sp
  | .map _ m => Val.charsM m
  | _ => 0
/-- `chars` of a list. -/
def Val.charsL : List Val → Nat
  | [] => 0
  | v :: vs => v.chars + Val.charsL vs
/-- `chars` of map entries. -/
def Val.charsM : List (Key × Val) → Nat
  | [] => 0
  | (k, v) :: vs => k.held + v.chars + Val.charsM vs
end

mutual
/-- Number of elements of all repeated fields and entries of all maps. -/
def Val.elements : Val → Nat
  | .opt _ v => v.elements
  | .ptr v => v.elements
  | .struct fs => Val.elementsL fs
  | .slice _ es sp => es.length + Val.elementsL es + Val.elementsL sp
  | .map _ m => m.length + Val.elementsM m
  | _ => 0
/-- `elements` of a list. -/
def Val.elementsL : List Val → Nat
  | [] => 0
  | v :: vs => v.elements + Val.elementsL vs
/-- `elements` of map entries. -/
def Val.elementsM : List (Key × Val) → Nat
  | [] => 0
  | (_, v) :: vs => v.elements + Val.elementsM vs
end

mutual
/-- Number of messages, the message itself included. -/
def Val.messages : Val → Nat
  | .opt _ v => v.messages
  | .ptr v => v.messages
  | .struct fs => 1 + Val.messagesL fs
  | .slice _ es sp => Val.messagesL es + Val.messagesL sp
  | .map _ m => Val.messagesM m
  | _ => 0
/-- `messages` of a list. -/
def Val.messagesL : List Val → Nat
  | [] => 0
  | v :: vs => v.messages + Val.messagesL vs
/-- `messages` of map entries. -/
def Val.messagesM : List (Key × Val) → Nat
  | [] => 0
  | (_, v) :: vs => v.messages + Val.messagesM vs
end

/-- `HoldsText v s`: the string or byte slice `s` occurs in the value (below the length of slices). -/
inductive HoldsText : Val → Bytes → Prop
  | str (s) : HoldsText (.str s) s
  | bytes (s) : HoldsText (.bytes (some s)) s
  | opt (b v s) : HoldsText v s → HoldsText (.opt b v) s
  | ptr (v s) : HoldsText v s → HoldsText (.ptr v) s
  | field (vs v s) : v ∈ vs → HoldsText v s → HoldsText (.struct vs) s
  | elem (n es sp v s) : v ∈ es → HoldsText v s → HoldsText (.slice n es sp) s
  | key (n m k v s) : (k, v) ∈ m → HoldsText k.toVal s → HoldsText (.map n m) s
  | val (n m k v s) : (k, v) ∈ m → HoldsText v s → HoldsText (.map n m) s

mutual
/-- Everywhere in the value, the capacity of a slice is at most ten or twice its length. -/
def Val.capOK : Val → Prop
  | .opt _ v => v.capOK
  | .ptr v => v.capOK
  | .struct fs => Val.capOKL fs
  | .slice _ es sp => es.length + sp.length ≤ max 10 (2 * es.length) ∧ Val.capOKL es ∧ Val.capOKL sp
  | .map _ m => Val.capOKM m
  | _ => True
/-- `capOK` of a list. -/
def Val.capOKL : List Val → Prop
  | [] => True
  | v :: vs => v.capOK ∧ Val.capOKL vs
/-- `capOK` of map entries. -/
def Val.capOKM : List (Key × Val) → Prop
  | [] => True
  | (_, v) :: vs => v.capOK ∧ Val.capOKM vs
end

/-- Memory of a single value: no slice (other than `[]byte`) and no map outside nested messages. -/
def Shape.single : Shape → Prop
  | .slice _ | .map _ _ => False
  | .ptr s => s.single
  | _ => True

/-- Memory of a field: a single value, or a slice or map of single values. -/
def Shape.flat : Shape → Prop
  | .slice s => s.single
  | .map k v => k.single ∧ v.single
  | .ptr s => s.single
  | _ => True

/-- No field is a slice of slices, a map of slices and so on. -/
def FlatEnv (env : Env) : Prop := ∀ t, ∀ f ∈ (env t).fields, f.codec.shape.flat

end Pb
