import Verif.Model.Wire
/-
Go memory as seen by the codecs through `unsafe.Pointer`.
-/
namespace Pb

/-- Contents of a Go map key slot. Protobuf allows integral, bool and string keys only. (Go float keys,
whose equality is not bitwise, are not modelled.) -/
inductive Key where
  | b8 (x : Bool)
  | w32 (x : U32)
  | w64 (x : U64)
  | str (s : Bytes)
deriving DecidableEq, Repr

/-- Contents of a memory slot. Pointers are followed, so a value is a finite tree: cyclic
messages (on which `Marshal` does not terminate) and sharing inside a message are modelled in `Model/Flat` only. -/
inductive Val where
  /-- `bool` -/
  | b8 (x : Bool)
  /-- `int32`, `uint32`, `float32` (bits) -/
  | w32 (x : U32)
  /-- `int64`, `uint64`, `float64` (bits) -/
  | w64 (x : U64)
  /-- `string` -/
  | str (s : Bytes)
  /-- `[]byte`; `none` is nil. -/
  | bytes (s : Option Bytes)
  /-- `Option[T]` (option.go:7-10), fields `some` and `value`. -/
  | opt (some : Bool) (v : Val)
  /-- a nil pointer -/
  | nilp
  /-- a non-nil pointer and what it points to -/
  | ptr (v : Val)
  /-- a struct: one slot per Go field, also the untagged and unexported ones -/
  | struct (fs : List Val)
  /-- any other slice (runtime_reflect/slice.go:5-9): whether it is nil, the elements below `len`, and the
  slots between `len` and `cap`, which keep whatever was stored there -/
  | slice (isNil : Bool) (es : List Val) (spare : List Val)
  /-- a Go map: whether it is nil, and its entries in some iteration order -/
  | map (isNil : Bool) (m : List (Key × Val))
  /-- memory of a field the library never looks at -/
  | opaque (n : Nat)
deriving Repr

/-- The value a map key slot holds, as a memory slot. -/
def Key.toVal : Key → Val
  | .b8 x => .b8 x
  | .w32 x => .w32 x
  | .w64 x => .w64 x
  | .str s => .str s

/-- The key held by a memory slot (only scalar slots can be map keys). -/
def Val.toKey? : Val → Option Key
  | .b8 x => some (.b8 x)
  | .w32 x => some (.w32 x)
  | .w64 x => some (.w64 x)
  | .str s => some (.str s)
  | _ => none

/-- `*(*bool)(p)` -/
def readB8 : Val → Except Fault Bool
  | .b8 x => .ok x
  | _ => .error .confused

/-- `*(*uint32)(p)`, `*(*int32)(p)`, `*(*float32)(p)`. Reading an 8-byte value this way yields its low
half on the little-endian 64-bit targets Go runs on (amd64, arm64, ...). -/
def read32 : Val → Except Fault U32
  | .w32 x => .ok x
  | .w64 x => .ok (x.setWidth 32)
  | _ => .error .confused

/-- `*(*uint64)(p)`, `*(*int64)(p)`, `*(*float64)(p)`. -/
def read64 : Val → Except Fault U64
  | .w64 x => .ok x
  | _ => .error .confused

/-- `*(*string)(p)`. The first two words of a slice header are a string header, so reading a `[]byte`
slot this way is well defined and yields its contents. -/
def readStr : Val → Except Fault Bytes
  | .str s => .ok s
  | .bytes (some s) => .ok s
  | .bytes none => .ok []
  | _ => .error .confused

/-- `*(*[]byte)(p)`. -/
def readBytes : Val → Except Fault (Option Bytes)
  | .bytes s => .ok s
  | _ => .error .confused

/-- `*(*bool)(p) = x` -/
def writeB8 (p : Val) (x : Bool) : Except Fault Val :=
  match p with
  | .b8 _ => .ok (.b8 x)
  | _ => .error .confused

/-- `*(*uint32)(p) = x` and the `int32`, `float32` variants. -/
def write32 (p : Val) (x : U32) : Except Fault Val :=
  match p with
  | .w32 _ => .ok (.w32 x)
  | _ => .error .confused

/-- `*(*uint64)(p) = x` and the `int64`, `float64` variants. -/
def write64 (p : Val) (x : U64) : Except Fault Val :=
  match p with
  | .w64 _ => .ok (.w64 x)
  | _ => .error .confused

/-- `*(*string)(p) = s` -/
def writeStr (p : Val) (s : Bytes) : Except Fault Val :=
  match p with
  | .str _ => .ok (.str s)
  | _ => .error .confused

mutual
/-- Nesting depth of a value: an upper bound for the recursion depth of `size`/`encode`. -/
def Val.depth : Val → Nat
  | .opt _ v => v.depth + 1
  | .ptr v => v.depth + 1
  | .struct fs => Val.depthL fs + 1
  | .slice _ es _ => Val.depthL es + 1
  | .map _ m => Val.depthM m + 1
  | _ => 0
/-- Maximum depth over a list. -/
def Val.depthL : List Val → Nat
  | [] => 0
  | v :: vs => max v.depth (Val.depthL vs)
/-- Maximum depth over map entries. -/
def Val.depthM : List (Key × Val) → Nat
  | [] => 0
  | (_, v) :: vs => max v.depth (Val.depthM vs)
end

mutual
/-- What a Go program can observe of a value short of re-slicing beyond `len`: the slots between the
length and the capacity of slices are dropped. -/
def Val.obs : Val → Val
  | .opt s v => .opt s v.obs
  | .ptr v => .ptr v.obs
  | .struct fs => .struct (Val.obsL fs)
  | .slice n es _ => .slice n (Val.obsL es) []
  | .map n m => .map n (Val.obsM m)
  | v => v
/-- `obs` on lists. -/
def Val.obsL : List Val → List Val
  | [] => []
  | v :: vs => v.obs :: Val.obsL vs
/-- `obs` on map entries. -/
def Val.obsM : List (Key × Val) → List (Key × Val)
  | [] => []
  | (k, v) :: vs => (k, v.obs) :: Val.obsM vs
end

end Pb
