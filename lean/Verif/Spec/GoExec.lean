import Verif.Spec.GoSyntax
import Verif.Model.Api
/-
What Go programs do (The Go Programming Language Specification, sections "Expressions", "Statements", "Conversions", "Constants"), for
the part of the language in Spec/GoSyntax, on a 64-bit machine. `Fault.confused` also stands for programs that do not compile, and for
what goes beyond this part of Go.

Byte slices are values (whether nil, and contents up to the length; sharing is the subject of `Model/Heap`), pointers point into one
memory slot, whose contents and accesses are those of `Model/Value`. Calls into the standard library are specified here.
-/
namespace Pb.Go

/-! ### types and values -/

inductive Ty where
  | int | uint | u8 | u32 | u64 | i32 | i64 | f32 | f64 | bool | str | bytes | err | uptr | uintptr
  | option (t : Ty)
  | ptr (t : Ty)
  | structField | structInfo
  /-- `Slice` and `MapIter` of runtime_reflect, `reflect.Type` -/
  | slice | mapIter | rtype
  /-- `interface{}` -/
  | iface
deriving DecidableEq, Repr

/-- Steps from a memory slot to a part of it: the field `value` of an `Option`, a field of a struct, what a pointer points to, an
element of a slice up to its capacity, what a map, which is a pointer, points to, the key and the value of an entry of a map. -/
inductive Step where
  | value
  | slot (i : Nat)
  | deref
  | elem (i : Nat)
  | entries
  | key (i : Nat)
  | entry (i : Nat)
deriving DecidableEq, Repr

/-- Types as `reflect` tells them: message structs, pointers, and the rest, of which only the `Kind` is known. -/
inductive RType where
  | other (kind : BitVec 64)
  | struct (t : TypeId)
  | ptr (t : RType)
deriving DecidableEq, Repr

/-- The `Kind` of a type: `reflect.Ptr` is 22, and `reflect.Struct` is 25. -/
def RType.kind : RType → BitVec 64
  | .other k => k
  | .struct _ => 25#64
  | .ptr _ => 22#64

/-- Values. -/
inductive V where
  /-- constant without a type -/
  | const (n : Int)
  | nil
  | int (x : BitVec 64) | uint (x : BitVec 64) | u8 (x : BitVec 8) | u32 (x : BitVec 32) | u64 (x : BitVec 64) | i32 (x : BitVec 32)
  | i64 (x : BitVec 64)
  | bool (b : Bool)
  | str (s : Bytes)
  | bytes (s : Option Bytes)
  /-- floating-point numbers by their bits -/
  | f32 (x : BitVec 32) | f64 (x : BitVec 64)
  /-- the `float64` with the value of this `float32` -/
  | f64of (x : BitVec 32)
  | err (e : Option Err)
  /-- a pointer that is not nil, and what it points to; `t` is `unsafe.Pointer` or `*T` -/
  | ptr (path : List Step) (t : Ty)
  /-- a nil pointer of type `t` -/
  | null (t : Ty)
  /-- `uintptr(p)`; the offset of a field; the distance of elements of a slice -/
  | addr (path : List Step)
  | off (i : Nat)
  | elemSize
  /-- a type by its zero value, a new variable of this type: its `reflect.Value`, address, and a pointer to it -/
  | rtype (zero : Val)
  | rvalue (zero : Val)
  | newaddr (zero : Val)
  | newptr (zero : Val)
  /-- a `Slice`: its elements and the slots up to its capacity -/
  | slice (es spare : List Val)
  /-- a `MapIter`: the map, unless it is nil, and the number of the entry it is at -/
  | iter (path : Option (List Step)) (i : Nat)
  /-- a new map; it has no entries -/
  | newmap
  /-- a `*sync.Pool`: what `Get` gives, if anything -/
  | pool (got : Option (List Step))
  /-- a type whose new variable is at this place, where its zero value is; the `reflect.Value` of this variable's address -/
  | fresh (path : List Step)
  /-- `*mapField` (map.go:14-18) -/
  | mapField (i : MapInfo) (kc vc : Codec)
  /-- an `Option` -/
  | opt (some : Bool) (v : Val)
  /-- `*structField` -/
  | field (f : Option Field)
  /-- `*structInfo` that is not nil, and two of its parts -/
  | info (fs : List Field)
  | fields (fs : List Field)
  | fieldIndex (fs : List Field)
  /-- `*codec` -/
  | codec (c : Codec)
  /-- a `reflect.Type`, or nil -/
  | gotype (t : Option RType)
  /-- an `interface{}`: the type, or nil, and the second word -/
  | iface (t : Option RType) (w : V)
  /-- an error of proto.go -/
  | apierr (e : ApiErr)
  | tuple (vs : List V)
  | spread (v : V)

/-- What a type expression means. `fieldNumber` and `wireType` are unsigned integers (proto.go:76-78). -/
def tyOf : Expr → Option Ty
  | .ident n =>
    if n = t!"int" then some .int
    else if n = t!"uint64" then some .u64
    else if n = t!"uint32" then some .u32
    else if n = t!"int64" then some .i64
    else if n = t!"int32" then some .i32
    else if n = t!"byte" then some .u8
    else if n = t!"bool" then some .bool
    else if n = t!"string" then some .str
    else if n = t!"error" then some .err
    else if n = t!"float32" then some .f32
    else if n = t!"float64" then some .f64
    else if n = t!"uint" then some .uint
    else if n = t!"fieldNumber" then some .uint
    else if n = t!"wireType" then some .uint
    else if n = t!"structField" then some .structField
    else if n = t!"structInfo" then some .structInfo
    else if n = t!"uintptr" then some .uintptr
    else if n = t!"Slice" then some .slice
    else if n = t!"interface{}" then some .iface
    else none
  | .un .sliceOf e => if tyOf e = some .u8 then some .bytes else none
  | .un .deref e => (tyOf e).map .ptr
  | .sel (.ident p) n =>
    if p = t!"unsafe" ∧ n = t!"Pointer" then some .uptr
    else if p = t!"reflect" ∧ n = t!"Type" then some .rtype
    else none
  | .index (.ident n) e => if n = t!"Option" then (tyOf e).map .option else none
  | _ => none

/-! ### memory -/

/-- What is there. -/
def getPath : List Step → Val → Except Fault Val
  | [], v => .ok v
  | .value :: r, .opt _ v => getPath r v
  | .slot i :: r, .struct vs =>
    match vs[i]? with
    | some v => getPath r v
    | none => .error .confused
  | .deref :: r, .ptr v => getPath r v
  | .elem i :: r, .slice _ es sp =>
    match (es ++ sp)[i]? with
    | some v => getPath r v
    | none => .error .confused
  | .entries :: r, .map n es => getPath r (.map n es)
  | .key i :: r, .map _ es =>
    match es[i]? with
    | some e => getPath r e.1.toVal
    | none => .error .confused
  | .entry i :: r, .map _ es =>
    match es[i]? with
    | some e => getPath r e.2
    | none => .error .confused
  | _, _ => .error .confused

/-- Maps are only read through pointers. -/
def Step.writable : Step → Bool
  | .entries | .key _ | .entry _ => false
  | _ => true

/-- Not inside a map. -/
def Writable (p : List Step) : Prop := ∀ s ∈ p, s.writable = true

instance (p : List Step) : Decidable (Writable p) := inferInstanceAs (Decidable (∀ s ∈ p, s.writable = true))

/-- Put `x` there. -/
def setPath (x : Val) : List Step → Val → Except Fault Val
  | [], _ => .ok x
  | .value :: r, .opt s v =>
    match setPath x r v with
    | .ok v => .ok (.opt s v)
    | .error f => .error f
  | .slot i :: r, .struct vs =>
    match vs[i]? with
    | some v =>
      match setPath x r v with
      | .ok v => .ok (.struct (vs.set i v))
      | .error f => .error f
    | none => .error .confused
  | .deref :: r, .ptr v =>
    match setPath x r v with
    | .ok v => .ok (.ptr v)
    | .error f => .error f
  | .elem i :: r, .slice n es sp =>
    match (es ++ sp)[i]? with
    | some v =>
      match setPath x r v with
      | .ok v => .ok (if i < es.length then .slice n (es.set i v) sp else .slice n es (sp.set (i - es.length) v))
      | .error f => .error f
    | none => .error .confused
  | _, _ => .error .confused

/-- `*(*T)(p)` -/
def load : Ty → Val → Except Fault V
  | .bool, v => (readB8 v).map .bool
  | .i32, v => (read32 v).map .i32
  | .u32, v => (read32 v).map .u32
  | .f32, v => (read32 v).map .f32
  | .i64, v => (read64 v).map .i64
  | .u64, v => (read64 v).map .u64
  | .f64, v => (read64 v).map .f64
  | .str, v => (readStr v).map .str
  | .bytes, v => (readBytes v).map .bytes
  | .option _, .opt s v => .ok (.opt s v)
  | .slice, .slice _ es sp => .ok (.slice es sp)
  | _, _ => .error .confused

/-- `*(*unsafe.Pointer)(p)`: a pointer, or a map. -/
def loadPtr (p : List Step) : Val → Except Fault V
  | .nilp => .ok (.null .uptr)
  | .ptr _ => .ok (.ptr (p ++ [.deref]) .uptr)
  | .map true _ => .ok (.null .uptr)
  | .map false _ => .ok (.ptr (p ++ [.entries]) .uptr)
  | _ => .error .confused

/-- The contents of a slot of type `T` after `*(*T)(p) = x`. -/
def store : Ty → Val → V → Except Fault Val
  | .bool, v, .bool b => writeB8 v b
  | .i32, v, .i32 x => write32 v x
  | .u32, v, .u32 x => write32 v x
  | .f32, v, .f32 x => write32 v x
  | .i64, v, .i64 x => write64 v x
  | .u64, v, .u64 x => write64 v x
  | .f64, v, .f64 x => write64 v x
  | .str, v, .str s => writeStr v s
  | .bytes, .bytes _, .bytes s => .ok (.bytes s)
  | .uptr, .nilp, .newptr z => .ok (.ptr z)
  | .uptr, .ptr _, .newptr z => .ok (.ptr z)
  -- a nil map has no entries: `es` is empty
  | .uptr, .map true es, .newmap => .ok (.map false es)
  | .slice, .slice _ _ _, .slice es sp => .ok (.slice false es sp)
  | _, _, _ => .error .confused

/-! ### operators -/

/-- A constant as a value of the type; the compiler checks the range. -/
def ofConst (n : Int) : Ty → Except Fault V
  | .int => if -(2 ^ 63) ≤ n ∧ n < 2 ^ 63 then .ok (.int (BitVec.ofInt 64 n)) else .error .confused
  | .i64 => if -(2 ^ 63) ≤ n ∧ n < 2 ^ 63 then .ok (.i64 (BitVec.ofInt 64 n)) else .error .confused
  | .uint => if 0 ≤ n ∧ n < 2 ^ 64 then .ok (.uint (BitVec.ofInt 64 n)) else .error .confused
  | .u64 => if 0 ≤ n ∧ n < 2 ^ 64 then .ok (.u64 (BitVec.ofInt 64 n)) else .error .confused
  | .u32 => if 0 ≤ n ∧ n < 2 ^ 32 then .ok (.u32 (BitVec.ofInt 32 n)) else .error .confused
  | .i32 => if -(2 ^ 31) ≤ n ∧ n < 2 ^ 31 then .ok (.i32 (BitVec.ofInt 32 n)) else .error .confused
  | .u8 => if 0 ≤ n ∧ n < 2 ^ 8 then .ok (.u8 (BitVec.ofInt 8 n)) else .error .confused
  | .f32 => if n = 0 then .ok (.f32 0#32) else .error .confused
  | .f64 => if n = 0 then .ok (.f64 0#64) else .error .confused
  | _ => .error .confused

/-- The type of a value, where one is needed for constants and nil. -/
def V.ty : V → Option Ty
  | .int _ => some .int
  | .uint _ => some .uint
  | .u8 _ => some .u8
  | .u32 _ => some .u32
  | .u64 _ => some .u64
  | .i32 _ => some .i32
  | .i64 _ => some .i64
  | .f32 _ => some .f32
  | .f64 _ => some .f64
  | .bool _ => some .bool
  | .str _ => some .str
  | .bytes _ => some .bytes
  | .err _ => some .err
  | .ptr _ t => some t
  | .null t => some t
  | .addr _ => some .uintptr
  | .off _ => some .uintptr
  | .elemSize => some .uintptr
  | .rtype _ => some .rtype
  | .newptr _ => some .uptr
  | .newmap => some .uptr
  | .newaddr _ => some .uintptr
  | .slice _ _ => some .slice
  | .iter _ _ => some .mapIter
  | .field _ => some (.ptr .structField)
  | .info _ => some (.ptr .structInfo)
  | .gotype _ => some .rtype
  | .iface _ _ => some .iface
  | .apierr _ => some .err
  | _ => none

/-- The value as one of type `t`, in assignments, arguments, results and operands: constants and nil take the type, other values
have it. -/
def assignable (t : Ty) : V → Except Fault V
  | .const n => ofConst n t
  | .nil =>
    match t with
    | .bytes => .ok (.bytes none)
    | .err => .ok (.err none)
    | .ptr .structField => .ok (.field none)
    | _ => .error .confused
  | v => if v.ty = some t then .ok v else .error .confused

/-- Floating-point numbers are equal if they have the same bits and are numbers, or are both zero. -/
def f32Eq (x y : BitVec 32) : Bool :=
  let nan (x : BitVec 32) := decide (0x7f800000#32 < x &&& 0x7fffffff#32)
  !nan x && !nan y && (x == y || (x &&& 0x7fffffff#32 == 0#32 && y &&& 0x7fffffff#32 == 0#32))

def f64Eq (x y : BitVec 64) : Bool :=
  let nan (x : BitVec 64) := decide (0x7ff0000000000000#64 < x &&& 0x7fffffffffffffff#64)
  !nan x && !nan y && (x == y || (x &&& 0x7fffffffffffffff#64 == 0#64 && y &&& 0x7fffffffffffffff#64 == 0#64))

/-- Operators on integers of one type. -/
def intOp {w : Nat} (mk : BitVec w → V) (signed : Bool) (x y : BitVec w) : BinOp → Except Fault V
  | .add => .ok (mk (x + y))
  | .sub => .ok (mk (x - y))
  | .mul => .ok (mk (x * y))
  | .div => if y = 0#w then .error .panic else .ok (mk (if signed then x.sdiv y else x / y))
  | .rem => if y = 0#w then .error .panic else .ok (mk (if signed then x.srem y else x % y))
  | .and => .ok (mk (x &&& y))
  | .or => .ok (mk (x ||| y))
  | .xor => .ok (mk (x ^^^ y))
  | .eq => .ok (.bool (x == y))
  | .ne => .ok (.bool (x != y))
  | .lt => .ok (.bool (if signed then x.slt y else decide (x < y)))
  | .le => .ok (.bool (if signed then x.sle y else decide (x ≤ y)))
  | .gt => .ok (.bool (if signed then y.slt x else decide (y < x)))
  | .ge => .ok (.bool (if signed then y.sle x else decide (y ≤ x)))
  | _ => .error .confused

/-- Operators on constants. -/
def constOp (x y : Int) : BinOp → Except Fault V
  | .add => .ok (.const (x + y))
  | .sub => .ok (.const (x - y))
  | .mul => .ok (.const (x * y))
  | .shl => if 0 ≤ y then .ok (.const (x * 2 ^ y.toNat)) else .error .confused
  | _ => .error .confused

/-- Comparison of values for which there is equality only. -/
def eqOp (b : Bool) : BinOp → Except Fault V
  | .eq => .ok (.bool b)
  | .ne => .ok (.bool !b)
  | _ => .error .confused

/-- The number of places in a shift. -/
def shiftCount : V → Except Fault Nat
  | .const n => if 0 ≤ n then .ok n.toNat else .error .confused
  | .int x => if x.msb then .error .panic else .ok x.toNat
  | .uint x => .ok x.toNat
  | .u64 x => .ok x.toNat
  | .u32 x => .ok x.toNat
  | .u8 x => .ok x.toNat
  | _ => .error .confused

def shiftLeft (v : V) (n : Nat) : Except Fault V :=
  match v with
  | .const x => .ok (.const (x * 2 ^ n))
  | .int x => .ok (.int (x <<< n))
  | .uint x => .ok (.uint (x <<< n))
  | .u64 x => .ok (.u64 (x <<< n))
  | .i64 x => .ok (.i64 (x <<< n))
  | .u32 x => .ok (.u32 (x <<< n))
  | .i32 x => .ok (.i32 (x <<< n))
  | .u8 x => .ok (.u8 (x <<< n))
  | _ => .error .confused

/-- Signed integers keep their sign. -/
def shiftRight (v : V) (n : Nat) : Except Fault V :=
  match v with
  | .int x => .ok (.int (x.sshiftRight n))
  | .uint x => .ok (.uint (x >>> n))
  | .u64 x => .ok (.u64 (x >>> n))
  | .i64 x => .ok (.i64 (x.sshiftRight n))
  | .u32 x => .ok (.u32 (x >>> n))
  | .i32 x => .ok (.i32 (x.sshiftRight n))
  | .u8 x => .ok (.u8 (x >>> n))
  | _ => .error .confused

/-- Operators on two values of one type. Slices, and what cannot be compared here, can only be compared with nil. -/
def sameOp (o : BinOp) : V → V → Except Fault V
  | .int x, .int y => intOp .int true x y o
  | .uint x, .uint y => intOp .uint false x y o
  | .u8 x, .u8 y => intOp .u8 false x y o
  | .u32 x, .u32 y => intOp .u32 false x y o
  | .u64 x, .u64 y => intOp .u64 false x y o
  | .i32 x, .i32 y => intOp .i32 true x y o
  | .i64 x, .i64 y => intOp .i64 true x y o
  | .f32 x, .f32 y => eqOp (f32Eq x y) o
  | .f64 x, .f64 y => eqOp (f64Eq x y) o
  | .str x, .str y => eqOp (x == y) o
  | .bool x, .bool y => eqOp (x == y) o
  | .bytes x, .bytes none => eqOp x.isNone o
  | .err x, .err none => eqOp x.isNone o
  | .field x, .field none => eqOp x.isNone o
  | .addr p, .off i =>
    match o with
    | .add => .ok (.addr (p ++ [.slot i]))
    | _ => .error .confused
  | _, _ => .error .confused

/-- Binary operators, except `&&` and `||`. -/
def binOp (o : BinOp) (a b : V) : Except Fault V :=
  match o with
  | .shl => do shiftLeft a (← shiftCount b)
  | .shr => do shiftRight a (← shiftCount b)
  | o =>
    match a, b with
    | .const x, .const y => constOp x y o
    | .ptr _ _, .nil => eqOp false o
    | .null _, .nil => eqOp true o
    | a, .const y =>
      match a.ty with
      | some t => do sameOp o a (← ofConst y t)
      | none => .error .confused
    | .const x, b =>
      match b.ty with
      | some t => do sameOp o (← ofConst x t) b
      | none => .error .confused
    | a, .nil =>
      match a.ty with
      | some t => do sameOp o a (← assignable t .nil)
      | none => .error .confused
    | a, b => sameOp o a b

/-- Unary operators, except `&` and `*`. -/
def unOp : UnOp → V → Except Fault V
  | .neg, .const n => .ok (.const (-n))
  | .neg, .int x => .ok (.int (-x))
  | .neg, .i64 x => .ok (.i64 (-x))
  | .neg, .i32 x => .ok (.i32 (-x))
  | .not, .bool b => .ok (.bool !b)
  | _, _ => .error .confused

/-- An integer as one of 64 bits: signed ones keep their value. -/
def widen : V → Option (BitVec 64)
  | .int x | .uint x | .u64 x | .i64 x => some x
  | .u32 x => some (x.setWidth 64)
  | .i32 x => some (x.signExtend 64)
  | .u8 x => some (x.setWidth 64)
  | _ => none

/-- `T(v)` for integers: the low bits. -/
def intConv (t : Ty) (v : V) : Except Fault V :=
  match widen v with
  | some x =>
    match t with
    | .int => .ok (.int x)
    | .uint => .ok (.uint x)
    | .u64 => .ok (.u64 x)
    | .i64 => .ok (.i64 x)
    | .u32 => .ok (.u32 (x.setWidth 32))
    | .i32 => .ok (.i32 (x.setWidth 32))
    | .u8 => .ok (.u8 (x.setWidth 8))
    | _ => .error .confused
  | none => .error .confused

/-- Conversions. -/
def convert (t : Ty) : V → Except Fault V
  | .const n => ofConst n t
  | .f32 x =>
    match t with
    | .f64 => .ok (.f64of x)
    | .f32 => .ok (.f32 x)
    | _ => .error .confused
  | .bytes s =>
    match t with
    | .str => .ok (.str (s.getD []))
    | .bytes => .ok (.bytes s)
    | _ => .error .confused
  | .ptr p _ =>
    match t with
    | .uptr => .ok (.ptr p .uptr)
    | .ptr t => .ok (.ptr p (.ptr t))
    | .uintptr => .ok (.addr p)
    | _ => .error .confused
  | .addr p =>
    match t with
    | .uptr => .ok (.ptr p .uptr)
    | _ => .error .confused
  | .newaddr z =>
    match t with
    | .uptr => .ok (.newptr z)
    | _ => .error .confused
  | v => intConv t v

/-- `*p` -/
def deref (m : Val) : V → Except Fault V
  | .null _ => .error .panic
  | .ptr p (.ptr .uptr) => do loadPtr p (← getPath p m)
  | .ptr p (.ptr t) => do load t (← getPath p m)
  | _ => .error .confused

/-- An index or bound as a natural number. -/
def indexOf : V → Except Fault Nat
  | .const n => if 0 ≤ n then .ok n.toNat else .error .confused
  | .int x => if x.msb then .error .oob else .ok x.toNat
  | .uint x => .ok x.toNat
  | .u64 x => .ok x.toNat
  | _ => .error .confused

/-- `e[i]`; looking up a number in the map of a structInfo gives the last field declared with it, or nil. -/
def indexV : V → V → Except Fault V
  | .bytes s, i => do
    match (s.getD [])[(← indexOf i)]? with
    | some c => .ok (.u8 c)
    | none => .error .oob
  | .fieldIndex fs, .uint n => .ok (.field (fs.reverse.find? fun f => decide (n = f.tag.wiretag >>> 3)))
  | _, _ => .error .confused

/-- `s[lo:hi]`. (Bounds up to the capacity of the slice are allowed in Go; here, up to its length.) -/
def sliceV (v lo hi : V) : Except Fault V :=
  match v with
  | .bytes s => do
    let l ← match lo with
      | .tuple [] => .ok 0
      | lo => indexOf lo
    let h ← match hi with
      | .tuple [] => .ok (s.getD []).length
      | hi => indexOf hi
    if l ≤ h ∧ h ≤ (s.getD []).length then .ok (.bytes (s.map fun s => (s.take h).drop l)) else .error .oob
  | _ => .error .confused

/-- `e.n`: fields of pointers to structs. -/
def selV (m : Val) (n : Text) : V → Except Fault V
  | .opt s _ => if n = t!"some" then .ok (.bool s) else .error .confused
  | .field (some f) =>
    if n = t!"tagsize" then .ok (.int (BitVec.ofNat 64 f.tag.tagsize))
    else if n = t!"wiretag" then .ok (.u64 f.tag.wiretag)
    else if n = t!"codec" then .ok (.codec f.codec)
    else if n = t!"offset" then .ok (.off f.offset)
    else .error .confused
  | .field none => .error .panic
  | .info fs =>
    if n = t!"fields" then .ok (.fields fs)
    else if n = t!"fieldIndex" then .ok (.fieldIndex fs)
    else .error .confused
  | .mapField i kc vc =>
    if n = t!"keyField" then .ok (.field (some ⟨0, i.key, kc⟩))
    else if n = t!"valField" then .ok (.field (some ⟨0, i.val, vc⟩))
    else .error .confused
  | .ptr p (.ptr (.option _)) => do
    match ← getPath p m with
    | .opt s _ => if n = t!"some" then .ok (.bool s) else .error .confused
    | _ => .error .confused
  | _ => .error .confused

/-- `&e.n` -/
def addrOf (n : Text) : V → Except Fault V
  | .ptr p (.ptr (.option t)) => if n = t!"value" then .ok (.ptr (p ++ [.value]) (.ptr t)) else .error .confused
  | _ => .error .confused

/-- The bytes appended by the arguments of `append`. -/
def appendArgs : List V → Except Fault Bytes
  | [] => .ok []
  | [.spread (.bytes s)] => .ok (s.getD [])
  | [.spread (.str s)] => .ok s
  | v :: vs => do
    match ← assignable .u8 v with
    | .u8 c => do return c :: (← appendArgs vs)
    | _ => .error .confused

/-- Built-in functions and functions of the standard library. -/
def builtin (n : Text) (args : List V) (x : Except Fault V) : Except Fault V :=
  if n = t!"append" then
    match args with
    | .bytes s :: as => do
      match s, ← appendArgs as with
      | none, [] => return .bytes none
      | s, t => return .bytes (some (s.getD [] ++ t))
    | _ => .error .confused
  else if n = t!"len" then
    match args with
    | [.bytes s] => .ok (.int (BitVec.ofNat 64 (s.getD []).length))
    | [.str s] => .ok (.int (BitVec.ofNat 64 s.length))
    | _ => .error .confused
  else if n = t!"bits.Len64" then
    match args with
    | [.u64 v] => .ok (.int (BitVec.ofNat 64 (bitsLen64 v)))
    | _ => .error .confused
  else if n = t!"math.Signbit" then
    match args with
    | [.f64 v] => .ok (.bool v.msb)
    | [.f64of v] => .ok (.bool v.msb)
    | _ => .error .confused
  else if n = t!"math.Float32bits" then
    match args with
    | [.f32 v] => .ok (.u32 v)
    | _ => .error .confused
  else if n = t!"math.Float64bits" then
    match args with
    | [.f64 v] => .ok (.u64 v)
    | _ => .error .confused
  else if n = t!"math.Float32frombits" then
    match args with
    | [.u32 v] => .ok (.f32 v)
    | _ => .error .confused
  else if n = t!"math.Float64frombits" then
    match args with
    | [.u64 v] => .ok (.f64 v)
    | _ => .error .confused
  else if n = t!"binary.LittleEndian.Uint32" then
    match args with
    | [.bytes (some (b0 :: b1 :: b2 :: b3 :: _))] => .ok (.u32 (leUint32 b0 b1 b2 b3))
    | [.bytes _] => .error .oob
    | _ => .error .confused
  else if n = t!"binary.LittleEndian.Uint64" then
    match args with
    | [.bytes (some (b0 :: b1 :: b2 :: b3 :: b4 :: b5 :: b6 :: b7 :: _))] => .ok (.u64 (leUint64 b0 b1 b2 b3 b4 b5 b6 b7))
    | [.bytes _] => .error .oob
    | _ => .error .confused
  else if n = t!"fmt.Errorf" then
    match args with
    | [.str s, .uint w] =>
      if s = t!"expected wire type %d".map (fun c => BitVec.ofNat 8 c.toNat) then .ok (.err (some (.expectedWireType w.toNat)))
      else .error .confused
    | [.str s, .iface _ _] =>
      if s = t!"proto.Marshal(%T): not a pointer".map (fun c => BitVec.ofNat 8 c.toNat) then .ok (.apierr .notPointer)
      else .error .confused
    | [.str s, .iface _ _, .int n, .int l] =>
      if s = t!"proto.Unmarshal(%T): read=%d < buffer=%d".map (fun c => BitVec.ofNat 8 c.toNat) then .ok (.apierr (.shortRead n.toNat l.toNat))
      else .error .confused
    | _ => .error .confused
  else if n = t!"reflect.New" then
    match args with
    | [.rtype z] => .ok (.rvalue z)
    | [.fresh p] => .ok (.fresh p)
    | _ => .error .confused
  else if n = t!"pointer" then
    -- proto.go:71-73: the type descriptor of a `reflect.Type`; a pointer that is in an interface; nil
    match args with
    | [.rtype z] => .ok (.rtype z)
    | [.ptr p _] => .ok (.ptr p .uptr)
    | [.null _] => .ok (.null .uptr)
    | [.iface _ w] => .ok w
    | _ => .error .confused
  else if n = t!"MakeSlice" then
    match args with
    | [.rtype z, .int l, .int c] =>
      if l.msb ∨ c.msb ∨ c.toNat < l.toNat then .error .panic
      else .ok (.slice (List.replicate l.toNat z) (List.replicate (c.toNat - l.toNat) z))
    | _ => .error .confused
  else if n = t!"reflect.TypeOf" then
    match args with
    | [.iface t _] => .ok (.gotype t)
    | _ => .error .confused
  else if n = t!"panic" then .error .panic
  else x

/-- The names of functions that are not looked for among the functions of the program. -/
def isBuiltin (n : Text) : Bool := n ∈ [t!"append", t!"len", t!"pointer", t!"MakeSlice", t!"panic"]

/-- `&T{...}` with these keys and values. -/
def structLit (t : Text) (keys : List Text) (vs : List V) : Except Fault V :=
  if t = t!"UnmarshalFieldError" ∧ keys = [t!"FieldNumber", t!"WireType", t!"Err"] then
    match vs with
    | [.int n, .int w, .err (some e)] => .ok (.err (some (.field n.toNat w.toNat e)))
    | _ => .error .confused
  else if t = t!"InvalidUnmarshalError" ∧ keys = [t!"Type"] then
    match vs with
    | [.gotype _] => .ok (.apierr .invalidUnmarshal)
    | _ => .error .confused
  else .error .confused

/-- The keys of a composite literal. -/
def keysOf : Expr → List Text
  | .arg (.kv (.ident k) _) r => k :: keysOf r
  | _ => []

/-- The slice at `p` with length `n` instead: its slots stay. -/
def setLen (n : Nat) : Val → Except Fault Val
  | .slice isNil es sp => .ok (.slice isNil ((es ++ sp).take n) ((es ++ sp).drop n))
  | _ => .error .confused

/-- The zero value of a type, other than a struct. -/
def isZero : Val → Bool
  | .b8 x => !x
  | .w32 x => decide (x = 0#32)
  | .w64 x => decide (x = 0#64)
  | .str s => decide (s = [])
  | .bytes s => s.isNone
  | .opt o v => !o && isZero v
  | .nilp => true
  | .slice n es sp => n && es.isEmpty && sp.isEmpty
  | .map n es => n && es.isEmpty
  | .opaque x => decide (x = 0)
  | _ => false

/-- The methods of a `sync.Pool` of structs with two fields. It may be empty or not when `Get` is called, but what it has is zero: to put
something else there is an error here. -/
def poolMethod (m : Val) (got : Option (List Step)) (n : Text) (args : List V) : Option (Except Fault (List V × Val)) :=
  if n = t!"Get" then
    match got with
    | some p => some (.ok ([.ptr p .uptr], m))
    | none => some (.ok ([.null .uptr], m))
  else if n = t!"Put" then
    match args with
    | [.ptr p _] => some (do
      match ← getPath p m with
      | .struct [k, v] => if isZero k ∧ isZero v then .ok ([], m) else .error .confused
      | _ => .error .confused)
    | _ => none
  else none

/-- Methods of types of other packages: `reflect.Value`, `reflect.Type` (a method of a nil one panics), `sync.Pool`, and of runtime_reflect `*Slice` (slice.go:11-25) and `*MapIter` (map.go:30-52; for
those that change the iterator see `iterStep`). -/
def stdMethod (m : Val) (v : V) (n : Text) (args : List V) : Option (Except Fault (List V × Val)) :=
  match v with
  | .rvalue z => if n = t!"Pointer" then some (.ok ([.newaddr z], m)) else none
  | .fresh p => if n = t!"Pointer" then some (.ok ([.addr p], m)) else none
  | .gotype none => some (.error .panic)
  | .gotype (some t) =>
    if n = t!"Kind" then some (.ok ([.uint t.kind], m))
    else if n = t!"Elem" then
      match t with
      | .ptr e => some (.ok ([.gotype (some e)], m))
      | _ => none
    else none
  | .pool got => poolMethod m got n args
  | .ptr p (.ptr .slice) =>
    if n = t!"Len" then some (do
      match ← getPath p m with
      | .slice _ es _ => .ok ([.int (BitVec.ofNat 64 es.length)], m)
      | _ => .error .confused)
    else if n = t!"Cap" then some (do
      match ← getPath p m with
      | .slice _ es sp => .ok ([.int (BitVec.ofNat 64 (es.length + sp.length))], m)
      | _ => .error .confused)
    else if n = t!"Index" then
      match args with
      | [.int i, .elemSize] => some (.ok ([.ptr (p ++ [.elem i.toNat]) .uptr], m))
      | _ => none
    else if n = t!"SetLen" then
      match args with
      | [.int i] => some (do
        let m ← setPath (← setLen i.toNat (← getPath p m)) p m
        .ok ([], m))
      | _ => none
    else none
  | .iter none _ => if n = t!"HasNext" then some (.ok ([.bool false], m)) else none
  | .iter (some p) i =>
    if n = t!"HasNext" then some (do
      match ← getPath p m with
      | .map _ es => .ok ([.bool (decide (i < es.length))], m)
      | _ => .error .confused)
    else if n = t!"Key" then some (.ok ([.ptr (p ++ [.key i]) .uptr], m))
    else if n = t!"Value" then some (.ok ([.ptr (p ++ [.entry i]) .uptr], m))
    else none
  | _ => none

/-- `it.Init(t, m)` and `it.Next()` -/
def iterStep (v : V) (n : Text) (args : List V) : Except Fault V :=
  match v with
  | .iter q i =>
    if n = t!"Init" then
      match args with
      | [.rtype _, .ptr p .uptr] => .ok (.iter (some p) 0)
      | [.rtype _, .null .uptr] => .ok (.iter none 0)
      | _ => .error .confused
    else if n = t!"Next" then .ok (.iter q (i + 1))
    else .error .confused
  | _ => .error .confused

/-- `CopySlice(t, d, s)`: elements of `s` take the place of those of `d`, as many as both have. -/
def copySlice (d s : V) : Except Fault V :=
  match d, s with
  | .slice ds sp, .slice es _ => .ok (.slice (es.take ds.length ++ ds.drop es.length) sp)
  | _, _ => .error .confused

/-- Variables of packages, and constants. -/
def global (n : Text) : Except Fault V :=
  if n = t!"nil" then .ok .nil
  else if n = t!"true" then .ok (.bool true)
  else if n = t!"false" then .ok (.bool false)
  else if n = t!"io.ErrUnexpectedEOF" then .ok (.err (some .unexpectedEOF))
  else if n = t!"errVarintOverflow" then .ok (.err (some .varintOverflow))
  else if n = t!"ErrWireTypeUnknown" then .ok (.err (some .wireTypeUnknown))
  else if n = t!"zeroSize" then .ok (.const 1)
  else if n = t!"varint" then .ok (.uint 0#64)
  else if n = t!"fixed64" then .ok (.uint 1#64)
  else if n = t!"varlen" then .ok (.uint 2#64)
  else if n = t!"fixed32" then .ok (.uint 5#64)
  else if n = t!"reflect.Ptr" then .ok (.uint 22#64)
  else if n = t!"reflect.Pointer" then .ok (.uint 22#64)
  else if n = t!"reflect.Struct" then .ok (.uint 25#64)
  else .error .confused

/-! ### variables -/

/-- Variables, innermost first. -/
abbrev Vars := List (Text × V)

def lookup (n : Text) : Vars → Option V
  | [] => none
  | (m, v) :: r => if m = n then some v else lookup n r

/-- The variable gets the value, which must have its type. -/
def setVar (n : Text) (x : V) : Vars → Except Fault Vars
  | [] => .error .confused
  | (m, v) :: r =>
    if m = n then
      match v.ty with
      | some t => do return (m, ← assignable t x) :: r
      | none => .error .confused
    else do return (m, v) :: (← setVar n x r)

/-- A constant gets its default type in a definition. -/
def defaultV : V → Except Fault V
  | .const n => ofConst n .int
  | .nil => .error .confused
  | .tuple _ => .error .confused
  | .spread _ => .error .confused
  | v => .ok v

/-- `n := x`: a new variable, unless `n` has been declared in this block, of which there are `k` variables. -/
def defineVar (k : Nat) (n : Text) (x : V) (vs : Vars) : Except Fault Vars :=
  if n = t!"_" then .ok vs
  else if (vs.take k).any fun v => decide (v.1 = n) then setVar n x vs
  else do return (n, ← defaultV x) :: vs

/-- The zero value of a type. -/
def zeroV : Ty → Except Fault V
  | .u64 => .ok (.u64 0#64)
  | .uint => .ok (.uint 0#64)
  | .int => .ok (.int 0#64)
  | .err => .ok (.err none)
  | .bytes => .ok (.bytes none)
  | _ => .error .confused

/-! ### expressions -/

/-- Calls: receiver, name, arguments, memory; gives results and memory. -/
abbrev Calls := Option V → Text → List V → Val → Except Fault (List V × Val)

/-- `a.b.c` -/
def dotted : Expr → Option (Text × Text)
  | .ident n => some (n, n)
  | .sel e n =>
    match dotted e with
    | some (h, p) => some (h, p ++ '.' :: n)
    | none => none
  | _ => none

/-- Results of a call as one value. -/
def ofResults : List V → V
  | [v] => v
  | vs => .tuple vs

/-- A condition. -/
def truth : V → Except Fault Bool
  | .bool b => .ok b
  | _ => .error .confused

/-- Arguments of a call. -/
def argsOf : V → Except Fault (List V)
  | .tuple vs => .ok vs
  | _ => .error .confused

/-- Call of a method. -/
def methodCall (C : Calls) (v : V) (n : Text) (args : List V) (m : Val) : Except Fault (List V × Val) :=
  match stdMethod m v n args with
  | some r => r
  | none => C (some v) n args m

/-- Evaluation; lists give tuples. Gives the value and the memory after calls. -/
def eval (C : Calls) (vars : Vars) : Expr → Val → Except Fault (V × Val)
  | .none, m => .ok (.tuple [], m)
  | .arg e r, m => do
    let (v, m) ← eval C vars e m
    let (w, m) ← eval C vars r m
    return (.tuple (v :: (← argsOf w)), m)
  | .num n, m => .ok (.const n, m)
  | .str s, m => .ok (.str (s.map fun c => BitVec.ofNat 8 c.toNat), m)
  | .ident n, m =>
    match lookup n vars with
    | some v => .ok (v, m)
    | none => do return (← global n, m)
  | .un .deref e, m => do
    let (v, m) ← eval C vars e m
    return (← deref m v, m)
  | .un .addr (.sel e n), m => do
    let (v, m) ← eval C vars e m
    return (← addrOf n v, m)
  | .un .addr (.lit (.ident t) es), m => do
    let (w, m) ← eval C vars es m
    return (← structLit t (keysOf es) (← argsOf w), m)
  | .un o e, m => do
    let (v, m) ← eval C vars e m
    return (← unOp o v, m)
  | .bin .land a b, m => do
    let (v, m) ← eval C vars a m
    if ← truth v then eval C vars b m else return (.bool false, m)
  | .bin .lor a b, m => do
    let (v, m) ← eval C vars a m
    if ← truth v then return (.bool true, m) else eval C vars b m
  | .bin o a b, m => do
    let (v, m) ← eval C vars a m
    let (w, m) ← eval C vars b m
    return (← binOp o v w, m)
  | .index e i, m => do
    let (v, m) ← eval C vars e m
    let (w, m) ← eval C vars i m
    return (← indexV v w, m)
  | .slice e lo hi, m => do
    let (v, m) ← eval C vars e m
    let (l, m) ← eval C vars lo m
    let (h, m) ← eval C vars hi m
    return (← sliceV v l h, m)
  | .spread e, m => do
    let (v, m) ← eval C vars e m
    return (.spread v, m)
  | .sel e n, m =>
    match dotted e with
    | some (h, p) =>
      if (lookup h vars).isSome then do
        let (v, m) ← eval C vars e m
        return (← selV m n v, m)
      else do return (← global (p ++ '.' :: n), m)
    | none => do
      let (v, m) ← eval C vars e m
      return (← selV m n v, m)
  | .call f args, m =>
    match tyOf f with
    | some t => do
      match ← eval C vars args m with
      | (.tuple [v], m) => return (← convert t v, m)
      | _ => .error .confused
    | none =>
      match f with
      | .ident n =>
        if n = t!"make" then
          match args with
          | .arg t r => do
            -- `make([]byte, 0, cap)`
            let (w, m) ← eval C vars r m
            match tyOf t, w with
            | some .bytes, .tuple [.const 0, .int _] => return (.bytes (some []), m)
            | _, _ => .error .confused
          | _ => .error .confused
        else do
          let (w, m) ← eval C vars args m
          let as ← argsOf w
          if isBuiltin n then return (← builtin n as (.error .confused), m)
          else do
            let (r, m) ← C none n as m
            return (ofResults r, m)
      | .sel e n =>
        match dotted e with
        | some (h, p) =>
          if (lookup h vars).isSome then do
            let (v, m) ← eval C vars e m
            let (w, m) ← eval C vars args m
            let (r, m) ← methodCall C v n (← argsOf w) m
            return (ofResults r, m)
          else do
            let (w, m) ← eval C vars args m
            return (← builtin (p ++ '.' :: n) (← argsOf w) (.error .confused), m)
        | none => do
          let (v, m) ← eval C vars e m
          let (w, m) ← eval C vars args m
          let (r, m) ← methodCall C v n (← argsOf w) m
          return (ofResults r, m)
      | _ => .error .confused
  | .lit (.ident t) .none, m => if t = t!"MapIter" then .ok (.iter none 0, m) else .error .confused
  | .lit _ _, _ => .error .confused
  | .kv _ v, m => eval C vars v m

/-! ### statements -/

/-- Variables, how many of them are of this block, and memory. -/
structure State where
  vars : Vars
  block : Nat
  mem : Val

/-- How a statement ends. -/
inductive Flow where
  | next
  | cont
  | ret (vs : List V)

/-- Assignment to one place. -/
def assign1 (C : Calls) (l : Expr) (x : V) (s : State) : Except Fault State :=
  match l with
  | .ident n => if n = t!"_" then .ok s else do return { s with vars := ← setVar n x s.vars }
  | .un .deref e => do
    let (v, m) ← eval C s.vars e s.mem
    match v with
    | .ptr p (.ptr t) => do
      let old ← getPath p m
      let new ← store t old (← assignable t x)
      return { s with mem := ← setPath new p m }
    | _ => .error .confused
  | .sel e n => do
    let (v, m) ← eval C s.vars e s.mem
    match v, x with
    | .ptr p (.ptr (.option _)), .bool b =>
      if n = t!"some" then
        match ← getPath p m with
        | .opt _ v => do return { s with mem := ← setPath (.opt b v) p m }
        | _ => .error .confused
      else .error .confused
    | _, _ => .error .confused
  | _ => .error .confused

/-- Assignments one after the other; the places must not depend on each other. -/
def assignList (C : Calls) : Expr → List V → State → Except Fault State
  | .none, [], s => .ok s
  | .arg l r, x :: xs, s => do assignList C r xs (← assign1 C l x s)
  | _, _, _ => .error .confused

/-- Definition of variables; at least one must be new, which is not checked. -/
def defineList : Expr → List V → State → Except Fault State
  | .none, [], s => .ok s
  | .arg (.ident n) r, x :: xs, s => do
    let vs ← defineVar s.block n x s.vars
    defineList r xs { s with vars := vs, block := s.block + (vs.length - s.vars.length) }
  | _, _, _ => .error .confused

/-- One value, or those of one call. -/
def valuesOf : V → List V
  | .tuple [.tuple vs] => vs
  | .tuple vs => vs
  | v => [v]

/-- `for i, c := range b` over bytes. -/
def rangeBytes (body : V → V → State → Except Fault (Flow × State)) : Nat → Bytes → State → Except Fault (Flow × State)
  | _, [], s => .ok (.next, s)
  | i, c :: cs, s => do
    match ← body (.int (BitVec.ofNat 64 i)) (.u8 c) s with
    | (.ret vs, s) => return (.ret vs, s)
    | (_, s) => rangeBytes body (i + 1) cs s

/-- `for i, f := range info.fields` -/
def rangeFields (body : V → V → State → Except Fault (Flow × State)) : Nat → List Field → State → Except Fault (Flow × State)
  | _, [], s => .ok (.next, s)
  | i, f :: fs, s => do
    match ← body (.int (BitVec.ofNat 64 i)) (.field (some f)) s with
    | (.ret vs, s) => return (.ret vs, s)
    | (_, s) => rangeFields body (i + 1) fs s

/-- `for c { body; post }`, at most so many times. -/
def loopN (c : State → Except Fault (V × Val)) (body post : State → Except Fault (Flow × State)) : Nat → State → Except Fault (Flow × State)
  | 0, _ => .error .depth
  | d + 1, s => do
    let (v, m) ← c s
    if ← truth v then
      match ← body { s with mem := m } with
      | (.ret vs, s) => return (.ret vs, s)
      | (_, s) => do
        let (_, s) ← post s
        loopN c body post d s
    else return (.next, { s with mem := m })

/-- A block: what it declares is gone after it. -/
def inBlock (body : State → Except Fault (Flow × State)) (s : State) : Except Fault (Flow × State) := do
  let (f, t) ← body { s with block := 0 }
  return (f, { t with vars := t.vars.drop (t.vars.length - s.vars.length), block := s.block })

/-- The value of a variable of a range clause, unless its name is blank. -/
def rangeVar (n : Text) (v : V) (s : State) : State :=
  if n = t!"_" then s else { s with vars := (n, v) :: s.vars, block := s.block + 1 }

/-- A case applies: it has an expression equal to the tag, or a true one if there is no tag. -/
def caseHolds (C : Calls) (tag : Option V) : Expr → State → Except Fault Bool
  | .arg e r, s => do
    let (v, _) ← eval C s.vars e s.mem
    let b ← match tag with
      | some t => binOp .eq t v
      | none => .ok v
    if ← truth b then return true else caseHolds C tag r s
  | .none, _ => .ok false
  | _, _ => .error .confused

/-- An expression as a statement. The methods of a `MapIter` that change it change the variable; so does `CopySlice`, which writes to the
array of its second argument (nothing else has this array: its only use is in growSlice). -/
def execExpr (C : Calls) (e : Expr) (s : State) : Except Fault State :=
  match e with
  | .call (.sel (.ident x) n) args =>
    match lookup x s.vars with
    | some (.iter q i) => do
      let (w, m) ← eval C s.vars args s.mem
      return { s with vars := ← setVar x (← iterStep (.iter q i) n (← argsOf w)) s.vars, mem := m }
    | _ => do
      let (_, m) ← eval C s.vars (.call (.sel (.ident x) n) args) s.mem
      return { s with mem := m }
  | .call (.ident f) (.arg t (.arg (.ident x) r)) =>
    if f = t!"CopySlice" then do
      let (w, m) ← eval C s.vars (.arg t (.arg (.ident x) r)) s.mem
      match ← argsOf w with
      | [_, d, v] => do return { s with vars := ← setVar x (← copySlice d v) s.vars, mem := m }
      | _ => .error .confused
    else do
      let (_, m) ← eval C s.vars (.call (.ident f) (.arg t (.arg (.ident x) r))) s.mem
      return { s with mem := m }
  | e => do
    let (_, m) ← eval C s.vars e s.mem
    return { s with mem := m }

/-- What a deferred call does at the end, as far as it can be seen: `Done` of a `MapIter` only drops the iterator (runtime_reflect/map.go:34-39). -/
def execDefer (e : Expr) (s : State) : Except Fault State :=
  match e with
  | .call (.sel (.ident x) n) .none =>
    match lookup x s.vars with
    | some (.iter _ _) => if n = t!"Done" then .ok s else .error .confused
    | _ => .error .confused
  | _ => .error .confused

/-- Statements; `d` bounds the number of iterations of loops. Cases of a switch are tried in order, the default last. -/
def exec (C : Calls) (d : Nat) : Stmt → State → Except Fault (Flow × State)
  | .skip, s => .ok (.next, s)
  | .seq a b, s => do
    match ← exec C d a s with
    | (.next, s) => exec C d b s
    | r => return r
  | .define l e, s => do
    let (v, m) ← eval C s.vars e s.mem
    return (.next, ← defineList l (valuesOf v) { s with mem := m })
  | .assign l r, s => do
    let (v, m) ← eval C s.vars r s.mem
    return (.next, ← assignList C l (valuesOf v) { s with mem := m })
  | .opAssign o l r, s => do
    let (v, m) ← eval C s.vars l s.mem
    let (w, m) ← eval C s.vars r m
    return (.next, ← assign1 C l (← binOp o v w) { s with mem := m })
  | .var n t, s =>
    match tyOf t with
    | some t => do return (.next, { s with vars := (n, ← zeroV t) :: s.vars, block := s.block + 1 })
    | none => .error .confused
  | .ret es, s => do
    let (v, m) ← eval C s.vars es s.mem
    return (.ret (valuesOf v), { s with mem := m })
  | .expr e, s => do return (.next, ← execExpr C e s)
  | .defer e, s => do return (.next, ← execDefer e s)
  | .cont, s => .ok (.cont, s)
  | .ite i c t e, s => inBlock (fun s => do
      let (_, s) ← exec C d i s
      let (v, m) ← eval C s.vars c s.mem
      if ← truth v then inBlock (exec C d t) { s with mem := m } else inBlock (exec C d e) { s with mem := m }) s
  | .switch .none cs, s => cases C d none none cs s
  | .switch e cs, s => do
    let (v, m) ← eval C s.vars e s.mem
    cases C d (some v) none cs { s with mem := m }
  | .case .., _ => .error .confused
  | .default .., _ => .error .confused
  | .range k v e body, s => do
    let (x, m) ← eval C s.vars e s.mem
    match x with
    | .bytes b => rangeBytes (fun i c => inBlock fun s => exec C d body (rangeVar v c (rangeVar k i s))) 0 (b.getD []) { s with mem := m }
    | .fields fs => rangeFields (fun i f => inBlock fun s => exec C d body (rangeVar v f (rangeVar k i s))) 0 fs { s with mem := m }
    | _ => .error .confused
  | .loop i c p body, s => inBlock (fun s => do
      let (_, s) ← exec C d i s
      loopN (fun s => eval C s.vars c s.mem) (inBlock (exec C d body)) (exec C d p) d s) s
where
  /-- The cases of a switch. -/
  cases (C : Calls) (d : Nat) (tag : Option V) (dflt : Option Unit) : Stmt → State → Except Fault (Flow × State)
  | .skip, s => .ok (.next, s)
  | .case es b r, s => do
    if ← caseHolds C tag es s then inBlock (exec C d b) s else cases C d tag dflt r s
  | .default b .skip, s => inBlock (exec C d b) s
  | _, _ => .error .confused

/-! ### functions -/

/-- The name of the type of a receiver. -/
def recvType : Expr → Option Text
  | .ident n => some n
  | .un .deref e => recvType e
  | .index e _ => recvType e
  | _ => none

/-- The name of the type that has the methods of a value. -/
def V.typeName : V → Option Text
  | .ptr _ (.ptr (.option _)) => some t!"Option"
  | .field _ => some t!"structField"
  | .info _ => some t!"structInfo"
  | _ => none

/-- The function of this name, or the method of the type of this name. -/
def findFunc (P : List FuncDecl) (recv : Option (Option Text)) (n : Text) : Option FuncDecl :=
  P.find? fun f => decide (f.name = n) && decide (f.recv.map (fun r => recvType r.2) = recv)

/-- Parameters get the values of arguments. -/
def bindParams : List (Text × Expr) → List V → Except Fault Vars
  | [], [] => .ok []
  | (n, t) :: ps, v :: vs =>
    match tyOf t with
    | some t => do
      let v ← assignable t v
      return (n, v) :: (← bindParams ps vs)
    | none => .error .confused
  | _, _ => .error .confused

/-- Results with a name are variables, zero at first. -/
def bindResults : List (Text × Expr) → Except Fault Vars
  | [] => .ok []
  | (n, t) :: rs =>
    match tyOf t with
    | some t => do
      let r ← bindResults rs
      if n = [] then return r else return (n, ← zeroV t) :: r
    | none => .error .confused

/-- The results that are returned, as values of their types. -/
def returned : List (Text × Expr) → List V → Except Fault (List V)
  | [], [] => .ok []
  | (_, t) :: rs, v :: vs =>
    match tyOf t with
    | some t => do return (← assignable t v) :: (← returned rs vs)
    | none => .error .confused
  | _, _ => .error .confused

/-- The receiver as a variable; a receiver that is not a pointer is a copy. -/
def bindRecv (m : Val) : Option (Text × Expr) → Option V → Except Fault Vars
  | none, none => .ok []
  | some (n, .un .deref _), some v => .ok [(n, v)]
  | some (n, _), some v => do return [(n, ← deref m v)]
  | _, _ => .error .confused

/-- The end of a function: its results and the memory. -/
def finish (rs : List (Text × Expr)) : Flow × State → Except Fault (List V × Val)
  | (.ret vs, s) => do return (← returned rs vs, s.mem)
  | _ => .error .confused

/-- Call of a declared function. -/
def callFunc (C : Calls) (d : Nat) (f : FuncDecl) (recv : Option V) (args : List V) (m : Val) : Except Fault (List V × Val) := do
  let rv ← bindRecv m f.recv recv
  let ps ← bindParams f.params args
  let rs ← bindResults f.results
  let vars := rs ++ ps ++ rv
  finish f.results (← exec C d f.body ⟨vars, vars.length, m⟩)

/-- Call of a function literal, with the variables it has from outside. -/
def callClosure (C : Calls) (d : Nat) (f : FuncDecl) (outer : Vars) (args : List V) (m : Val) : Except Fault (List V × Val) := do
  let ps ← bindParams f.params args
  let rs ← bindResults f.results
  finish f.results (← exec C d f.body ⟨rs ++ ps ++ outer, (rs ++ ps).length, m⟩)

/-- Calls in a program, at most `k` inside each other; `X` says what the rest does. -/
def invoke (P : List FuncDecl) (X : Calls) (d : Nat) : Nat → Calls
  | 0, _, _, _, _ => .error .depth
  | k + 1, recv, n, args, m =>
    match findFunc P (recv.map V.typeName) n with
    | some f => callFunc (invoke P X d k) d f recv args m
    | none => X recv n args m

end Pb.Go
