import Verif.Model.Codec
/-
Memory layouts: what the Go type of a field guarantees about its memory, independent of the codecs.
-/
namespace Pb

/-- The shape of a memory slot, as its Go type determines it. -/
inductive Shape where
  | b8 | w32 | w64 | str | bytes
  | opt (s : Shape)
  | ptr (s : Shape)
  /-- pointer to a message struct -/
  | msg (t : TypeId)
  | slice (s : Shape)
  | map (k v : Shape)
  /-- a type the library never looks into -/
  | opaque
deriving DecidableEq, Repr

/-- The Go zero value. -/
def Shape.zero : Shape → Val
  | .b8 => .b8 false
  | .w32 => .w32 0#32
  | .w64 => .w64 0#64
  | .str => .str []
  | .bytes => .bytes none
  | .opt s => .opt false s.zero
  | .ptr _ => .nilp
  | .msg _ => .nilp
  | .slice _ => .slice true [] []
  | .map _ _ => .map true []
  | .opaque => .opaque 0

/-- The struct types of a program: the shapes of all fields, tagged or not. -/
abbrev Layout := TypeId → List Shape

/-- `Fits L s v`: the value `v` is possible in a slot of shape `s`. -/
inductive Fits (L : Layout) : Shape → Val → Prop
  | b8 (x) : Fits L .b8 (.b8 x)
  | w32 (x) : Fits L .w32 (.w32 x)
  | w64 (x) : Fits L .w64 (.w64 x)
  | str (x) : Fits L .str (.str x)
  | bytes (x) : Fits L .bytes (.bytes x)
  /-- an absent `Option` holds the zero value: its fields are private, `None` and the zero value are the only
  ways to get one -/
  | none (s) : Fits L (.opt s) (.opt false s.zero)
  | some (s v) : Fits L s v → Fits L (.opt s) (.opt true v)
  | ptrNil (s) : Fits L (.ptr s) .nilp
  | ptr (s v) : Fits L s v → Fits L (.ptr s) (.ptr v)
  | msgNil (t) : Fits L (.msg t) .nilp
  | msg (t vs) : vs.length = (L t).length →
      (∀ (i : Nat) s v, (L t)[i]? = some s → vs[i]? = some v → Fits L s v) →
      Fits L (.msg t) (.ptr (.struct vs))
  | slice (s isNil es spare) : (isNil = true → es = [] ∧ spare = []) →
      (∀ e ∈ es, Fits L s e) → (∀ e ∈ spare, Fits L s e) → Fits L (.slice s) (.slice isNil es spare)
  | map (k v isNil) (m : List (Key × Val)) : (isNil = true → m = []) → (m.map Prod.fst).Nodup →
      (∀ e ∈ m, Fits L k e.1.toVal) → (∀ e ∈ m, Fits L v e.2) → Fits L (.map k v) (.map isNil m)
  | opaque (v) : Fits L .opaque v

/-- `v` is a possible value of the struct type `t`. -/
def FitsMsg (L : Layout) (t : TypeId) (v : Val) : Prop := Fits L (.msg t) (.ptr v)

/-- The shape of memory a scalar codec works on. -/
def Scalar.shape : Scalar → Shape
  | .bool => .b8
  | .string => .str
  | .float32 | .int32 | .uint32 | .fixed32 | .zigzag32 => .w32
  | .float64 | .int64 | .uint64 | .fixed64 | .zigzag64 => .w64

/-- The shape of memory a codec works on. -/
def Codec.shape : Codec → Shape
  | .normal s => s.shape
  | .required s => s.shape
  | .option s => .opt s.shape
  | .bytes => .bytes
  | .ptr _ c => .ptr c.shape
  | .msg t => .msg t
  | .slice _ c => .slice c.shape
  | .map _ kc vc _ _ => .map kc.shape vc.shape

/-- Shapes of map keys. -/
def Shape.isKey : Shape → Prop
  | .b8 | .w32 | .w64 | .str => True
  | _ => False

/-- The parts of a codec agree on the memory they work on. -/
def Codec.WF : Codec → Prop
  | .normal _ | .required _ | .option _ | .bytes | .msg _ => True
  | .ptr z c => z = c.shape.zero ∧ c.WF
  | .slice z c => z = c.shape.zero ∧ c.WF
  | .map i kc vc kd vd => kc.shape.isKey ∧ kd.shape = kc.shape ∧ vd.shape = vc.shape ∧
      i.kzero = kc.shape.zero ∧ i.vzero = vc.shape.zero ∧ kc.WF ∧ vc.WF ∧ kd.WF ∧ vd.WF

/-- Type infos that agree with the memory layout: every field's codec works on the shape its slot has. -/
structure WFEnv (L : Layout) (env : Env) : Prop where
  zero : ∀ t, (env t).zero = .struct ((L t).map Shape.zero)
  slot : ∀ t, ∀ f ∈ (env t).fields, (L t)[f.offset]? = some f.codec.shape
  codec : ∀ t, ∀ f ∈ (env t).fields, f.codec.WF

end Pb
