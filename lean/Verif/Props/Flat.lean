import Verif.Proofs.FlatExists
import Verif.Props.Program
/-
C61: Size, Marshal and Unmarshal on raw memory.
-/
namespace Pb.Props
open Spec Flat

/-- C61. Size of a message in memory: the pointer arithmetic finds the fields, and every load is in bounds, aligned and of the
right type. `d` is any bound on the depth of the recursion that the message does not exceed. -/
theorem C61_size {lay : Lay} {env : Env} (hlay : lay.OK) (hwf : WFEnv lay.shapes env) {m : Mem} {t : TypeId} {b : Nat} {v : Val}
    {B : List Nat} (hm : Holds lay m t b v B) {n d : Nat} (h : size env (.msg t v) = .ok n) (hd : v.depth < d) :
    sizeMsgF lay env m d t ⟨b, 0⟩ = .ok n := by
  refine sizeMsgF_of hlay hwf d t b v B n hm.1 ?_
  rw [← h]
  exact (sizeMsg_depth env t v (v.depth + 1) d (by omega) hd).symm

/-- C61. Marshal of a message in memory appends the bytes of its value. -/
theorem C61_marshal {lay : Lay} {env : Env} (hlay : lay.OK) (hwf : WFEnv lay.shapes env) {m : Mem} {t : TypeId} {b : Nat} {v : Val}
    {B : List Nat} (hm : Holds lay m t b v B) {bs : Bytes} {d : Nat} (h : marshal env (.msg t v) = .ok (.ok bs)) (hd : v.depth < d) :
    marshalF lay env m d t ⟨b, 0⟩ = .ok bs := by
  simp only [marshal, bind, Except.bind] at h
  rcases hs : sizeMsg env (v.depth + 1) t v with e | n <;> rw [hs] at h
  · cases h
  rcases he : encodeMsg env (v.depth + 1) t [] v with e | o <;> simp only [he] at h
  · cases h
  cases h
  rw [sizeMsg_depth env t v (v.depth + 1) d (by omega) hd] at hs
  rw [encodeMsg_depth env t v (v.depth + 1) d (by omega) hd] at he
  simp only [marshalF, sizeMsgF_of hlay hwf d t b v B n hm.1 hs, encodeMsgF_of hlay hwf d t [] b v B bs hm.1 he, bind, Except.bind]

/-- The bytes of a message that belong to a tagged field. -/
def IsTagged (lay : Lay) (env : Env) (t : TypeId) (i : Nat) : Prop :=
  ∃ f ∈ (env t).fields, lay.off t f.offset ≤ i ∧ i < lay.off t f.offset + f.codec.shape.size

/-- What may have changed in memory when Unmarshal returns: the bytes of tagged fields of the message, and the allocations `B`
reached from it. -/
structure OnlyMessage (lay : Lay) (env : Env) (t : TypeId) (b : Nat) (B : List Nat) (m m' : Mem) : Prop where
  others : ∀ x, x < m.length → x ≠ b → x ∉ B → m'[x]? = m[x]?
  itself : ∀ cs, m[b]? = some (.mem cs) → ∃ cs', m'[b]? = some (.mem cs') ∧ cs'.length = cs.length ∧
    ∀ i, ¬ IsTagged lay env t i → cs'[i]? = cs[i]?
  /-- nothing is freed -/
  kept : m.length ≤ m'.length

/-- C61. Unmarshal of any bytes into a message in memory, whatever the message holds: there is no load or store out of bounds,
misaligned, or of a pointer that is none; the outcome is that of `unmarshal` on the value; the message holds the resulting
value afterwards, in allocations that are its own; nothing else has changed. `grow` is the capacity that `append` chooses. -/
theorem C61_unmarshal {lay : Lay} {env : Env} (hlay : lay.OK) (hwf : WFEnv lay.shapes env) {grow : Nat → Nat → Nat}
    (hgrow : ∀ c n, n ≤ grow c n) {m : Mem} {t : TypeId} {b : Nat} {v : Val} {B : List Nat} (hm : Holds lay m t b v B)
    (hv : FitsMsg lay.shapes t v) (bs : Bytes) :
    ∃ m' v' B' err, unmarshalF grow lay env bs t m ⟨b, 0⟩ = .ok (m', err) ∧
      unmarshal env bs (.msg t v) = .ok ⟨.msg t v', err⟩ ∧ Holds lay m' t b v' B' ∧ OnlyMessage lay env t b B m m' ∧
      ∀ x ∈ B', x ∈ B ∨ m.length ≤ x := by
  obtain ⟨v', err, h1, h2, h3⟩ := C03_unmarshal_safe hwf bs t v hv
  simp only [unmarshal] at h1 ⊢
  simp only [unmarshalF]
  by_cases hb : bs.length = 0
  · rw [if_pos hb, if_pos hb]
    exact ⟨m, v, B, none, rfl, rfl, hm, ⟨fun _ _ _ _ => rfl, fun cs h => ⟨cs, h, rfl, fun _ _ => rfl⟩, Nat.le_refl _⟩,
      fun _ h => .inl h⟩
  rw [if_neg hb] at h1
  rw [if_neg hb, if_neg hb]
  simp only [bind, Except.bind] at h1 ⊢
  rcases hr : decodeMsg env (bs.length + 1) t bs v with e | q <;> rw [hr] at h1
  · cases h1
  obtain ⟨m', B', f1, f2, f3, f4, f5⟩ := decodeMsg_sim hlay hwf hgrow (bs.length + 1) t bs m b v B q hm.1 hm.2 hr
  have ho : OnlyMessage lay env t b B m m' := ⟨f4.same, f4.here, f4.len⟩
  rw [f1]
  cases q with
  | err w e => exact ⟨m', w, B', some (.decode e), rfl, rfl, ⟨f2, f3⟩, ho, f5⟩
  | ok w n =>
    simp only [outOf]
    by_cases hn : n < bs.length
    · rw [if_pos hn, if_pos hn]
      exact ⟨m', w, B', _, rfl, rfl, ⟨f2, f3⟩, ho, f5⟩
    · rw [if_neg hn, if_neg hn]
      exact ⟨m', w, B', none, rfl, rfl, ⟨f2, f3⟩, ho, f5⟩

/-- C61. `new(T)`: a zeroed allocation holds the zero message. -/
theorem C61_new {lay : Lay} {env : Env} (hlay : lay.OK) (hwf : WFEnv lay.shapes env) (m : Mem) (t : TypeId) :
    Holds lay (m ++ [.mem (zeroCells (lay.size t))]) t m.length (env t).zero [] := by
  refine ⟨⟨_, _, hwf.zero t, alloc_get m _, by simp, ?_⟩, by simp⟩
  have := repF_zero lay (m ++ [.mem (zeroCells (lay.size t))]) (lay.size t) (lay.slots t) (hlay.within t)
  simpa [Lay.shapes, Function.comp_def] using this

/-- C61. Every value that the type allows has a representation in memory, so the theorems above are about all messages. -/
theorem C61_representable {lay : Lay} (hlay : lay.OK) (hkeys : ∀ t, ∀ s ∈ lay.shapes t, KeysOK s) (t : TypeId) (v : Val)
    (hv : FitsMsg lay.shapes t v) : ∃ m b B, Holds lay m t b v B := by
  obtain ⟨m, cs, B, _, h1, h2, _⟩ := able_of_fits hlay hkeys hv trivial []
  cases h1 with
  | msg _ b cs vs B h3 h4 h5 => exact ⟨m, b, B, ⟨vs, cs, rfl, h3, h4, h5⟩, h2⟩

/-- C61. The layout of the Go compiler has what the theorems above ask for. -/
theorem C61_layout (types : TypeId → List GoField) (h : ∀ t, ∀ f ∈ types t, f.OK) :
    (goLay types).OK ∧ ∀ t, (goLay types).shapes t = (types t).map GoField.shape := by
  refine ⟨goLay_ok types h, fun t => ?_⟩
  have key : ∀ (fs : List GoField) o, (place o fs).map (·.2) = fs.map GoField.shape := by
    intro fs
    induction fs with
    | nil => intro o; rfl
    | cons f fs ih => intro o; simp [place, ih]
  exact key _ _

/-- C61. Through memory and back: Marshal reads the message at `b`, Unmarshal builds an equal one in new memory; the first one is
as it was. Partial: as in C01, for messages without nil elements and such, and without the map types of C02's counterexample. -/
theorem C61_round_trip_partial {lay : Lay} {env : Env} (hlay : lay.OK) (hg : Good lay.shapes env) {grow : Nat → Nat → Nat}
    (hgrow : ∀ c n, n ≤ grow c n) {m : Mem} {t : TypeId} {b : Nat} {vs : List Val} {B : List Nat}
    (hm : Holds lay m t b (.struct vs) B) (hv : FitsMsg lay.shapes t (.struct vs)) (ho : EncOKMsg env t (.struct vs))
    (hc : Canon env (.msg t) (.ptr (.struct vs))) {d : Nat} (hd : (Val.struct vs).depth < d)
    (hl : ∀ n, size env (.msg t (.struct vs)) = .ok n → n < 2 ^ 64) :
    ∃ bs m' w B', marshalF lay env m d t ⟨b, 0⟩ = .ok bs ∧
      unmarshalF grow lay env bs t (m ++ [.mem (zeroCells (lay.size t))]) ⟨m.length, 0⟩ = .ok (m', none) ∧
      Holds lay m' t m.length w B' ∧ w.obs = (Val.struct vs).obs ∧ Holds lay m' t b (.struct vs) B := by
  obtain ⟨bs, h1, h2⟩ := C02_size_is_length_partial hg t _ hv ho
  obtain ⟨w, h3, h4⟩ := C01_round_trip_partial hg t vs bs hv ho hc h1 (hl _ h2)
  obtain ⟨m', v', B', err, g1, g2, g3, g4, g5⟩ := C61_unmarshal hlay hg.wf hgrow (C61_new hlay hg.wf m t) (hg.wf.zero_fits t) bs
  rw [h3] at g2
  cases g2
  refine ⟨bs, m', w, B', C61_marshal hlay hg.wf hm h1 hd, g1, g3, h4, ?_⟩
  obtain ⟨⟨vs', cs, e, k1, k2, k3⟩, k4⟩ := hm
  have hlb := lt_of_get k1
  have hlB := repF_lt k3
  have keep : ∀ x, x < m.length → m'[x]? = m[x]? := fun x hx => by
    rw [g4.others x (by simp; omega) (by omega) (by simp), List.getElem?_append_left hx]
  refine ⟨⟨vs', cs, e, by rw [keep b hlb]; exact k1, k2, repF_mem ?_ k3 fun x hx => keep x (hlB x hx)⟩, k4⟩
  intro x s hx
  rw [keep x (lt_of_get hx)]; exact hx

/-- C61 for programs: Unmarshal into a message of a declared type that is laid out by the compiler. Partial: it needs
`ProgramSane` (see `C03_program_safe_partial`). -/
theorem C61_program_partial (D : Decls) (h : ProgramSane D) (types : TypeId → List GoField) (hf : ∀ t, ∀ f ∈ types t, f.OK)
    (hD : ∀ t, (types t).map GoField.shape = layoutOf D t) {grow : Nat → Nat → Nat} (hgrow : ∀ c n, n ≤ grow c n) (m : Mem)
    (t : TypeId) (bs : Bytes) :
    ∃ m' v' B' err, unmarshalF grow (goLay types) (envOf D) bs t (m ++ [.mem (zeroCells ((goLay types).size t))]) ⟨m.length, 0⟩ =
        .ok (m', err) ∧
      unmarshal (envOf D) bs (.msg t (zeroStruct (D t))) = .ok ⟨.msg t v', err⟩ ∧ Holds (goLay types) m' t m.length v' B' ∧
      (∀ x, x < m.length → m'[x]? = m[x]?) ∧ ∀ x ∈ B', m.length < x := by
  have hs : (goLay types).shapes = layoutOf D := by
    funext t
    rw [(C61_layout types hf).2 t, hD t]
  have hwf := (wf_of_sane h).2.1
  rw [← hs] at hwf
  have hz : (envOf D t).zero = zeroStruct (D t) := by
    rw [hwf.zero t, hs, zeroStruct_layout]
  obtain ⟨m', v', B', err, g1, g2, g3, g4, g5⟩ := C61_unmarshal (C61_layout types hf).1 hwf hgrow
    (C61_new (C61_layout types hf).1 hwf m t) (hwf.zero_fits t) bs
  rw [hz] at g2
  refine ⟨m', v', B', err, g1, g2, g3, fun x hx => ?_, fun x hx => ?_⟩
  · rw [g4.others x (by simp; omega) (by omega) (by simp), List.getElem?_append_left hx]
  · rcases g5 x hx with h | h
    · cases h
    · simp at h; omega

/-! ### Examples -/

/-- A field with the size and alignment of its shape. -/
def goField (s : Shape) : GoField := ⟨s, s.size, s.align⟩

/-- The fields of the sample program; `cache interface{}` has 16 bytes. -/
def sampleTypes : TypeId → List GoField
  | 0 => [goField .w32, goField .str, goField (.slice (.msg 0)), goField (.opt .w64), goField (.map .str .str), ⟨.opaque, 16, 8⟩,
      goField .bytes, goField (.msg 0)]
  | 1 => [goField .b8, goField .w32, goField (.slice .w64), goField (.ptr .w64)]
  | 2 => [goField .b8, goField .w32]
  | _ => []

theorem goField_ok (s : Shape) : (goField s).OK := ⟨Nat.le_refl _, align_pos s, Nat.mod_self _⟩

theorem sampleTypes_ok : ∀ t, ∀ f ∈ sampleTypes t, f.OK := by
  intro t f hf
  match t with
  | 0 =>
    simp only [sampleTypes, List.mem_cons, List.not_mem_nil, or_false] at hf
    rcases hf with rfl | rfl | rfl | rfl | rfl | rfl | rfl | rfl <;> first | exact goField_ok _ | simp [GoField.OK, Shape.size, Shape.align]
  | 1 =>
    simp only [sampleTypes, List.mem_cons, List.not_mem_nil, or_false] at hf
    rcases hf with rfl | rfl | rfl | rfl <;> exact goField_ok _
  | 2 =>
    simp only [sampleTypes, List.mem_cons, List.not_mem_nil, or_false] at hf
    rcases hf with rfl | rfl <;> exact goField_ok _
  | _ + 3 => simp [sampleTypes] at hf

theorem sampleTypes_shapes : (goLay sampleTypes).shapes = Sample.layout := by
  funext t
  match t with
  | 0 | 1 | 2 => rfl
  | _ + 3 => rfl

-- offsets and size of `Node`, as the compiler lays it out
example : (goLay sampleTypes).slots 0 = [(0, .w32), (8, .str), (24, .slice (.msg 0)), (48, .opt .w64), (64, .map .str .str),
    (72, .opaque), (88, .bytes), (112, .msg 0)] ∧ (goLay sampleTypes).size 0 = 120 := ⟨rfl, rfl⟩
-- padding within and at the end
example : (goLay sampleTypes).slots 1 = [(0, .b8), (4, .w32), (8, .slice .w64), (32, .ptr .w64)] ∧
    (goLay sampleTypes).size 1 = 40 ∧ (goLay sampleTypes).size 2 = 8 := ⟨rfl, rfl, rfl⟩

theorem sample_keys : ∀ t, ∀ s ∈ (goLay sampleTypes).shapes t, KeysOK s := by
  rw [sampleTypes_shapes]
  intro t s hs
  match t with
  | 0 =>
    simp only [Sample.layout, List.mem_cons, List.not_mem_nil, or_false] at hs
    rcases hs with rfl | rfl | rfl | rfl | rfl | rfl | rfl | rfl <;> simp [KeysOK, Shape.isKey]
  | 1 =>
    simp only [Sample.layout, List.mem_cons, List.not_mem_nil, or_false] at hs
    rcases hs with rfl | rfl | rfl | rfl <;> simp [KeysOK]
  | 2 =>
    simp only [Sample.layout, List.mem_cons, List.not_mem_nil, or_false] at hs
    rcases hs with rfl | rfl <;> simp [KeysOK]
  | _ + 3 => simp [Sample.layout] at hs

-- all hypotheses at once, for a message with a string, a slice, an option, a map and pointers to other messages
example : (goLay sampleTypes).OK ∧ WFEnv (goLay sampleTypes).shapes Sample.env ∧
    ∃ m b B, Holds (goLay sampleTypes) m 0 b Sample.node B ∧ FitsMsg (goLay sampleTypes).shapes 0 Sample.node ∧
      ∃ bs, marshal Sample.env (.msg 0 Sample.node) = .ok (.ok bs) ∧ bs.length = 37 := by
  have hl := (C61_layout sampleTypes sampleTypes_ok).1
  have hs := sampleTypes_shapes
  have hf : FitsMsg (goLay sampleTypes).shapes 0 Sample.node := by rw [hs]; exact Sample.node_fits
  obtain ⟨m, b, B, hm⟩ := C61_representable hl sample_keys 0 Sample.node hf
  exact ⟨hl, by rw [hs]; exact Sample.wf, m, b, B, hm, hf, _, rfl, rfl⟩

-- and those of the round trip
example : Good (goLay sampleTypes).shapes Sample.env ∧ EncOKMsg Sample.env 0 Sample.plain ∧
    Canon Sample.env (.msg 0) (.ptr Sample.plain) ∧ ∃ m b B, Holds (goLay sampleTypes) m 0 b Sample.plain B := by
  rw [sampleTypes_shapes]
  exact ⟨Sample.good, encOK_of_types Sample.good Sample.mapsSized 0 _ Sample.plain_fits, Sample.plain_canon,
    C61_representable (C61_layout sampleTypes sampleTypes_ok).1 sample_keys 0 Sample.plain
      (by rw [sampleTypes_shapes]; exact Sample.plain_fits)⟩

/-- A message `Flat{Flag: true, Crc: 258, Vals: [v], Ref: &5}` in memory: allocation 1 is the array of `Vals`, with room for
two, allocation 2 is `*Ref`. -/
def flatMem : Mem :=
  [.mem ([.byte 1, .byte 0, .byte 0, .byte 0, .byte 2, .byte 1, .byte 0, .byte 0] ++ sliceCells (some ⟨1, 0⟩) 1 2 ++
      ptrCells (some ⟨2, 0⟩)),
    .mem (byteCells [1, 2, 3, 4, 5, 6, 7, 8] ++ zeroCells 8), .mem (byteCells [5, 0, 0, 0, 0, 0, 0, 0])]

-- Marshal reads the fields at their offsets
example : marshalF (goLay sampleTypes) Sample.env flatMem 2 1 ⟨0, 0⟩ =
    .ok [8, 1, 21, 2, 1, 0, 0, 25, 1, 2, 3, 4, 5, 6, 7, 8, 32, 5] := by rfl

-- Unmarshal of `Vals: 9, 9`: the first fills the spare element, then the array is replaced by a longer one
example : ∃ m', unmarshalF (fun _ n => n) (goLay sampleTypes) Sample.env
      [25, 9, 0, 0, 0, 0, 0, 0, 0, 25, 10, 0, 0, 0, 0, 0, 0, 0] 1 flatMem ⟨0, 0⟩ = .ok (m', none) ∧
    m'.length = 4 ∧ m'[1]? = some (.mem (byteCells [1, 2, 3, 4, 5, 6, 7, 8] ++ byteCells [9, 0, 0, 0, 0, 0, 0, 0])) ∧
    m'[3]? = some (.mem (byteCells [1, 2, 3, 4, 5, 6, 7, 8] ++ byteCells [9, 0, 0, 0, 0, 0, 0, 0] ++
      byteCells [10, 0, 0, 0, 0, 0, 0, 0] ++ zeroCells 8)) := ⟨_, by rfl, by rfl, by rfl, by rfl⟩

/-! ### Where Marshal leaves its memory -/

/-- `struct { M map[string]bool }` -/
def flagMap : Decls := single (Sample.tagged3 "bytes,1,rep" "bytes,1,opt" "varint,2,opt" .string .bool)

theorem flagMap_env : envOf flagMap = mapEnv 10#64 16#64 .string .bool .string .bool := by
  funext t
  match t with
  | 0 => rfl
  | _ + 1 => rfl

/-- Its layout. -/
def flagTypes : TypeId → List GoField
  | 0 => [goField (.map .str .b8)]
  | _ => []

/-- A message with one entry in its map, `"a": true`. -/
def flagMem : Mem := [.mem (ptrCells (some ⟨1, 0⟩)), .map [(2, 3)], .mem (ptrCells (some ⟨4, 0⟩) ++ intCells 1),
  .mem (boolCells true), .ro [97]]

/-- C61 is false for Marshal without the hypothesis that `marshal` returns: map.go:80 takes the value of a map entry for a key,
here one byte for the sixteen of a string header, so Marshal reads beyond the allocation. -/
theorem C61_false_for_mixed_maps :
    (∀ t, (flagTypes t).map GoField.shape = layoutOf flagMap t) ∧ WFEnv (goLay flagTypes).shapes (envOf flagMap) ∧
    Holds (goLay flagTypes) flagMem 0 0 (.struct [.map false [(.str [97], .b8 true)]]) [1, 2, 3] ∧
    sizeMsgF (goLay flagTypes) (envOf flagMap) flagMem 5 0 ⟨0, 0⟩ = .ok 7 ∧
    marshalF (goLay flagTypes) (envOf flagMap) flagMem 5 0 ⟨0, 0⟩ = .error .oob := by
  rw [flagMap_env]
  refine ⟨?_, ⟨?_, ?_, ?_⟩, ⟨⟨_, _, rfl, rfl, rfl, ?_⟩, by simp⟩, by rfl, by rfl⟩
  · intro t
    match t with
    | 0 | _ + 1 => rfl
  · intro t
    match t with
    | 0 | _ + 1 => rfl
  · intro t f hf
    match t with
    | 0 =>
      simp only [mapEnv, List.mem_cons, List.not_mem_nil, or_false] at hf
      subst hf; rfl
    | _ + 1 => simp [mapEnv] at hf
  · intro t f hf
    match t with
    | 0 =>
      simp only [mapEnv, List.mem_cons, List.not_mem_nil, or_false] at hf
      subst hf
      simp [Codec.WF, Codec.shape, Shape.isKey, Scalar.shape, Shape.zero]
    | _ + 1 => simp [mapEnv] at hf
  · have hk : Rep (goLay flagTypes) flagMem .str (ptrCells (some ⟨4, 0⟩) ++ intCells 1) (.str [97]) [] :=
      .str ⟨4, 0⟩ [97] [97] rfl rfl (by simp)
    have hm : RepM (goLay flagTypes) flagMem .str .b8 [(2, 3)] [(.str [97], .b8 true)] [2, 3] :=
      .cons .str .b8 2 3 _ _ (.str [97]) (.b8 true) [] [] [] [] rfl hk rfl (.b8 true) (.nil _ _)
    exact .cons 0 _ [] _ _ [] [1, 2, 3] [] (by simp [goField, Shape.size]) (.map .str .b8 1 [(2, 3)] _ [2, 3] rfl hm) (.nil _)

end Pb.Props
