import Verif.Proofs.GraphUse
import Verif.Props.Total
/-
C63: messages that share memory, or that form cycles.
-/
namespace Pb.Props
open Spec Flat

variable {lay : Lay} {env : Env} {T : Types} {m : Mem}

/-- C63. Unmarshal of any bytes into any memory that is typed, however messages, slices and maps in it share and whatever cycles
there are: no load or store is out of bounds, misaligned or confused; memory is typed as before, and new allocations are; text,
keys of maps and allocations that are not known to the program are as before; and the error depends only on the bytes and the type,
as it is the one that `unmarshal` reports for the zero message. -/
theorem C63_unmarshal (hlay : lay.OK) (hwf : WFEnv lay.shapes env) {grow : Nat → Nat → Nat} (hgrow : ∀ c n, n ≤ grow c n)
    (h : Graph lay T m) {t : TypeId} {a : Addr} (ha : MsgAt lay T a t) (bs : Bytes) :
    ∃ m' X err v', unmarshalF grow lay env bs t m a = .ok (m', err) ∧ Graph lay (T ++ X) m' ∧
      unmarshal env bs (.msg t (env t).zero) = .ok ⟨.msg t v', err⟩ ∧
      ∀ b : Nat, T[b]? = some .other ∨ (∃ s, T[b]? = some (.text s)) ∨ (∃ s x, T[b]? = some (.key s x)) → m'[b]? = m[b]? := by
  obtain ⟨v', err, h1, _, _⟩ := C03_unmarshal_safe hwf bs t (env t).zero (hwf.zero_fits t)
  simp only [unmarshal] at h1 ⊢
  simp only [unmarshalF]
  by_cases hb : bs.length = 0
  · rw [if_pos hb, if_pos hb]
    exact ⟨m, [], none, _, rfl, by simpa using h, rfl, fun _ _ => rfl⟩
  rw [if_neg hb] at h1
  rw [if_neg hb, if_neg hb]
  simp only [bind, Except.bind] at h1 ⊢
  rcases hr : decodeMsg env (bs.length + 1) t bs (env t).zero with e | q <;> rw [hr] at h1
  · cases h1
  obtain ⟨m', T', f1, f2, f3⟩ := decodeMsg_graph hlay hwf hgrow (bs.length + 1) t bs _ q hr T m a h ha
  obtain ⟨X, rfl⟩ := f3.ext
  have hs : ∀ b : Nat, T[b]? = some .other ∨ (∃ s, T[b]? = some (.text s)) ∨ (∃ s x, T[b]? = some (.key s x)) →
      m'[b]? = m[b]? := by
    rintro b (hb | ⟨s, hb⟩ | ⟨s, x, hb⟩) <;> exact f3.same b _ hb trivial
  rw [f1]
  cases q with
  | err w e => exact ⟨m', X, some (.decode e), _, rfl, f2, rfl, hs⟩
  | ok w n =>
    simp only [outOf]
    by_cases hn : n < bs.length
    · rw [if_pos hn, if_pos hn]
      exact ⟨m', X, _, _, rfl, f2, rfl, hs⟩
    · rw [if_neg hn, if_neg hn]
      exact ⟨m', X, none, _, rfl, f2, rfl, hs⟩

/-- C63. `new(T)`. -/
theorem C63_new (hlay : lay.OK) (h : Graph lay T m) (t : TypeId) :
    ∃ κ, Graph lay (T ++ [κ]) (m ++ [.mem (zeroCells (lay.size t))]) ∧ MsgAt lay (T ++ [κ]) ⟨m.length, 0⟩ t := by
  obtain ⟨κ, h1, _, h2⟩ := graph_newMsg hlay h t
  exact ⟨κ, h1, h2⟩

/-- C63. Assignment: between calls, a program may put any value of the right type into any variable (field, element, pointed-to
variable), for example a pointer to any message of the type, also one that other fields point to. -/
theorem C63_assign (h : Graph lay T m) {a : Addr} {s : Shape} (ha : SlotAt T a s) {cs : List Cell} (hc : Sound lay T s cs) :
    ∃ m', store m a cs s.align = .ok m' ∧ Graph lay T m' := by
  obtain ⟨m', h1, h2, _⟩ := graph_assign h ha hc
  exact ⟨m', h1, h2⟩

/-- C63. Size of a message from which no infinite path of messages leads away, with whatever sharing: the message unfolds to a
tree `v` that its type allows, and its size is that of the tree. -/
theorem C63_size (hwf : WFEnv lay.shapes env) (h : Graph lay T m) {t : TypeId} {a : Addr} (ha : MsgAt lay T a t)
    (hf : Finite lay env m t a) :
    ∃ v n, Unfolds lay env m t a v ∧ FitsMsg lay.shapes t v ∧ size env (.msg t v) = .ok n ∧
      ∀ d, v.depth < d → sizeMsgF lay env m d t a = .ok n := by
  obtain ⟨v, h1, h2⟩ := unfolds_of_finite hwf h hf ha
  obtain ⟨n, h3⟩ := C62_size_total hwf t v h2
  refine ⟨v, n, h1, h2, h3, fun d hd => ?_⟩
  rw [sizeMsgF_eq hwf d t a v h1, ← h3]
  exact (sizeMsg_depth env t v (v.depth + 1) d (by omega) hd).symm

/-- C63. Marshal likewise. Partial as in C62, see `C62_false_for_mixed_maps`. -/
theorem C63_marshal_partial (hwf : WFEnv lay.shapes env) (hm : ∀ t, ∀ f ∈ (env t).fields, f.codec.MapsShaped) (h : Graph lay T m)
    {t : TypeId} {a : Addr} (ha : MsgAt lay T a t) (hf : Finite lay env m t a) :
    ∃ v bs, Unfolds lay env m t a v ∧ FitsMsg lay.shapes t v ∧ marshal env (.msg t v) = .ok (.ok bs) ∧
      ∀ d, v.depth < d → marshalF lay env m d t a = .ok bs := by
  obtain ⟨v, h1, h2⟩ := unfolds_of_finite hwf h hf ha
  obtain ⟨bs, h3⟩ := C62_marshal_total_partial hwf hm t v h2
  refine ⟨v, bs, h1, h2, h3, fun d hd => ?_⟩
  simp only [marshal, bind, Except.bind] at h3
  rcases hs : sizeMsg env (v.depth + 1) t v with e | n <;> rw [hs] at h3
  · cases h3
  rcases he : encodeMsg env (v.depth + 1) t [] v with e | o <;> simp only [he] at h3
  · cases h3
  cases h3
  rw [sizeMsg_depth env t v (v.depth + 1) d (by omega) hd] at hs
  rw [encodeMsg_depth env t v (v.depth + 1) d (by omega) hd] at he
  simp only [marshalF, sizeMsgF_eq hwf d t a v h1, encodeMsgF_eq hwf hm d t [] a v h1, hs, he, bind, Except.bind]

/-- C63. When there is an infinite path, that is when messages form a cycle, neither Size nor Marshal returns: no depth of
recursion is enough. -/
theorem C63_never_returns (hwf : WFEnv lay.shapes env) (h : Graph lay T m) {t : TypeId} {a : Addr} (ha : MsgAt lay T a t)
    (hf : ¬ Finite lay env m t a) (d : Nat) :
    sizeMsgF lay env m d t a = .error .depth ∧ marshalF lay env m d t a = .error .depth := by
  rcases sizeMsgF_deep hwf h d t a ha with ⟨_, h2⟩ | h1
  · exact absurd h2 hf
  · exact ⟨h1, by simp only [marshalF, h1, bind, Except.bind]⟩

/-- C63. So Size returns exactly if there is no infinite path. -/
theorem C63_returns_iff (hwf : WFEnv lay.shapes env) (h : Graph lay T m) {t : TypeId} {a : Addr} (ha : MsgAt lay T a t) :
    (∃ d n, sizeMsgF lay env m d t a = .ok n) ↔ Finite lay env m t a := by
  constructor
  · rintro ⟨d, n, hd⟩
    rcases sizeMsgF_deep hwf h d t a ha with ⟨_, h2⟩ | h1
    · exact h2
    · rw [h1] at hd; cases hd
  · intro hf
    obtain ⟨v, n, _, _, _, h4⟩ := C63_size hwf h ha hf
    exact ⟨_, n, h4 (v.depth + 1) (by omega)⟩

/-- C63. Sharing is lost, values are not: Marshal of a message with sharing, then Unmarshal into new memory, gives a message that
holds an equal tree in memory of its own. Partial as C01. -/
theorem C63_round_trip_partial (hlay : lay.OK) (hg : Good lay.shapes env) (hm : ∀ t, ∀ f ∈ (env t).fields, f.codec.MapsShaped)
    {grow : Nat → Nat → Nat} (hgrow : ∀ c n, n ≤ grow c n) {t : TypeId} {a : Addr} {vs : List Val}
    (hu : Unfolds lay env m t a (.struct vs)) (hv : FitsMsg lay.shapes t (.struct vs)) (ho : EncOKMsg env t (.struct vs))
    (hc : Canon env (.msg t) (.ptr (.struct vs))) {d : Nat} (hd : (Val.struct vs).depth < d)
    (hl : ∀ n, size env (.msg t (.struct vs)) = .ok n → n < 2 ^ 64) :
    ∃ bs m' w B', marshalF lay env m d t a = .ok bs ∧
      unmarshalF grow lay env bs t (m ++ [.mem (zeroCells (lay.size t))]) ⟨m.length, 0⟩ = .ok (m', none) ∧
      Holds lay m' t m.length w B' ∧ w.obs = (Val.struct vs).obs ∧ ∀ x < m.length, m'[x]? = m[x]? := by
  obtain ⟨bs, h1, h2⟩ := C02_size_is_length_partial hg t _ hv ho
  obtain ⟨w, h3, h4⟩ := C01_round_trip_partial hg t vs bs hv ho hc h1 (hl _ h2)
  obtain ⟨m', v', B', err, g1, g2, g3, g4, g5⟩ := C61_unmarshal hlay hg.wf hgrow (C61_new hlay hg.wf m t) (hg.wf.zero_fits t) bs
  rw [h3] at g2
  cases g2
  refine ⟨bs, m', w, B', ?_, g1, g3, h4, fun x hx => ?_⟩
  · simp only [marshal, bind, Except.bind] at h1
    rcases hs : sizeMsg env ((Val.struct vs).depth + 1) t (.struct vs) with e | n <;> rw [hs] at h1
    · cases h1
    rcases he : encodeMsg env ((Val.struct vs).depth + 1) t [] (.struct vs) with e | o <;> simp only [he] at h1
    · cases h1
    cases h1
    rw [sizeMsg_depth env t _ _ d (by omega) hd] at hs
    rw [encodeMsg_depth env t _ _ d (by omega) hd] at he
    simp only [marshalF, sizeMsgF_eq hg.wf d t a _ hu, encodeMsgF_eq hg.wf hm d t [] a _ hu, hs, he, bind, Except.bind]
  · rw [g4.others x (by simp; omega) (by omega) (by simp), List.getElem?_append_left hx]

/-! ### Examples -/

/-- A memory of nodes of the sample program: all fields of node `i` are zero but `Next`. -/
def nodes (next : List (Option Addr)) : Mem := next.map fun p => .mem (zeroCells 112 ++ ptrCells p)

/-- Types of this memory. -/
def nodeTypes (n : Nat) : Types := List.replicate n (.mem 120 ((goLay sampleTypes).slots 0))

theorem sampleLay_ok : (goLay sampleTypes).OK := (C61_layout sampleTypes sampleTypes_ok).1
theorem sampleLay_wf : WFEnv (goLay sampleTypes).shapes Sample.env := by rw [sampleTypes_shapes]; exact Sample.wf

theorem node_at {n i : Nat} (h : i < n) : MsgAt (goLay sampleTypes) (nodeTypes n) ⟨i, 0⟩ 0 :=
  ⟨120, (goLay sampleTypes).slots 0, by simp [nodeTypes, h], fun q hq => by simpa using hq⟩

/-- Nodes with arbitrary `Next`. -/
theorem nodes_graph (next : List (Option Addr)) (h : ∀ p ∈ next, ∀ a, p = some a → a.off = 0 ∧ a.blk < next.length) :
    Graph (goLay sampleTypes) (nodeTypes next.length) (nodes next) := by
  refine ⟨by simp [nodeTypes, nodes], fun b κ o hκ ho => ?_⟩
  simp only [nodes, List.getElem?_map, Option.map_eq_some_iff] at ho
  obtain ⟨p, hp, rfl⟩ := ho
  have hlt := (List.getElem?_eq_some_iff.mp hp).1
  simp only [nodeTypes, List.getElem?_replicate, hlt, if_true, Option.some.injEq] at hκ
  subst hκ
  refine ⟨slotsOK_msg sampleLay_ok 0, by cases p <;> simp [ptrCells], fun q hq => ?_⟩
  have hz : ∀ o n, o + n ≤ 112 → ((zeroCells 112 ++ ptrCells p).drop o).take n = zeroCells n := by
    intro o n hon
    rw [List.drop_append_of_le_length (by simp; omega), List.take_append_of_le_length (by simp; omega)]
    simp only [zeroCells, List.drop_replicate, List.take_replicate]
    congr 1; omega
  have hs : (goLay sampleTypes).slots 0 = [(0, .w32), (8, .str), (24, .slice (.msg 0)), (48, .opt .w64), (64, .map .str .str),
    (72, .opaque), (88, .bytes), (112, .msg 0)] := rfl
  rw [hs] at hq
  simp only [List.mem_cons, List.not_mem_nil, or_false] at hq
  rcases hq with rfl | rfl | rfl | rfl | rfl | rfl | rfl | rfl
  all_goals first
    | (rw [hz _ _ (by decide)]; exact sound_zero _ _ _)
    | skip
  have : ((zeroCells 112 ++ ptrCells p).drop 112).take (Shape.msg 0).size = ptrCells p := by
    rw [List.drop_left' (by simp)]
    exact List.take_of_length_le (by cases p <;> simp [ptrCells, Shape.size])
  simp only [this]
  cases p with
  | none => exact .inl rfl
  | some a =>
    have := h _ (List.mem_of_getElem? hp) a rfl
    obtain ⟨ab, ao⟩ := a
    simp only at this
    obtain ⟨rfl, h2⟩ := this
    exact .inr ⟨_, rfl, node_at h2⟩

/-- Nodes 0 and 1 have node 2 as `Next`; node 3 has itself, nodes 4 and 5 each other. -/
def sharing : Mem := nodes [some ⟨2, 0⟩, some ⟨2, 0⟩, none, some ⟨3, 0⟩, some ⟨5, 0⟩, some ⟨4, 0⟩]

theorem sharing_graph : Graph (goLay sampleTypes) (nodeTypes 6) sharing :=
  nodes_graph [some ⟨2, 0⟩, some ⟨2, 0⟩, none, some ⟨3, 0⟩, some ⟨5, 0⟩, some ⟨4, 0⟩] (by
    intro p hp a ha
    subst ha
    simp only [List.mem_cons, List.not_mem_nil, or_false, Option.some.injEq, reduceCtorEq, false_or] at hp
    rcases hp with rfl | rfl | rfl | rfl | rfl <;> decide)

set_option maxRecDepth 8000 in
-- the hypotheses of all theorems above but the last, for messages that share
example : (goLay sampleTypes).OK ∧ WFEnv (goLay sampleTypes).shapes Sample.env ∧
    Graph (goLay sampleTypes) (nodeTypes 6) sharing ∧ MsgAt (goLay sampleTypes) (nodeTypes 6) ⟨0, 0⟩ 0 ∧
    Finite (goLay sampleTypes) Sample.env sharing 0 ⟨0, 0⟩ :=
  ⟨sampleLay_ok, sampleLay_wf, sharing_graph, node_at (by decide),
    (C63_returns_iff sampleLay_wf sharing_graph (node_at (by decide))).mp ⟨3, 6, by rfl⟩⟩

set_option maxRecDepth 8000 in
/-- C63: what Unmarshal does to other messages when memory is shared. Node 1 is not the one that is decoded into, but it shows the
new `Id`; `C61_unmarshal` says that nothing else changes, for messages in memory of their own. -/
theorem C63_aliases_change :
    ∃ m', unmarshalF (fun _ n => n) (goLay sampleTypes) Sample.env [58, 2, 8, 5] 0 sharing ⟨0, 0⟩ = .ok (m', none) ∧
      marshalF (goLay sampleTypes) Sample.env sharing 9 0 ⟨1, 0⟩ = .ok [42, 0, 58, 2, 42, 0] ∧
      marshalF (goLay sampleTypes) Sample.env m' 9 0 ⟨1, 0⟩ = .ok [42, 0, 58, 4, 8, 5, 42, 0] := ⟨_, by rfl, by rfl, by rfl⟩

set_option maxRecDepth 8000 in
/-- C63: a node that has itself as `Next`. Unmarshal into it works; Size and Marshal of it never return. -/
theorem C63_cycle :
    (∀ d, sizeMsgF (goLay sampleTypes) Sample.env sharing d 0 ⟨3, 0⟩ = .error .depth ∧
      marshalF (goLay sampleTypes) Sample.env sharing d 0 ⟨3, 0⟩ = .error .depth) ∧
    ∃ m', unmarshalF (fun _ n => n) (goLay sampleTypes) Sample.env [58, 4, 58, 2, 8, 5] 0 sharing ⟨3, 0⟩ = .ok (m', none) ∧
      loadVal m' ⟨3, 0⟩ .w32 = .ok (.w32 5) := by
  refine ⟨C63_never_returns sampleLay_wf sharing_graph (node_at (by decide)) ?_, _, by rfl, by rfl⟩
  intro hf
  have : ∀ x, Acc (Below (goLay sampleTypes) Sample.env sharing) x → x ≠ (0, ⟨3, 0⟩) := by
    intro x hx
    induction hx with
    | intro x _ ih =>
      rintro rfl
      refine ih (0, ⟨3, 0⟩) ⟨⟨7, Sample.mkTag 7 2, .msg 0⟩, ?_, .msg _ _ _ ?_⟩ rfl
      · simp [Sample.env, Sample.fields]
      · rfl
  exact this _ hf rfl

/-- A message `Flat{Vals: [5], Ref: &Vals[0]}`, not counting that `Vals` is of floats. -/
def aliased : Mem := [.mem (zeroCells 8 ++ sliceCells (some ⟨1, 0⟩) 1 2 ++ ptrCells (some ⟨1, 0⟩)),
  .mem (byteCells [5, 0, 0, 0, 0, 0, 0, 0] ++ zeroCells 8)]

/-- What it unfolds to. -/
def aliasedTree : List Val := [.b8 false, .w32 0#32, .slice false [.w64 5#64] [], .ptr (.w64 5#64)]

-- the hypotheses of the round trip
example : Unfolds (goLay sampleTypes) Sample.env aliased 1 ⟨0, 0⟩ (.struct aliasedTree) ∧ Good Sample.layout Sample.env ∧
    FitsMsg Sample.layout 1 (.struct aliasedTree) ∧ EncOKMsg Sample.env 1 (.struct aliasedTree) ∧
    Canon Sample.env (.msg 1) (.ptr (.struct aliasedTree)) := by
  have hf : FitsMsg Sample.layout 1 (.struct aliasedTree) := by
    refine fitsMsg_iff.mpr ⟨_, rfl, rfl, ?_⟩
    intro i s v hs hv
    match i with
    | 0 => cases hs; cases hv; exact .b8 _
    | 1 => cases hs; cases hv; exact .w32 _
    | 2 => cases hs; cases hv; exact .slice _ _ _ _ (by simp) (by simp; exact .w64 _) (by simp)
    | 3 => cases hs; cases hv; exact .ptr _ _ (.w64 _)
    | _ + 4 => simp [Sample.layout] at hs
  refine ⟨⟨_, rfl, rfl, ?_⟩, Sample.good, hf, encOK_of_types Sample.good Sample.mapsSized 1 _ hf, ?_⟩
  · intro f hf v hv
    simp only [Sample.env, Sample.fields, List.mem_cons, List.not_mem_nil, or_false] at hf
    rcases hf with rfl | rfl | rfl | rfl <;> cases hv
    · exact .scalar _ _ _ trivial rfl
    · exact .scalar _ _ _ trivial rfl
    · refine .slice _ _ ⟨1, 0⟩ _ rfl rfl fun i v hv => ?_
      match i with
      | 0 => cases hv; exact .scalar _ _ _ trivial rfl
      | _ + 1 => simp at hv
    · exact .ptr _ _ ⟨1, 0⟩ _ rfl (.scalar _ _ _ trivial rfl)
  · refine .msg 1 _ _ rfl ?_ ?_
    · intro f hf v hv
      simp only [Sample.env, Sample.fields, List.mem_cons, List.not_mem_nil, or_false] at hf
      rcases hf with rfl | rfl | rfl | rfl <;> cases hv
      · exact .normal _ _
      · exact .normal _ _
      · exact .slice _ _ [_] [] (by simp [Written]) (by simp; exact .required _ _)
      · exact .ptr _ _ _ (by simp [Written, Scalar.shape, Shape.zero]) (.normal _ _)
    · intro i hi
      match i with
      | 0 => exact absurd rfl (hi ⟨0, Sample.mkTag 1 0, .normal .bool⟩ (by simp [Sample.env, Sample.fields]))
      | 1 => exact absurd rfl (hi ⟨1, Sample.mkTag 2 5, .normal .fixed32⟩ (by simp [Sample.env, Sample.fields]))
      | 2 => exact absurd rfl (hi ⟨2, Sample.mkTag 3 1, .slice (.w64 0#64) (.required .float64)⟩
          (by simp [Sample.env, Sample.fields]))
      | 3 => exact absurd rfl (hi ⟨3, Sample.mkTag 4 0, .ptr (.w64 0#64) (.normal .uint64)⟩
          (by simp [Sample.env, Sample.fields]))
      | _ + 4 => rfl

end Pb.Props
