import Verif.Spec.Back
/-
A sample program for the non-vacuity examples: a recursive message type and a flat one.

    type Node struct {                                        // type 0
      Id    int32             `protobuf:"varint,1,opt"`
      Name  string            `protobuf:"bytes,2,opt"`
      Kids  []*Node           `protobuf:"bytes,3,rep"`
      Delta Option[int64]     `protobuf:"zigzag64,4,opt"`
      Attr  map[string]string `protobuf:"bytes,5,rep" protobuf_key:"bytes,1,opt" protobuf_val:"bytes,2,opt"`
      cache interface{}
      Data  []byte            `protobuf:"bytes,6,opt"`
      Next  *Node             `protobuf:"bytes,7,opt"`
    }
    type Flat struct {                                        // type 1
      Flag  bool              `protobuf:"varint,1,opt"`
      Crc   uint32            `protobuf:"fixed32,2,opt"`
      Vals  []float64         `protobuf:"fixed64,3,rep"`
      Ref   *uint64           `protobuf:"varint,4,opt"`
    }
    type Pair struct {                                        // type 2
      Flag  bool              `protobuf:"varint,1,opt"`
      N     int32             `protobuf:"varint,2,opt"`
    }
-/
namespace Pb.Sample
open Spec

/-- A tag with consistent size. -/
def mkTag (num wt : Nat) : FTag := ⟨BitVec.ofNat 64 (8 * num + wt), sizeOfVarint (BitVec.ofNat 64 (8 * num + wt))⟩

/-- The codec of `Attr`. -/
def attrCodec : Codec :=
  .map { wiretag := 42#64, key := mkTag 1 2, val := mkTag 2 2, eKey := 10#64, eVal := 18#64, kzero := .str [],
         vzero := .str [] } (.required .string) (.required .string) (.normal .string) (.normal .string)

/-- Layouts of `Node`, `Flat`, `Pair`. -/
def layout : Layout
  | 0 => [.w32, .str, .slice (.msg 0), .opt .w64, .map .str .str, .opaque, .bytes, .msg 0]
  | 1 => [.b8, .w32, .slice .w64, .ptr .w64]
  | 2 => [.b8, .w32]
  | _ => []

/-- Fields of `Node`, `Flat`, `Pair`. -/
def fields : TypeId → List Field
  | 0 => [⟨0, mkTag 1 0, .normal .int32⟩, ⟨1, mkTag 2 2, .normal .string⟩, ⟨2, mkTag 3 2, .slice .nilp (.msg 0)⟩,
          ⟨3, mkTag 4 0, .option .zigzag64⟩, ⟨4, mkTag 5 2, attrCodec⟩, ⟨6, mkTag 6 2, .bytes⟩,
          ⟨7, mkTag 7 2, .msg 0⟩]
  | 1 => [⟨0, mkTag 1 0, .normal .bool⟩, ⟨1, mkTag 2 5, .normal .fixed32⟩,
          ⟨2, mkTag 3 1, .slice (.w64 0#64) (.required .float64)⟩, ⟨3, mkTag 4 0, .ptr (.w64 0#64) (.normal .uint64)⟩]
  | 2 => [⟨0, mkTag 1 0, .normal .bool⟩, ⟨1, mkTag 2 0, .normal .int32⟩]
  | _ => []

/-- The type infos. -/
def env : Env := fun t => { fields := fields t, zero := .struct ((layout t).map Shape.zero) }

theorem wf : WFEnv layout env where
  zero _ := rfl
  slot t f h := by
    match t with
    | 0 =>
      simp only [env, fields, List.mem_cons, List.not_mem_nil, or_false] at h
      rcases h with rfl | rfl | rfl | rfl | rfl | rfl | rfl <;> rfl
    | 1 =>
      simp only [env, fields, List.mem_cons, List.not_mem_nil, or_false] at h
      rcases h with rfl | rfl | rfl | rfl <;> rfl
    | 2 =>
      simp only [env, fields, List.mem_cons, List.not_mem_nil, or_false] at h
      rcases h with rfl | rfl <;> rfl
    | _ + 3 => simp [env, fields] at h
  codec t f h := by
    match t with
    | 0 =>
      simp only [env, fields, List.mem_cons, List.not_mem_nil, or_false] at h
      rcases h with rfl | rfl | rfl | rfl | rfl | rfl | rfl <;>
        simp [Codec.WF, Codec.shape, Shape.zero, attrCodec, Scalar.shape, Shape.isKey]
    | 1 =>
      simp only [env, fields, List.mem_cons, List.not_mem_nil, or_false] at h
      rcases h with rfl | rfl | rfl | rfl <;> simp [Codec.WF, Codec.shape, Shape.zero, Scalar.shape]
    | 2 =>
      simp only [env, fields, List.mem_cons, List.not_mem_nil, or_false] at h
      rcases h with rfl | rfl <;> simp [Codec.WF]
    | _ + 3 => simp [env, fields] at h

theorem tagsOK : TagsOK env := by
  intro t f h
  match t with
  | 0 =>
    simp only [env, fields, List.mem_cons, List.not_mem_nil, or_false] at h
    rcases h with rfl | rfl | rfl | rfl | rfl | rfl | rfl <;> simp [FTag.OK, Codec.TagsOK, attrCodec, mkTag]
  | 1 =>
    simp only [env, fields, List.mem_cons, List.not_mem_nil, or_false] at h
    rcases h with rfl | rfl | rfl | rfl <;> simp [FTag.OK, Codec.TagsOK, mkTag]
  | 2 =>
    simp only [env, fields, List.mem_cons, List.not_mem_nil, or_false] at h
    rcases h with rfl | rfl <;> simp [FTag.OK, Codec.TagsOK, mkTag]
  | _ + 3 => simp [env, fields] at h

theorem readsOK : ReadsOK env := by
  intro t f h
  match t with
  | 0 =>
    simp only [env, fields, List.mem_cons, List.not_mem_nil, or_false] at h
    rcases h with rfl | rfl | rfl | rfl | rfl | rfl | rfl <;> simp [Codec.Reads, Scalar.wire, attrCodec, mkTag, keyType]
  | 1 =>
    simp only [env, fields, List.mem_cons, List.not_mem_nil, or_false] at h
    rcases h with rfl | rfl | rfl | rfl <;> simp [Codec.Reads, Scalar.wire, mkTag, keyType]
  | 2 =>
    simp only [env, fields, List.mem_cons, List.not_mem_nil, or_false] at h
    rcases h with rfl | rfl <;> simp [Codec.Reads, Scalar.wire, mkTag, keyType]
  | _ + 3 => simp [env, fields] at h

theorem distinctSlots (t : TypeId) : DistinctSlots (env t).fields := by
  intro f hf g hg
  match t with
  | 0 =>
    simp only [env, fields, List.mem_cons, List.not_mem_nil, or_false] at hf hg
    rcases hf with rfl | rfl | rfl | rfl | rfl | rfl | rfl <;> rcases hg with rfl | rfl | rfl | rfl | rfl | rfl | rfl <;>
      simp
  | 1 =>
    simp only [env, fields, List.mem_cons, List.not_mem_nil, or_false] at hf hg
    rcases hf with rfl | rfl | rfl | rfl <;> rcases hg with rfl | rfl | rfl | rfl <;> simp
  | 2 =>
    simp only [env, fields, List.mem_cons, List.not_mem_nil, or_false] at hf hg
    rcases hf with rfl | rfl <;> rcases hg with rfl | rfl <;> simp
  | _ + 3 => simp [env, fields] at hf

open Spec in
theorem good : Good layout env where
  wf := wf
  tags := tagsOK
  writes t f h := by
    match t with
    | 0 =>
      simp only [env, fields, List.mem_cons, List.not_mem_nil, or_false] at h
      rcases h with rfl | rfl | rfl | rfl | rfl | rfl | rfl <;> simp [Codec.Writes, Scalar.wire, attrCodec, mkTag, keyType]
    | 1 =>
      simp only [env, fields, List.mem_cons, List.not_mem_nil, or_false] at h
      rcases h with rfl | rfl | rfl | rfl <;> simp [Codec.Writes, Scalar.wire, mkTag, keyType]
    | 2 =>
      simp only [env, fields, List.mem_cons, List.not_mem_nil, or_false] at h
      rcases h with rfl | rfl <;> simp [Codec.Writes, Scalar.wire, mkTag, keyType]
    | _ + 3 => simp [env, fields] at h
  supported t f h := by
    match t with
    | 0 =>
      simp only [env, fields, List.mem_cons, List.not_mem_nil, or_false] at h
      rcases h with rfl | rfl | rfl | rfl | rfl | rfl | rfl <;> try exact trivial
      exact ⟨rfl, rfl, rfl, by decide, trivial, trivial, .normal _, .normal _⟩
    | 1 =>
      simp only [env, fields, List.mem_cons, List.not_mem_nil, or_false] at h
      rcases h with rfl | rfl | rfl | rfl <;> exact trivial
    | 2 =>
      simp only [env, fields, List.mem_cons, List.not_mem_nil, or_false] at h
      rcases h with rfl | rfl <;> exact trivial
    | _ + 3 => simp [env, fields] at h
  distinct t := by
    match t with
    | 0 => simp [env, fields, mkTag, keyNumber]
    | 1 => simp [env, fields, mkTag, keyNumber]
    | 2 => simp [env, fields, mkTag, keyNumber]
    | _ + 3 => simp [env, fields]

open Spec in
theorem mapsSized : ∀ t, ∀ f ∈ (env t).fields, f.codec.MapsSized := by
  intro t f h
  match t with
  | 0 =>
    simp only [env, fields, List.mem_cons, List.not_mem_nil, or_false] at h
    rcases h with rfl | rfl | rfl | rfl | rfl | rfl | rfl <;> try exact trivial
    exact .refl _
  | 1 =>
    simp only [env, fields, List.mem_cons, List.not_mem_nil, or_false] at h
    rcases h with rfl | rfl | rfl | rfl <;> exact trivial
  | 2 =>
    simp only [env, fields, List.mem_cons, List.not_mem_nil, or_false] at h
    rcases h with rfl | rfl <;> exact trivial
  | _ + 3 => simp [env, fields] at h

/-- `Node` has no bool fields. -/
theorem node_noBool : ∀ f ∈ (env 0).fields, ¬ f.codec.isBool := by
  intro f h
  simp only [env, fields, List.mem_cons, List.not_mem_nil, or_false] at h
  rcases h with rfl | rfl | rfl | rfl | rfl | rfl | rfl <;> simp [Codec.isBool, attrCodec]

theorem boolsShort_node (b : Bytes) : BoolsShort (env 0).fields b :=
  fun _ _ _ _ _ _ _ _ _ _ f hf _ hb => absurd hb (node_noBool f hf)

/-- A program with `Node` only. -/
def nodeEnv : Env := fun _ => env 0

theorem nodeEnv_wf : WFEnv (fun _ => layout 0) nodeEnv where
  zero _ := rfl
  slot _ f h := wf.slot 0 f h
  codec _ f h := wf.codec 0 f h

/-- The record `08 v`. -/
theorem rec_id (v : Byte) (h : v.toNat < 128) : Spec.Record [8#8, v] 1 0 [v] :=
  ⟨[8#8], ⟨by decide, .last 8#8 (by decide), by decide, by decide⟩, .varint _ v.toNat ⟨.last v h, by simp, by omega⟩, rfl⟩

/-- The record `4a 01 c`: field 9 (not declared in `Node`), one byte. -/
theorem rec_unknown (c : Byte) : Spec.Record [74#8, 1#8, c] 9 2 [1#8, c] :=
  ⟨[74#8], ⟨by decide, .last 74#8 (by decide), by decide, by decide⟩,
    .varlen [1#8] [c] ⟨.last 1#8 (by decide), by decide, by simp⟩, rfl⟩

/-- `&Node{}` -/
def emptyNode : Val := (env 0).zero

/-- `&Node{Id: 3}` -/
def leaf : Val :=
  .struct [.w32 3#32, .str [], .slice true [] [], .opt false (.w64 0#64), .map true [], .opaque 0, .bytes none, .nilp]

/-- `&Node{Id: -1, Name: "hi", Kids: [&Node{Id: 3}], Delta: Some(0), Attr: {"a": "b"}, Data: []byte{}, Next: &Node{}}` -/
def node : Val :=
  .struct [.w32 (-1#32), .str [104#8, 105#8], .slice false [.ptr leaf] [], .opt true (.w64 0#64),
    .map false [(.str [97#8], .str [98#8])], .opaque 7, .bytes (some []), .ptr emptyNode]

theorem emptyNode_fits : FitsMsg layout 0 emptyNode := by
  refine .msg _ _ rfl fun i s v hs hv => ?_
  match i with
  | 0 => cases hs; cases hv; constructor
  | 1 => cases hs; cases hv; constructor
  | 2 => cases hs; cases hv; constructor <;> simp
  | 3 => cases hs; cases hv; constructor
  | 4 => cases hs; cases hv; constructor <;> simp
  | 5 => cases hs; cases hv; constructor
  | 6 => cases hs; cases hv; constructor
  | 7 => cases hs; cases hv; constructor
  | _ + 8 => cases hs

theorem leaf_fits : FitsMsg layout 0 leaf := by
  refine .msg _ _ rfl fun i s v hs hv => ?_
  match i with
  | 0 => cases hs; cases hv; constructor
  | 1 => cases hs; cases hv; constructor
  | 2 => cases hs; cases hv; constructor <;> simp
  | 3 => cases hs; cases hv; constructor
  | 4 => cases hs; cases hv; constructor <;> simp
  | 5 => cases hs; cases hv; constructor
  | 6 => cases hs; cases hv; constructor
  | 7 => cases hs; cases hv; constructor
  | _ + 8 => cases hs

theorem node_fits : FitsMsg layout 0 node := by
  refine .msg _ _ rfl fun i s v hs hv => ?_
  match i with
  | 0 => cases hs; cases hv; constructor
  | 1 => cases hs; cases hv; constructor
  | 2 =>
    cases hs; cases hv
    refine .slice _ _ _ _ (by simp) ?_ (by simp)
    intro e he
    simp at he; subst he
    exact leaf_fits
  | 3 => cases hs; cases hv; exact .some _ _ (.w64 _)
  | 4 =>
    cases hs; cases hv
    refine .map _ _ _ _ (by simp) (by simp) ?_ ?_ <;> intro e he <;> simp at he <;> subst he
    · exact .str _
    · exact .str _
  | 5 => cases hs; cases hv; constructor
  | 6 => cases hs; cases hv; constructor
  | 7 => cases hs; cases hv; exact emptyNode_fits
  | _ + 8 => cases hs

/-- `&Node{Id: -1, Name: "hi", Delta: Some(0), Attr: {"a": "b", "": "c"}, Data: []byte{}}` -/
def plain : Val :=
  .struct [.w32 (-1#32), .str [104#8, 105#8], .slice true [] [], .opt true (.w64 0#64),
    .map false [(.str [97#8], .str [98#8]), (.str [], .str [99#8])], .opaque 0, .bytes (some []), .nilp]

theorem plain_fits : FitsMsg layout 0 plain := by
  refine .msg _ _ rfl fun i s v hs hv => ?_
  match i with
  | 0 => cases hs; cases hv; constructor
  | 1 => cases hs; cases hv; constructor
  | 2 => cases hs; cases hv; constructor <;> simp
  | 3 => cases hs; cases hv; exact .some _ _ (.w64 _)
  | 4 =>
    cases hs; cases hv
    refine .map _ _ _ _ (by simp) (by simp) ?_ ?_ <;> intro e he <;> simp at he <;> rcases he with rfl | rfl <;> exact .str _
  | 5 => cases hs; cases hv; constructor
  | 6 => cases hs; cases hv; constructor
  | 7 => cases hs; cases hv; constructor
  | _ + 8 => cases hs

open Spec in
theorem plain_canon : Canon env (.msg 0) (.ptr plain) := by
  refine .msg 0 _ _ rfl ?_ ?_
  · intro f hf v hv
    simp only [env, fields, List.mem_cons, List.not_mem_nil, or_false] at hf
    rcases hf with rfl | rfl | rfl | rfl | rfl | rfl | rfl <;> cases hv
    · exact .normal _ _
    · exact .normal _ _
    · exact .slice _ _ [] [] (by simp) (by simp)
    · exact .option _ _
    · refine .map _ _ _ _ _ _ (by simp) ?_
      intro e he; simp at he; rcases he with rfl | rfl <;> exact .required _ _
    · exact .bytes _
    · exact .msgNil _
  · intro i hi
    match i with
    | 5 => rfl
    | 0 => exact absurd rfl (hi ⟨0, mkTag 1 0, .normal .int32⟩ (by simp [env, fields]))
    | 1 => exact absurd rfl (hi ⟨1, mkTag 2 2, .normal .string⟩ (by simp [env, fields]))
    | 2 => exact absurd rfl (hi ⟨2, mkTag 3 2, .slice .nilp (.msg 0)⟩ (by simp [env, fields]))
    | 3 => exact absurd rfl (hi ⟨3, mkTag 4 0, .option .zigzag64⟩ (by simp [env, fields]))
    | 4 => exact absurd rfl (hi ⟨4, mkTag 5 2, attrCodec⟩ (by simp [env, fields]))
    | 6 => exact absurd rfl (hi ⟨6, mkTag 6 2, .bytes⟩ (by simp [env, fields]))
    | 7 => exact absurd rfl (hi ⟨7, mkTag 7 2, .msg 0⟩ (by simp [env, fields]))
    | _ + 8 => rfl

end Pb.Sample
