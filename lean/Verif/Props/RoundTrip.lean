import Verif.Proofs.Back
import Verif.Props.Decode
/-
C01, C02, C11, C19-C22, C46, C50-C52: what Marshal writes and what comes back of it.

Hypotheses: `Good L env` says that all message types are supported (that type analysis yields such type infos is C53),
`FitsMsg L t v` that `v` is a possible value of message type `t`, `EncOKMsg env t v` that in all maps inside `v` the size
computation of map.go:80 happens to be right. The latter is no restriction for types without maps and for maps
whose key and value types are measured alike: `encOK_of_types`. The bound 2^64 on the length of the output holds for every
Go program (lengths are below 2^63).
-/
namespace Pb.Props
open Spec

/-- For programs whose maps have key and value types that are measured alike, `EncOKMsg` always holds. -/
theorem encOK_of_types {L : Layout} {env : Env} (hg : Good L env) (hs : ∀ t, ∀ f ∈ (env t).fields, f.codec.MapsSized)
    (t : TypeId) (v : Val) (hv : FitsMsg L t v) : EncOKMsg env t v := encOK_of_sized hg.wf hs v t hv

/-! ### C02, C52 -/

/-- C02 for messages whose maps are measured right: Marshal succeeds and Size is the length of its output. Missing: maps
with key and value types that are measured differently, for which it is false, see `C02_false_for_maps`. -/
theorem C02_size_is_length_partial {L : Layout} {env : Env} (hg : Good L env) (t : TypeId) (v : Val)
    (hv : FitsMsg L t v) (ho : EncOKMsg env t v) :
    ∃ b, marshal env (.msg t v) = .ok (.ok b) ∧ size env (.msg t v) = .ok b.length := by
  obtain ⟨b, h1, h2, _⟩ := marshal_ok hg.wf hg.tags hv ho
  exact ⟨b, h1, h2⟩

example : Good Sample.layout Sample.env ∧ FitsMsg Sample.layout 0 Sample.node ∧ EncOKMsg Sample.env 0 Sample.node :=
  ⟨Sample.good, Sample.node_fits, encOK_of_types Sample.good Sample.mapsSized 0 _ Sample.node_fits⟩

example : size Sample.env (.msg 0 Sample.node) = .ok 37 := rfl

/-- The buffers `encode` has built after the first `k` fields. -/
def bufferAfter (env : Env) (d : Nat) (t : TypeId) (v : Val) (k : Nat) : Except Fault Bytes :=
  structEncode (codecEncode (sizeMsg env d) (encodeMsg env d)) ((env t).fields.take k) [] v

/-- C52. Encoding only appends: whatever buffer a codec is given, it returns that buffer followed by bytes that do not
depend on it. -/
theorem C52_append_only (env : Env) (d : Nat) (c : Codec) (b : Bytes) (v : Val) (f : FTag) (b' : Bytes)
    (h : codecEncode (sizeMsg env d) (encodeMsg env d) c b v f = .ok b') :
    ∃ x, b' = b ++ x ∧ ∀ b₁, codecEncode (sizeMsg env d) (encodeMsg env d) c b₁ v f = .ok (b₁ ++ x) := by
  have key := codecEncode_eq (sizeMsg env d) (encodeMsg env d) (fun t v => encodeMsg env d t [] v) (encodeMsg_acc env d) c
  rw [key] at h
  cases hx : encP (sizeMsg env d) (fun t v => encodeMsg env d t [] v) c v f with
  | error e => simp [hx, acc] at h
  | ok x =>
    simp [hx, acc] at h
    exact ⟨x, h.symm, fun b₁ => by rw [key, hx]; rfl⟩

/-- C52 for messages whose maps are measured right: at every field boundary the bytes written so far are a prefix of the
output and number at most Size(v), the capacity Marshal allocates. (Between these points bytes are only appended,
`C52_append_only`.) -/
theorem C52_never_outgrown_partial {L : Layout} {env : Env} (hg : Good L env) (t : TypeId) (v : Val)
    (hv : FitsMsg L t v) (ho : EncOKMsg env t v) (k : Nat) :
    ∃ n b bk, size env (.msg t v) = .ok n ∧ marshal env (.msg t v) = .ok (.ok b) ∧
      bufferAfter env v.depth t v k = .ok bk ∧ bk <+: b ∧ bk.length ≤ n := by
  obtain ⟨b, h1, h2, h3⟩ := marshal_ok hg.wf hg.tags hv ho
  rw [encM, encodeMsg_succ] at h3
  have e : (env t).fields = (env t).fields.take k ++ (env t).fields.drop k := (List.take_append_drop k _).symm
  rw [e, encFields_append] at h3
  have hb : bufferAfter env v.depth t v k =
      encFields (encP (sizeMsg env v.depth) (fun t w => encodeMsg env v.depth t [] w)) v ((env t).fields.take k) := by
    unfold bufferAfter
    rw [structEncode_eq _ _ (codecEncode_eq (sizeMsg env v.depth) (encodeMsg env v.depth)
      (fun t w => encodeMsg env v.depth t [] w) (encodeMsg_acc env v.depth))]
    cases encFields _ v _ <;> simp [acc]
  cases hx : encFields (encP (sizeMsg env v.depth) (fun t w => encodeMsg env v.depth t [] w)) v ((env t).fields.take k) with
  | error e => simp [hx] at h3
  | ok x =>
    simp only [hx] at h3
    cases hy : encFields (encP (sizeMsg env v.depth) (fun t w => encodeMsg env v.depth t [] w)) v ((env t).fields.drop k) with
    | error e => simp [hy] at h3
    | ok y =>
      simp [hy] at h3
      refine ⟨b.length, b, x, h2, h1, by rw [hb, hx], ⟨y, h3⟩, ?_⟩
      rw [← h3]; simp

/-! ### C11 -/

/-- C11 for messages whose maps are measured right: Marshal writes the protobuf encoding of the fields in declaration
order (`EncodesMsg`). -/
theorem C11_marshal_encodes_partial {L : Layout} {env : Env} (hg : Good L env) (t : TypeId) (vs : List Val) (b : Bytes)
    (hv : FitsMsg L t (.struct vs)) (ho : EncOKMsg env t (.struct vs))
    (h : marshal env (.msg t (.struct vs)) = .ok (.ok b)) (hl : b.length < 2 ^ 64) :
    EncodesMsg env (env t).fields vs b :=
  conf_msg hg _ t vs b (Nat.lt_succ_self _) hv ho (marshal_inv h) hl

/-! ### C01 -/

/-- C01. The bytes Marshal returns are accepted by Unmarshal into a new message, and what comes back is described by
`Back`: everything comes back except pointers to values that are not written, unwritten elements of repeated fields,
and empty maps. -/
theorem C01_reads_back {L : Layout} {env : Env} (hg : Good L env) (t : TypeId) (vs : List Val) (b : Bytes)
    (hv : FitsMsg L t (.struct vs)) (ho : EncOKMsg env t (.struct vs))
    (h : marshal env (.msg t (.struct vs)) = .ok (.ok b)) (hl : b.length < 2 ^ 64) :
    ∃ ws, unmarshal env b (.msg t (env t).zero) = .ok ⟨.msg t (.struct ws), none⟩ ∧
      Back env (.msg t) (.ptr (.struct vs)) (.ptr (.struct ws)) := by
  have he := C11_marshal_encodes_partial hg t vs b hv ho h hl
  have hfl := fitsL_of_msg hv
  obtain ⟨rs, ws, h1, h2, h3, h4, h5⟩ := back_msg hg he t (fun f hf => hf) (hg.distinct t) hfl hl
    ((L t).map Shape.zero) (fun f hf => by simp [hg.wf.slot t f hf])
  refine ⟨ws, ?_, .msg t vs ws _ (hg.wf.zero t) (by simp [h3, hfl.1]) h4 h5⟩
  have hz := hg.wf.zero_fits t
  simp only [zerosOf, hg.wf.zero t] at hz
  rw [hg.wf.zero t]
  exact unmarshal_ok_iff.mpr (run_of_mergeRecs hg.wf h2 (fitsL_of_msg hz) b h1)

/-- C01 for canonical messages: what comes back is equal to the original (up to the capacity of slices, which `obs`
removes). Missing: non-canonical values, for which it is false (`C50_pointer_to_zero_lost`, `C01_false_nil_element`,
`C23_empty_map_grows`), and maps that are measured wrong (`C22_false_for_mixed_maps`). -/
theorem C01_round_trip_partial {L : Layout} {env : Env} (hg : Good L env) (t : TypeId) (vs : List Val) (b : Bytes)
    (hv : FitsMsg L t (.struct vs)) (ho : EncOKMsg env t (.struct vs)) (hc : Canon env (.msg t) (.ptr (.struct vs)))
    (h : marshal env (.msg t (.struct vs)) = .ok (.ok b)) (hl : b.length < 2 ^ 64) :
    ∃ w, unmarshal env b (.msg t (env t).zero) = .ok ⟨.msg t w, none⟩ ∧ w.obs = (Val.struct vs).obs := by
  obtain ⟨ws, h1, h2⟩ := C01_reads_back hg t vs b hv ho h hl
  refine ⟨.struct ws, h1, ?_⟩
  have := back_canon h2 hc
  simpa only [Val.obs, Val.ptr.injEq] using this

example : Good Sample.layout Sample.env ∧ FitsMsg Sample.layout 0 Sample.plain ∧ EncOKMsg Sample.env 0 Sample.plain ∧
    Canon Sample.env (.msg 0) (.ptr Sample.plain) ∧ ∃ b, marshal Sample.env (.msg 0 Sample.plain) = .ok (.ok b) ∧
      b.length = 34 :=
  ⟨Sample.good, Sample.plain_fits, encOK_of_types Sample.good Sample.mapsSized 0 _ Sample.plain_fits, Sample.plain_canon,
    _, rfl, rfl⟩

/-- C01 fails for a nil element of a repeated field: it is dropped. -/
theorem C01_false_nil_element :
    let v : Val := .struct [.w32 0#32, .str [], .slice false [.nilp] [], .opt false (.w64 0#64),
      .map false [(.str [], .str [])], .opaque 0, .bytes none, .nilp]
    ∃ b w, marshal Sample.env (.msg 0 v) = .ok (.ok b) ∧
      unmarshal Sample.env b (.msg 0 (Sample.env 0).zero) = .ok ⟨.msg 0 (.struct w), none⟩ ∧
      w[2]? = some (.slice true [] []) := ⟨_, _, rfl, rfl, rfl⟩

/-! ### C46 -/

/-- C46. Messages with the same bytes come back as the same message. -/
theorem C46_same_bytes_same_message {L : Layout} {env : Env} (hg : Good L env) (t : TypeId) (vs vs' : List Val) (b : Bytes)
    (hv : FitsMsg L t (.struct vs)) (ho : EncOKMsg env t (.struct vs)) (hv' : FitsMsg L t (.struct vs'))
    (ho' : EncOKMsg env t (.struct vs')) (h : marshal env (.msg t (.struct vs)) = .ok (.ok b))
    (h' : marshal env (.msg t (.struct vs')) = .ok (.ok b)) (hl : b.length < 2 ^ 64) :
    ∃ ws, Back env (.msg t) (.ptr (.struct vs)) (.ptr (.struct ws)) ∧
      Back env (.msg t) (.ptr (.struct vs')) (.ptr (.struct ws)) := by
  obtain ⟨ws, h1, h2⟩ := C01_reads_back hg t vs b hv ho h hl
  obtain ⟨ws', h1', h2'⟩ := C01_reads_back hg t vs' b hv' ho' h' hl
  rw [h1] at h1'
  simp at h1'
  subst h1'
  exact ⟨ws, h2, h2'⟩

/-- C46. Different canonical messages have different bytes. Missing: non-canonical values, for which it is false,
see `C46_false_for_noncanonical`. -/
theorem C46_injective_partial {L : Layout} {env : Env} (hg : Good L env) (t : TypeId) (vs vs' : List Val) (b : Bytes)
    (hv : FitsMsg L t (.struct vs)) (ho : EncOKMsg env t (.struct vs)) (hc : Canon env (.msg t) (.ptr (.struct vs)))
    (hv' : FitsMsg L t (.struct vs')) (ho' : EncOKMsg env t (.struct vs'))
    (hc' : Canon env (.msg t) (.ptr (.struct vs')))
    (h : marshal env (.msg t (.struct vs)) = .ok (.ok b)) (h' : marshal env (.msg t (.struct vs')) = .ok (.ok b))
    (hl : b.length < 2 ^ 64) : (Val.struct vs).obs = (Val.struct vs').obs := by
  obtain ⟨ws, h1, h2⟩ := C46_same_bytes_same_message hg t vs vs' b hv ho hv' ho' h h' hl
  have e1 := back_canon h1 hc
  have e2 := back_canon h2 hc'
  simp only [Val.obs, Val.ptr.injEq] at e1 e2 ⊢
  rw [← e1, ← e2]

/-- C46 is false in general: a message with a nil element in a repeated field and one without have the same bytes. -/
theorem C46_false_for_noncanonical :
    let v (kids : List Val) : Val := .struct [.w32 0#32, .str [], .slice false kids [], .opt false (.w64 0#64),
      .map true [], .opaque 0, .bytes none, .nilp]
    marshal Sample.env (.msg 0 (v [.nilp])) = marshal Sample.env (.msg 0 (v [])) ∧ (v [.nilp]).obs ≠ (v []).obs := by
  refine ⟨rfl, ?_⟩
  simp [Val.obs, Val.obsL]

/-! ### C20, C19, C21: one field varies -/

theorem distinct_offsets {L : Layout} {env : Env} (hg : Good L env) (t : TypeId) :
    (env t).fields.Pairwise fun f g => f.offset ≠ g.offset := (hg.distinct t).imp And.left

/-- C20. When a plain scalar field varies over all its values, Marshal's output is `A ++ x ++ B` with fixed `A`, `B`, where
`x` is empty for the zero value and tag and payload for every other value. For floats the zero value is the one with all
bits zero, so negative zero and NaN are written. -/
theorem C20_zero_omitted {L : Layout} {env : Env} (hg : Good L env) (t : TypeId) (vs : List Val)
    (hv : FitsMsg L t (.struct vs)) (ho : EncOKMsg env t (.struct vs)) (f : Field) (hf : f ∈ (env t).fields) (s : Scalar)
    (hs : f.codec = .normal s) :
    ∃ A B, ∀ x, Fits L s.shape x → (payload s x).length < 2 ^ 64 →
      (x = s.shape.zero → marshal env (.msg t (.struct (vs.set f.offset x))) = .ok (.ok (A ++ B))) ∧
      (x ≠ s.shape.zero → marshal env (.msg t (.struct (vs.set f.offset x))) =
        .ok (.ok (A ++ (leb128 f.tag.wiretag.toNat ++ payload s x) ++ B))) := by
  obtain ⟨A, B, h⟩ := marshal_set hg.wf hg.tags (distinct_offsets hg t) hv ho hf
  refine ⟨A, B, fun x hx hl => ?_⟩
  obtain ⟨bx, h1, h2⟩ := h x (by rw [hs]; exact hx) (by rw [hs]; exact .normal _ _)
  rw [hs] at h1
  simp only [encP, encodeNormal_eq f.tag hx, Except.ok.injEq] at h1
  constructor
  · intro hz
    simp [(isZero_iff hx).mpr hz] at h1
    rw [h2, h1]; simp
  · intro hz
    have hp : pay s x = payload s x := pay_payload_of hx hl
    simp [isZero_iff hx, hz] at h1
    rw [h2, ← h1, hp]

/-- C19. When an `Option` field varies over all its values, `None` writes nothing and `Some(x)` writes tag and payload, also
for zero values. -/
theorem C19_written_iff_some {L : Layout} {env : Env} (hg : Good L env) (t : TypeId) (vs : List Val)
    (hv : FitsMsg L t (.struct vs)) (ho : EncOKMsg env t (.struct vs)) (f : Field) (hf : f ∈ (env t).fields) (s : Scalar)
    (hs : f.codec = .option s) :
    ∃ A B, marshal env (.msg t (.struct (vs.set f.offset (.opt false s.shape.zero)))) = .ok (.ok (A ++ B)) ∧
      ∀ x, Fits L s.shape x → (payload s x).length < 2 ^ 64 →
        marshal env (.msg t (.struct (vs.set f.offset (.opt true x)))) =
          .ok (.ok (A ++ (leb128 f.tag.wiretag.toNat ++ payload s x) ++ B)) := by
  obtain ⟨A, B, h⟩ := marshal_set hg.wf hg.tags (distinct_offsets hg t) hv ho hf
  refine ⟨A, B, ?_, fun x hx hl => ?_⟩
  · obtain ⟨bx, h1, h2⟩ := h (.opt false s.shape.zero) (by rw [hs]; exact .none _) (by rw [hs]; exact .option _ _)
    rw [hs] at h1
    simp [encP, encodeOption] at h1
    rw [h2, h1]; simp
  · obtain ⟨bx, h1, h2⟩ := h (.opt true x) (by rw [hs]; exact .some _ _ hx) (by rw [hs]; exact .option _ _)
    rw [hs] at h1
    simp only [encP, encodeOption, if_true, encodeRequired_eq f.tag hx, Except.ok.injEq] at h1
    rw [h2, ← h1, pay_payload_of hx hl]

/-- C19. Every `Option` field comes back as it was: `Some(v)` as `Some(v)`, `None` as `None`. -/
theorem C19_option_survives {L : Layout} {env : Env} (hg : Good L env) (t : TypeId) (vs : List Val) (b : Bytes)
    (hv : FitsMsg L t (.struct vs)) (ho : EncOKMsg env t (.struct vs))
    (h : marshal env (.msg t (.struct vs)) = .ok (.ok b)) (hl : b.length < 2 ^ 64) (f : Field) (hf : f ∈ (env t).fields)
    (s : Scalar) (hs : f.codec = .option s) :
    ∃ ws, unmarshal env b (.msg t (env t).zero) = .ok ⟨.msg t (.struct ws), none⟩ ∧ ws[f.offset]? = vs[f.offset]? := by
  obtain ⟨ws, h1, h2⟩ := C01_reads_back hg t vs b hv ho h hl
  refine ⟨ws, h1, ?_⟩
  cases h2 with
  | msg _ _ _ zs hz hlen hb hu =>
    obtain ⟨v, hv1, hv2⟩ := fits_slot hg.wf (fitsL_of_msg hv) hf
    have hlt := (List.getElem?_eq_some_iff.mp hv1).1
    have hw : ws[f.offset]? = some ws[f.offset] := List.getElem?_eq_getElem (by omega)
    have := hb f hf v _ hv1 hw
    rw [hs] at this
    rw [hw, hv1]
    generalize ws[f.offset] = w at this
    cases this; rfl

/-- C21. When a `[]byte` field varies over all its values, nil writes nothing and every other value, also of length zero,
writes tag, length and contents. -/
theorem C21_written_iff_not_nil {L : Layout} {env : Env} (hg : Good L env) (t : TypeId) (vs : List Val)
    (hv : FitsMsg L t (.struct vs)) (ho : EncOKMsg env t (.struct vs)) (f : Field) (hf : f ∈ (env t).fields)
    (hs : f.codec = .bytes) :
    ∃ A B, marshal env (.msg t (.struct (vs.set f.offset (.bytes none)))) = .ok (.ok (A ++ B)) ∧
      ∀ x, x.length < 2 ^ 64 → marshal env (.msg t (.struct (vs.set f.offset (.bytes (some x))))) =
          .ok (.ok (A ++ (leb128 f.tag.wiretag.toNat ++ (leb128 x.length ++ x)) ++ B)) := by
  obtain ⟨A, B, h⟩ := marshal_set hg.wf hg.tags (distinct_offsets hg t) hv ho hf
  refine ⟨A, B, ?_, fun x hx => ?_⟩
  · obtain ⟨bx, h1, h2⟩ := h (.bytes none) (by rw [hs]; exact .bytes _) (by rw [hs]; exact .bytes _)
    rw [hs] at h1
    simp [encP, encodeBytes, readBytes, bind, Except.bind, pure, Except.pure] at h1
    rw [h2, h1]; simp
  · obtain ⟨bx, h1, h2⟩ := h (.bytes (some x)) (by rw [hs]; exact .bytes _) (by rw [hs]; exact .bytes _)
    rw [hs] at h1
    simp only [encP, encodeBytes, readBytes, bind, Except.bind, pure, Except.pure, appendVarint_eq, List.nil_append,
      Except.ok.injEq, List.append_assoc, len64, ofNat64_toNat hx] at h1
    rw [h2, ← h1]

/-- C21. Every `[]byte` field comes back as it was, nil as nil and empty as empty. -/
theorem C21_bytes_survive {L : Layout} {env : Env} (hg : Good L env) (t : TypeId) (vs : List Val) (b : Bytes)
    (hv : FitsMsg L t (.struct vs)) (ho : EncOKMsg env t (.struct vs))
    (h : marshal env (.msg t (.struct vs)) = .ok (.ok b)) (hl : b.length < 2 ^ 64) (f : Field) (hf : f ∈ (env t).fields)
    (hs : f.codec = .bytes) :
    ∃ ws, unmarshal env b (.msg t (env t).zero) = .ok ⟨.msg t (.struct ws), none⟩ ∧ ws[f.offset]? = vs[f.offset]? := by
  obtain ⟨ws, h1, h2⟩ := C01_reads_back hg t vs b hv ho h hl
  refine ⟨ws, h1, ?_⟩
  cases h2 with
  | msg _ _ _ zs hz hlen hb hu =>
    obtain ⟨v, hv1, hv2⟩ := fits_slot hg.wf (fitsL_of_msg hv) hf
    have hlt := (List.getElem?_eq_some_iff.mp hv1).1
    have hw : ws[f.offset]? = some ws[f.offset] := List.getElem?_eq_getElem (by omega)
    have := hb f hf v _ hv1 hw
    rw [hs] at this
    rw [hw, hv1]
    generalize ws[f.offset] = w at this
    cases this; rfl

/-! ### C22, C23 -/

/-- C22 for maps that are measured right: a map field with entries comes back with the same keys in the same order (so,
whatever the iteration order, with the same set of keys), and each value comes back as `Back` says; scalar values come
back as they were. Missing: maps with key and value types that are measured differently, for which it is false, see
`C22_false_for_mixed_maps`. -/
theorem C22_map_survives_partial {L : Layout} {env : Env} (hg : Good L env) (t : TypeId) (vs : List Val) (b : Bytes)
    (hv : FitsMsg L t (.struct vs)) (ho : EncOKMsg env t (.struct vs))
    (h : marshal env (.msg t (.struct vs)) = .ok (.ok b)) (hl : b.length < 2 ^ 64) (f : Field) (hf : f ∈ (env t).fields)
    (i : MapInfo) (kc vc kd vd : Codec) (hs : f.codec = .map i kc vc kd vd) (n : Bool) (m : List (Key × Val))
    (hm : vs[f.offset]? = some (.map n m)) (hne : m ≠ []) :
    ∃ ws m', unmarshal env b (.msg t (env t).zero) = .ok ⟨.msg t (.struct ws), none⟩ ∧
      ws[f.offset]? = some (.map false m') ∧ m'.map Prod.fst = m.map Prod.fst ∧
      (∀ (j : Nat) k v k' v', m[j]? = some (k, v) → m'[j]? = some (k', v') → Back env vc v v') ∧
      ((∃ s, vc = .required s) → m' = m) := by
  obtain ⟨ws, h1, h2⟩ := C01_reads_back hg t vs b hv ho h hl
  cases h2 with
  | msg _ _ _ zs hz hlen hb hu =>
    have hlt := (List.getElem?_eq_some_iff.mp hm).1
    have hw : ws[f.offset]? = some ws[f.offset] := List.getElem?_eq_getElem (by omega)
    have hbk := hb f hf _ _ hm hw
    rw [hs] at hbk
    generalize ws[f.offset] = w at hbk hw
    cases hbk with
    | mapEmpty => exact absurd rfl hne
    | map _ _ _ _ _ _ _ m' _ hbm =>
      exact ⟨ws, m', h1, hw, backM_keys hbm, backM_get hbm, by rintro ⟨s, rfl⟩; exact backM_scalar hbm⟩

example : ∃ b, marshal Sample.env (.msg 0 Sample.plain) = .ok (.ok b) ∧ ∃ f ∈ (Sample.env 0).fields,
    ∃ i kc vc kd vd m, f.codec = .map i kc vc kd vd ∧ m ≠ [] ∧
      ∃ vs, Sample.plain = .struct vs ∧ vs[f.offset]? = some (.map false m) :=
  ⟨_, rfl, ⟨4, Sample.mkTag 5 2, Sample.attrCodec⟩, by simp [Sample.env, Sample.fields], _, _, _, _, _, _, rfl, by simp,
    _, rfl, rfl⟩

/-- C23 is false: an empty map field is written as a record, and comes back with one entry, for every message of every
type with a map field. -/
theorem C23_empty_map_grows {L : Layout} {env : Env} (hg : Good L env) (t : TypeId) (vs : List Val) (b : Bytes)
    (hv : FitsMsg L t (.struct vs)) (ho : EncOKMsg env t (.struct vs))
    (h : marshal env (.msg t (.struct vs)) = .ok (.ok b)) (hl : b.length < 2 ^ 64) (f : Field) (hf : f ∈ (env t).fields)
    (i : MapInfo) (kc vc kd vd : Codec) (hs : f.codec = .map i kc vc kd vd) (n : Bool)
    (hm : vs[f.offset]? = some (.map n [])) :
    ∃ ws k, unmarshal env b (.msg t (env t).zero) = .ok ⟨.msg t (.struct ws), none⟩ ∧
      ws[f.offset]? = some (.map false [(k, vc.shape.zero)]) ∧ k.toVal = kc.shape.zero := by
  obtain ⟨ws, h1, h2⟩ := C01_reads_back hg t vs b hv ho h hl
  cases h2 with
  | msg _ _ _ zs hz hlen hb hu =>
    have hlt := (List.getElem?_eq_some_iff.mp hm).1
    have hw : ws[f.offset]? = some ws[f.offset] := List.getElem?_eq_getElem (by omega)
    have hbk := hb f hf _ _ hm hw
    have hwf := hg.wf.codec t f hf
    rw [hs] at hbk hwf
    obtain ⟨_, _, _, hkz, hvz, _⟩ := hwf
    generalize ws[f.offset] = w at hbk hw
    cases hbk with
    | map _ _ _ _ _ _ _ _ h => exact absurd rfl h
    | mapEmpty _ _ _ _ _ _ k hk => exact ⟨ws, k, h1, by rw [hw, hvz], by rw [hk, hkz]⟩

/-- C23 is false, concretely: the empty `Node`. -/
theorem C23_false_for_node :
    ∃ b w, marshal Sample.env (.msg 0 Sample.emptyNode) = .ok (.ok b) ∧
      unmarshal Sample.env b (.msg 0 Sample.emptyNode) = .ok ⟨.msg 0 (.struct w), none⟩ ∧
      w[4]? = some (.map false [(.str [], .str [])]) := ⟨_, _, rfl, rfl, rfl⟩

/-! ### C50 -/

/-- C50 for pointers to something that is written, and nil: comes back as it was (scalars). -/
theorem C50_pointer_survives_partial {L : Layout} {env : Env} (hg : Good L env) (t : TypeId) (vs : List Val) (b : Bytes)
    (hv : FitsMsg L t (.struct vs)) (ho : EncOKMsg env t (.struct vs))
    (h : marshal env (.msg t (.struct vs)) = .ok (.ok b)) (hl : b.length < 2 ^ 64) (f : Field) (hf : f ∈ (env t).fields)
    (z : Val) (s : Scalar) (hs : f.codec = .ptr z (.normal s)) (hnz : vs[f.offset]? ≠ some (.ptr s.shape.zero)) :
    ∃ ws, unmarshal env b (.msg t (env t).zero) = .ok ⟨.msg t (.struct ws), none⟩ ∧ ws[f.offset]? = vs[f.offset]? := by
  obtain ⟨ws, h1, h2⟩ := C01_reads_back hg t vs b hv ho h hl
  refine ⟨ws, h1, ?_⟩
  cases h2 with
  | msg _ _ _ zs hz hlen hb hu =>
    obtain ⟨v, hv1, hv2⟩ := fits_slot hg.wf (fitsL_of_msg hv) hf
    have hlt := (List.getElem?_eq_some_iff.mp hv1).1
    have hw : ws[f.offset]? = some ws[f.offset] := List.getElem?_eq_getElem (by omega)
    have := hb f hf v _ hv1 hw
    rw [hs] at this
    rw [hw, hv1]
    rw [hv1] at hnz
    generalize ws[f.offset] = w at this
    cases this with
    | ptrNil => rfl
    | ptrLost _ _ v hl =>
      simp only [Written, ne_eq, Classical.not_not] at hl
      exact absurd (by rw [hl]) hnz
    | ptr _ _ v w _ hb => cases hb; rfl

/-- C50 is false for a pointer to a zero value: it is not written and comes back nil, in every message. -/
theorem C50_pointer_to_zero_lost {L : Layout} {env : Env} (hg : Good L env) (t : TypeId) (vs : List Val) (b : Bytes)
    (hv : FitsMsg L t (.struct vs)) (ho : EncOKMsg env t (.struct vs))
    (h : marshal env (.msg t (.struct vs)) = .ok (.ok b)) (hl : b.length < 2 ^ 64) (f : Field) (hf : f ∈ (env t).fields)
    (z : Val) (s : Scalar) (hs : f.codec = .ptr z (.normal s)) (hz : vs[f.offset]? = some (.ptr s.shape.zero)) :
    ∃ ws, unmarshal env b (.msg t (env t).zero) = .ok ⟨.msg t (.struct ws), none⟩ ∧ ws[f.offset]? = some .nilp := by
  obtain ⟨ws, h1, h2⟩ := C01_reads_back hg t vs b hv ho h hl
  refine ⟨ws, h1, ?_⟩
  cases h2 with
  | msg _ _ _ zs _ hlen hb hu =>
    have hlt := (List.getElem?_eq_some_iff.mp hz).1
    have hw : ws[f.offset]? = some ws[f.offset] := List.getElem?_eq_getElem (by omega)
    have := hb f hf _ _ hz hw
    rw [hs] at this
    rw [hw]
    generalize ws[f.offset] = w at this
    cases this with
    | ptrLost => rfl
    | ptr _ _ v w hwr hb => exact absurd rfl hwr

example : ∃ f ∈ (Sample.env 1).fields, f.codec = .ptr (.w64 0#64) (.normal .uint64) :=
  ⟨⟨3, Sample.mkTag 4 0, .ptr (.w64 0#64) (.normal .uint64)⟩, by simp [Sample.env, Sample.fields], rfl⟩

/-- Concretely: `&Flat{Ref: new(uint64)}` comes back as `&Flat{}`. -/
example : ∃ b, marshal Sample.env (.msg 1 (.struct [.b8 false, .w32 0#32, .slice true [] [], .ptr (.w64 0#64)])) = .ok (.ok b) ∧
    unmarshal Sample.env b (.msg 1 (Sample.env 1).zero) =
      .ok ⟨.msg 1 (.struct [.b8 false, .w32 0#32, .slice true [] [], .nilp]), none⟩ := ⟨_, rfl, rfl⟩

/-! ### C51 -/

/-- C51. Whenever a plain scalar field writes anything, an element of a repeated field and an `Option` with the same value
and tag write the same. -/
theorem C51_same_encoding {L : Layout} (sz : TypeId → Val → Except Fault Nat) (rec : TypeId → Bytes → Val → Except Fault Bytes)
    (s : Scalar) (b b' : Bytes) (v : Val) (f : FTag) (hv : Fits L s.shape v)
    (h : codecEncode sz rec (.normal s) b v f = .ok b') (hne : b' ≠ b) :
    codecEncode sz rec (.required s) b v f = .ok b' ∧ codecEncode sz rec (.option s) b (.opt true v) f = .ok b' := by
  have key : encodeRequired s b v f = .ok b' := by
    simp only [codecEncode] at h
    rw [encodeNormal_acc, encodeNormal_eq f hv] at h
    rw [encodeRequired_acc, encodeRequired_eq f hv]
    simp only [acc, Except.ok.injEq] at h ⊢
    split at h
    · simp at h; exact absurd h.symm hne
    · exact h
  exact ⟨key, key⟩

/-- C51. They are read by the same decoder: an `Option` wraps its result, also in case of error. -/
theorem C51_same_decoder (zeros : TypeId → Val) (rec : TypeId → Bytes → Val → Except Fault DRes) (s : Scalar) (b : Bytes)
    (v : Val) (o : Bool) :
    codecDecode zeros rec (.required s) b v = codecDecode zeros rec (.normal s) b v ∧
    codecDecode zeros rec (.option s) b (.opt o v) =
      (codecDecode zeros rec (.normal s) b v).map (fun r => r.wrap (Val.opt true)) := by
  refine ⟨rfl, ?_⟩
  simp only [codecDecode, decodeOption]
  cases decodeScalar s b v <;> rfl

example : Fits Sample.layout Scalar.int32.shape (.w32 7#32) ∧
    codecEncode (fun _ _ => .ok 0) (fun _ b _ => .ok b) (.normal .int32) [] (.w32 7#32) (Sample.mkTag 1 0) = .ok [8#8, 7#8] :=
  ⟨.w32 _, rfl⟩

end Pb.Props
