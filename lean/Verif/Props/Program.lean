import Verif.Proofs.Protobuf
import Verif.Props.RoundTrip
import Verif.Props.Safety
/-
Properties of programs, that is of sets of Go struct declarations: C53 (which are accepted), and C01, C02, C03, C11, C22, C25,
C32 from the declarations on, through type analysis.
-/
namespace Pb.Props
open Spec

/-! ### C53 -/

/-- C53. Type analysis of a struct succeeds iff all its exported, tagged fields have a well-formed tag and a supported type;
otherwise it panics. -/
theorem C53_accepts_iff (d : StructDecl) :
    ((∃ i, walkStruct d = .ok i) ↔ ∀ f ∈ d, f.Active → DeclAccepted f) ∧
    (walkStruct d = .error .panic ↔ ∃ f ∈ d, f.Active ∧ ¬ DeclAccepted f) := by
  rcases walkFields_cases d 0 with ⟨h1, gs, h2⟩ | ⟨⟨f, hf, ha, h1⟩, h2⟩
  · have e : walkStruct d = .ok ⟨gs, zeroStruct d⟩ := by simp only [walkStruct, h2, bind, Except.bind, pure, Except.pure]
    exact ⟨⟨fun _ => h1, fun _ => ⟨_, e⟩⟩, ⟨fun h => by rw [e] at h; simp at h, fun ⟨f, hf, ha, hn⟩ => absurd (h1 f hf ha) hn⟩⟩
  · have e : walkStruct d = .error .panic := by simp only [walkStruct, h2, bind, Except.bind]
    exact ⟨⟨fun ⟨i, h⟩ => by rw [e] at h; simp at h, fun h => absurd (h f hf ha) h1⟩, ⟨fun _ => ⟨f, hf, ha, h1⟩, fun _ => e⟩⟩

/-- C53. The type info of an accepted struct has one entry for each exported, tagged field, in order, with the number, wire
type and memory position declared, and no other entries. -/
theorem C53_entries (d : StructDecl) (i : TypeInfo) (h : walkStruct d = .ok i) :
    (∀ g ∈ i.fields, ∃ f, d[g.offset]? = some f ∧ f.Active) ∧
    (∀ (j : Nat) f, d[j]? = some f → f.Active → ∃ g ∈ i.fields, g.offset = j ∧ ∃ s e n c z, f.tag = some s ∧ SaysTag s e n c z ∧
      g.tag.wiretag = (BitVec.ofInt 64 n <<< 3) ||| BitVec.ofNat 64 e) ∧
    i.fields.Pairwise (fun g h => g.offset < h.offset) := by
  obtain ⟨h1, h2, h3⟩ := walkFields_spec _ _ _ (walkStruct_fields h).1
  refine ⟨fun g hg => ?_, fun j f hj ha => ?_, h3⟩
  · obtain ⟨j, f, hj, he⟩ := h1 g hg
    obtain ⟨e1, e2, s, t, e3, _⟩ := he
    rw [Nat.zero_add] at e1
    exact ⟨f, by rw [e1]; exact hj, e2, by simp [e3]⟩
  · obtain ⟨g, hg, he⟩ := h2 j f hj ha
    obtain ⟨e1, e2, s, t, e3, e4, e5, _⟩ := he
    rw [Nat.zero_add] at e1
    obtain ⟨e, n, c, z, hs⟩ := says_of_parseStructTag e4
    refine ⟨g, hg, e1, s, e, n, c, z, e3, hs, ?_⟩
    rw [parseStructTag_of_says hs] at e4
    simp only [Prod.mk.injEq, and_true] at e4
    subst e4
    rw [e5]
    rfl

example : ∃ i, walkStruct (Sample.decls 0) = .ok i := ⟨_, rfl⟩

-- a by-value struct field, and an `int`
example : walkStruct [Sample.tagged "bytes,1,opt" (.named 1)] = .error .panic := rfl
example : walkStruct [Sample.tagged "varint,1,opt" .bool, Sample.tagged "varint,2,opt" .other] = .error .panic := rfl
-- without tag it is accepted
example : ∃ i, walkStruct [Sample.tagged "varint,1,opt" .bool, { tag := none, ty := .ty .other }] = .ok i := ⟨_, rfl⟩

/-! ### C03 -/

/-- C03 for programs. Partial: it needs `ProgramSane`, which excludes the accepted declarations that analysis gets wrong
(`C03_false_for_fixed_pointer`, `C03_false_for_bytes_pointer`). -/
theorem C03_program_safe_partial (D : Decls) (h : ProgramSane D) (b : Bytes) (t : TypeId) (v : Val) (hv : FitsMsg (layoutOf D) t v) :
    (∃ v' err, unmarshal (envOf D) b (.msg t v) = .ok ⟨.msg t v', err⟩ ∧ FitsMsg (layoutOf D) t v' ∧
      (err = none ∨ ∃ e, err = some (.decode e))) := C03_unmarshal_safe (wf_of_sane h).2.1 b t v hv

example : ProgramSane Sample.decls ∧ FitsMsg (layoutOf Sample.decls) 0 Sample.node :=
  ⟨sane_of_ok Sample.programOK, by rw [Sample.layoutOf_decls]; exact Sample.node_fits⟩

/-- A program with a pointer to a fixed-width number. -/
def fixedPtr : Decls
  | 0 => [Sample.tagged "fixed32,1,opt" (.ptr .uint32)]
  | _ => []

/-- C03 is false for `*uint32` with a fixed32 tag: the type is accepted, and then the number is written over the pointer. -/
theorem C03_false_for_fixed_pointer :
    (∃ i, walkStruct (fixedPtr 0) = .ok i) ∧ FitsMsg (layoutOf fixedPtr) 0 (.struct [.nilp]) ∧
    unmarshal (envOf fixedPtr) [13#8, 1#8, 2#8, 3#8, 4#8] (.msg 0 (.struct [.nilp])) = .error .confused :=
  ⟨⟨_, rfl⟩, fitsMsg_iff.mpr ⟨_, rfl, rfl, by
    intro i s v hs hv
    match i with
    | 0 => cases hs; cases hv; exact .ptrNil _
    | _ + 1 => simp [layoutOf, fixedPtr] at hs⟩, rfl⟩

/-- A program with a pointer to a byte slice. -/
def bytesPtr : Decls
  | 0 => [Sample.tagged "bytes,1,opt" (.ptr (.slice .uint8))]
  | _ => []

/-- C03 is false for `*[]byte`: the pointer is treated as a slice header. -/
theorem C03_false_for_bytes_pointer :
    (∃ i, walkStruct (bytesPtr 0) = .ok i) ∧ FitsMsg (layoutOf bytesPtr) 0 (.struct [.nilp]) ∧
    unmarshal (envOf bytesPtr) [10#8, 1#8, 65#8] (.msg 0 (.struct [.nilp])) = .error .confused :=
  ⟨⟨_, rfl⟩, fitsMsg_iff.mpr ⟨_, rfl, rfl, by
    intro i s v hs hv
    match i with
    | 0 => cases hs; cases hv; exact .ptrNil _
    | _ + 1 => simp [layoutOf, bytesPtr] at hs⟩, rfl⟩

/-! ### C25 -/

/-- C25 for programs: a field that is unexported or has no tag keeps its value, whatever the input. -/
theorem C25_program_untouched (D : Decls) (t : TypeId) (ht : ∃ i, walkStruct (D t) = .ok i) (b : Bytes) (vs : List Val) (m : Arg)
    (o) (j : Nat) (f : FieldDecl) (hj : (D t)[j]? = some f) (ha : ¬ f.Active)
    (h : unmarshal (envOf D) b (.msg t (.struct vs)) = .ok ⟨m, o⟩) :
    ∃ vs', m = .msg t (.struct vs') ∧ vs'[j]? = vs[j]? := by
  obtain ⟨i, hi⟩ := ht
  have he : envOf D t = i := by simp only [envOf, hi]
  obtain ⟨vs', h1, h2, _⟩ := C25_unmarshal_leaves_untagged (env := envOf D) t b vs m o j (by
    intro g hg hgj
    rw [he] at hg
    obtain ⟨f', hf', ha'⟩ := (C53_entries _ _ hi).1 g hg
    rw [hgj, hj] at hf'
    cases hf'
    exact ha ha') h
  exact ⟨vs', h1, h2⟩

/-- C25 for programs: fields that are unexported or have no tag contribute nothing to Marshal and Size. -/
theorem C25_program_ignored (D : Decls) (t : TypeId) (ht : ∃ i, walkStruct (D t) = .ok i) (vs ws : List Val)
    (h : ∀ (j : Nat) f, (D t)[j]? = some f → f.Active → vs[j]? = ws[j]?) :
    marshal (envOf D) (.msg t (.struct vs)) = marshal (envOf D) (.msg t (.struct ws)) ∧
      size (envOf D) (.msg t (.struct vs)) = size (envOf D) (.msg t (.struct ws)) := by
  obtain ⟨i, hi⟩ := ht
  have he : envOf D t = i := by simp only [envOf, hi]
  refine C25_marshal_ignores_untagged (env := envOf D) t vs ws fun g hg => ?_
  rw [he] at hg
  obtain ⟨f', hf', ha'⟩ := (C53_entries _ _ hi).1 g hg
  exact h _ _ hf' ha'

example : (Sample.decls 0)[5]? = some { exported := false, tag := none, ty := .ty .other } := rfl

/-! ### C02, C11, C01 for programs -/

/-- Maps whose key and value types are measured alike (see `SameSizer`). -/
def MapsAlike (D : Decls) : Prop := ∀ t, ∀ f ∈ D t, f.Active → ∀ K V, f.ty = .ty (.map K V) →
  K = V ∨ (K = .int64 ∧ V = .uint64) ∨ (K = .uint64 ∧ V = .int64)

theorem mapsSized_of_alike {D : Decls} (h : ProgramOK D) (hm : MapsAlike D) :
    ∀ t, ∀ g ∈ (envOf D t).fields, g.codec.MapsSized := by
  intro t g hg
  obtain ⟨i, hi⟩ := walkStruct_ok (h t)
  have he : envOf D t = i := by simp only [envOf, hi]
  rw [he] at hg
  obtain ⟨j, f, hj, hE⟩ := (walkFields_spec _ _ _ (walkStruct_fields hi).1).1 g hg
  have hmem : f ∈ D t := List.mem_of_getElem? hj
  have hact : f.Active := by
    obtain ⟨_, h5, s, t', h6, _⟩ := hE
    exact ⟨h5, by simp [h6]⟩
  obtain ⟨s, e, n, c, z, k1, k2, k3, k4⟩ := entry_codecF hE ((h t).fields f hmem hact)
  obtain ⟨s', e', n', c', z', k1', k2', _, _, k5⟩ := (h t).fields f hmem hact
  have hv : ∀ {e z r T c}, CodecV e z r T c → c.MapsSized := by
    intro e z r T c hc
    induction hc with
    | ptr r T zero c _ _ ih => exact ih
    | _ => trivial
  generalize hT : f.ty = T at k4 k5
  generalize hkt : f.keyTag = kt at k4 k5
  generalize hvt : f.valTag = vt at k4 k5
  generalize hc : g.codec = c at k4
  cases k4 with
  | value T c hcv => exact hv hcv
  | option => trivial
  | slice T zero c hcv => exact (hv hcv : c.MapsSized)
  | map K V ke kn kp ve vn vp i kc vc kd vd _ hk1 hv1 _ _ hkc hvc =>
    have hkv := hm t f hmem hact K V hT
    cases k5 with
    | scalar _ s hs => cases hs
    | value _ hs => cases hs with | scalar _ s hs => cases hs
    | map K V ke' kn' kc' ve' vn' vc' _ a1 a2 _ _ _ _ _ hK hV =>
      obtain ⟨rfl, _, _, _⟩ := Sample.says_unique hk1 a1
      obtain ⟨rfl, _, _, _⟩ := Sample.says_unique hv1 a2
      cases hK with
      | scalar s hms n1 n2 n3 n4 =>
        have hVm : ∀ s', Means ve false V s' → s' ≠ .fixed32 ∧ s' ≠ .fixed64 := by
          intro s' hm'
          cases hV with
          | scalar s hs h1 h2 => cases hs <;> cases hm' <;> first | exact ⟨by decide, by decide⟩ | exact absurd rfl h1 | exact absurd rfl h2
          | value hs h1 h5 => cases hm' <;> first | exact ⟨by decide, by decide⟩ | exact absurd rfl h1 | exact absurd rfl h5
        have kcr : kc = .required s := by
          cases hkc with
          | required _ s' hs' => cases hms <;> cases hs' <;> rfl
          | bytes | msg | ptr => cases hms
        subst kcr
        have vcr : ∀ s', vc = .required s' → SameSizer (.required s) vc := by
          rintro s' rfl
          cases hvc with
          | required _ _ hs' =>
            have hne := hVm _ hs'
            rcases hkv with rfl | ⟨rfl, rfl⟩ | ⟨rfl, rfl⟩
            · have : s = s' := by
                cases hms <;> cases hs' <;> first | rfl | exact absurd rfl n1 | exact absurd rfl n2 | exact absurd rfl hne.1 | exact absurd rfl hne.2
              subst this; exact .refl _
            · cases hms; cases hs' <;> first | exact .int64_uint64 | exact absurd rfl hne.2
            · cases hms <;> first | exact absurd rfl n2 | (cases hs'; exact .uint64_int64)
        have hVs : ScalarType V := by
          rcases hkv with rfl | ⟨rfl, rfl⟩ | ⟨rfl, rfl⟩
          · exact means_scalarType hms
          · exact .uint64
          · exact .int64
        cases hvc with
        | required _ s' _ => exact vcr s' rfl
        | bytes | msg | ptr => cases hVs

/-- C02 for programs: Size is the length of Marshal's output. Partial: map types with key and value types that are measured
differently are excluded, see `C02_false_for_maps`. -/
theorem C02_program_partial (D : Decls) (h : ProgramOK D) (hm : MapsAlike D) (t : TypeId) (v : Val)
    (hv : FitsMsg (layoutOf D) t v) :
    ∃ b, marshal (envOf D) (.msg t v) = .ok (.ok b) ∧ size (envOf D) (.msg t v) = .ok b.length :=
  C02_size_is_length_partial (good_of_program h) t v hv
    (encOK_of_types (good_of_program h) (mapsSized_of_alike h hm) t v hv)

/-- C11 for programs: Marshal's output is what the declarations say. Partial: mixed map types are excluded. -/
theorem C11_program_partial (D : Decls) (h : ProgramOK D) (hm : MapsAlike D) (t : TypeId) (vs : List Val) (b : Bytes)
    (hv : FitsMsg (layoutOf D) t (.struct vs)) (hb : marshal (envOf D) (.msg t (.struct vs)) = .ok (.ok b))
    (hl : b.length < 2 ^ 64) : WireMsg D (D t) vs b := by
  have hg := good_of_program h
  have he := C11_marshal_encodes_partial hg t vs b hv (encOK_of_types hg (mapsSized_of_alike h hm) t _ hv) hb hl
  obtain ⟨i, hi⟩ := walkStruct_ok (h t)
  have hei : envOf D t = i := by simp only [envOf, hi]
  have hw : walkFields 0 (D t) = .ok (envOf D t).fields := by rw [hei]; exact (walkStruct_fields hi).1
  exact wireMsg_of h he t (D t) [] 0 [] vs hw rfl rfl rfl rfl (fitsL_of_msg hv)

/-- C01 for programs. Partial: mixed map types and messages that are not canonical are excluded, see the negations below and
`C01_false_nil_element`, `C23_empty_map_grows`, `C50_pointer_to_zero_lost`. -/
theorem C01_program_partial (D : Decls) (h : ProgramOK D) (hm : MapsAlike D) (t : TypeId) (vs : List Val)
    (hv : FitsMsg (layoutOf D) t (.struct vs)) (hc : Canon (envOf D) (.msg t) (.ptr (.struct vs)))
    (hl : ∀ n, size (envOf D) (.msg t (.struct vs)) = .ok n → n < 2 ^ 64) :
    ∃ b w, marshal (envOf D) (.msg t (.struct vs)) = .ok (.ok b) ∧
      unmarshal (envOf D) b (.msg t (zeroStruct (D t))) = .ok ⟨.msg t w, none⟩ ∧ w.obs = (Val.struct vs).obs := by
  have hg := good_of_program h
  obtain ⟨b, h1, h2⟩ := C02_program_partial D h hm t _ hv
  obtain ⟨w, h3, h4⟩ := C01_round_trip_partial hg t vs b hv (encOK_of_types hg (mapsSized_of_alike h hm) t _ hv) hc h1 (hl _ h2)
  refine ⟨b, w, h1, ?_, h4⟩
  rw [← h3, hg.wf.zero t, ← zeroStruct_layout]

theorem Sample.mapsAlike : MapsAlike Sample.decls := by
  intro t f hf ha K V hT
  match t with
  | 0 =>
    simp only [Sample.decls, List.mem_cons, List.not_mem_nil, or_false] at hf
    rcases hf with rfl | rfl | rfl | rfl | rfl | rfl | rfl | rfl <;> cases hT
    exact .inl rfl
  | 1 =>
    simp only [Sample.decls, List.mem_cons, List.not_mem_nil, or_false] at hf
    rcases hf with rfl | rfl | rfl | rfl <;> cases hT
  | 2 =>
    simp only [Sample.decls, List.mem_cons, List.not_mem_nil, or_false] at hf
    rcases hf with rfl | rfl <;> cases hT
  | _ + 3 => simp [Sample.decls] at hf

example : ProgramOK Sample.decls ∧ MapsAlike Sample.decls := ⟨Sample.programOK, Sample.mapsAlike⟩

/-! ### C32 -/

/-- The records of an encoded message have numbers and wire types of fields. -/
theorem records_of_encodes {L : Layout} {env : Env} (hg : Good L env) : ∀ {fs : List Field} {vs : List Val} {b : Bytes},
    EncodesMsg env fs vs b → ∀ t, (∀ f ∈ fs, f ∈ (env t).fields) → FitsL L (L t) vs → b.length < 2 ^ 64 →
      ∃ rs, Records b rs ∧ ∀ r ∈ rs, ∃ f ∈ fs, r.1 = keyNumber f.tag.wiretag ∧ r.2.1 = keyType f.tag.wiretag
  | _, _, _, .nil vs => fun t hsub hf hl => ⟨[], .nil, by simp⟩
  | _, _, _, .cons f fs vs v ds b hv he hes => fun t hsub hf hl => by
    have hmem := hsub f (by simp)
    simp only [List.length_append] at hl
    have len_of : ∀ (w : U64) (ds : List Bytes) (d : Bytes), d ∈ ds → d.length ≤ (recordsOf w ds).length := by
      intro w ds d hd
      induction ds with
      | nil => simp at hd
      | cons x xs ih =>
        rw [recordsOf_cons]
        rcases List.mem_cons.mp hd with rfl | hd
        · simp; omega
        · have := ih hd; simp; omega
    have hfit : Fits L f.codec.shape v := hf.2 _ _ _ (hg.wf.slot t f hmem) hv
    obtain ⟨hpay, _⟩ := (back_codec hg he (keyType f.tag.wiretag) f.tag.wiretag (hg.wf.codec t f hmem)
      (hg.writes t f hmem) hfit (fun d hd => by have := len_of f.tag.wiretag ds d hd; omega)).2 (hg.supported t f hmem)
    obtain ⟨rs, h1, h2⟩ := records_of_encodes hg hes t (fun g hgm => hsub g (by simp [hgm])) hf (by omega)
    refine ⟨_, records_append (records_of_payloads hpay) h1, fun r hr => ?_⟩
    rcases List.mem_append.mp hr with hr | hr
    · obtain ⟨d, _, rfl⟩ := List.mem_map.mp hr
      exact ⟨f, by simp, rfl, rfl⟩
    · obtain ⟨g, hgm, h3⟩ := h2 r hr
      exact ⟨g, by simp [hgm], h3⟩

/-- C32 for handled programs: Marshal's output is a sequence of complete records, each with the number and wire type some
field's tag declares. Partial: `ProgramOK` excludes the fixed-width types for which it is false, see below. -/
theorem C32_declared_wire_types_partial (D : Decls) (h : ProgramOK D) (hm : MapsAlike D) (t : TypeId) (vs : List Val) (b : Bytes)
    (hv : FitsMsg (layoutOf D) t (.struct vs)) (hb : marshal (envOf D) (.msg t (.struct vs)) = .ok (.ok b))
    (hl : b.length < 2 ^ 64) :
    ∃ rs, Records b rs ∧ ∀ r ∈ rs, ∃ f ∈ D t, f.Active ∧ ∃ s c z, f.tag = some s ∧ SaysTag s r.2.1 (r.1 : Nat) c z := by
  have hg := good_of_program h
  have he := C11_marshal_encodes_partial hg t vs b hv (encOK_of_types hg (mapsSized_of_alike h hm) t _ hv) hb hl
  obtain ⟨rs, h1, h2⟩ := records_of_encodes hg he t (fun f hf => hf) (fitsL_of_msg hv) hl
  refine ⟨rs, h1, fun r hr => ?_⟩
  obtain ⟨g, hgm, e1, e2⟩ := h2 r hr
  obtain ⟨i, hi⟩ := walkStruct_ok (h t)
  have hei : envOf D t = i := by simp only [envOf, hi]
  rw [hei] at hgm
  obtain ⟨j, f, hj, hE⟩ := (walkFields_spec _ _ _ (walkStruct_fields hi).1).1 g hgm
  have hmem : f ∈ D t := List.mem_of_getElem? hj
  have hact : f.Active := by
    obtain ⟨_, h5, s, t', h6, _⟩ := hE
    exact ⟨h5, by simp [h6]⟩
  obtain ⟨s, e, n, c, z, k1, k2, k3, k4⟩ := entry_codecF hE ((h t).fields f hmem hact)
  have hw := wiretag_split g.tag.wiretag
  have hs := saysTag_wire k2
  refine ⟨f, hmem, hact, s, c, z, k1, ?_⟩
  rw [e1, e2, show keyType g.tag.wiretag = e by omega, show keyNumber g.tag.wiretag = n by omega]
  exact k2

/-- A program with one field. -/
def single (f : FieldDecl) : Decls
  | 0 => [f]
  | _ => []

/-- The type infos of a program with one map field. -/
def mapEnv (kw vw : U64) (k v : Scalar) (k' v' : Scalar) : Env
  | 0 => ⟨[⟨0, ⟨10#64, 1⟩, .map ⟨10#64, ⟨kw, 1⟩, ⟨vw, 1⟩, kw, vw, k.shape.zero, v.shape.zero⟩ (.required k) (.required v)
            (.normal k') (.normal v')⟩], .struct [.map true []]⟩
  | _ => ⟨[], .struct []⟩

/-- `map[uint32]uint32` with fixed32 tags -/
def fixedMap : Decls := single (Sample.tagged3 "bytes,1,rep" "fixed32,1,opt" "fixed32,2,opt" .uint32 .uint32)
/-- `map[bool]string` -/
def boolMap : Decls := single (Sample.tagged3 "bytes,1,rep" "varint,1,opt" "bytes,2,opt" .bool .string)
/-- `map[int32]uint32` -/
def mixedMap : Decls := single (Sample.tagged3 "bytes,1,rep" "varint,1,opt" "varint,2,opt" .int32 .uint32)
/-- `map[int32]int32` with zigzag32 tags -/
def zigzagMap : Decls := single (Sample.tagged3 "bytes,1,rep" "zigzag32,1,opt" "zigzag32,2,opt" .int32 .int32)
/-- `map[int32]string` -/
def stringMap : Decls := single (Sample.tagged3 "bytes,1,rep" "varint,1,opt" "bytes,2,opt" .int32 .string)

theorem fixedMap_env : envOf fixedMap = mapEnv 13#64 21#64 .uint32 .uint32 .fixed32 .fixed32 := by
  funext t
  match t with
  | 0 => rfl
  | _ + 1 => rfl

theorem boolMap_env : envOf boolMap = mapEnv 8#64 18#64 .bool .string .bool .string := by
  funext t
  match t with
  | 0 => rfl
  | _ + 1 => rfl

theorem mixedMap_env : envOf mixedMap = mapEnv 8#64 16#64 .int32 .uint32 .int32 .uint32 := by
  funext t
  match t with
  | 0 => rfl
  | _ + 1 => rfl

theorem zigzagMap_env : envOf zigzagMap = mapEnv 8#64 16#64 .zigzag32 .zigzag32 .int32 .int32 := by
  funext t
  match t with
  | 0 => rfl
  | _ + 1 => rfl

theorem stringMap_env : envOf stringMap = mapEnv 8#64 18#64 .int32 .string .int32 .string := by
  funext t
  match t with
  | 0 => rfl
  | _ + 1 => rfl

/-- C32 is false for repeated fixed32: the elements are written as varints, and the library refuses its own output. -/
theorem C32_false_repeated_fixed32 :
    let D := single (Sample.tagged "fixed32,1,rep" (.slice .uint32))
    marshal (envOf D) (.msg 0 (.struct [.slice false [.w32 1#32] []])) = .ok (.ok [13#8, 1#8]) ∧
    unmarshal (envOf D) [13#8, 1#8] (.msg 0 (zeroStruct (D 0))) =
      .ok ⟨.msg 0 (.struct [.slice true [] []]), some (.decode (.field 1 5 .unexpectedEOF))⟩ := ⟨rfl, rfl⟩

/-- C32 is false for repeated fixed64. -/
theorem C32_false_repeated_fixed64 :
    let D := single (Sample.tagged "fixed64,1,rep" (.slice .uint64))
    marshal (envOf D) (.msg 0 (.struct [.slice false [.w64 1#64] []])) = .ok (.ok [9#8, 1#8]) ∧
    unmarshal (envOf D) [9#8, 1#8] (.msg 0 (zeroStruct (D 0))) =
      .ok ⟨.msg 0 (.struct [.slice true [] []]), some (.decode (.field 1 1 .unexpectedEOF))⟩ := ⟨rfl, rfl⟩

/-- C32 is false for sfixed32 (`int32` with fixed32 tag), singular. -/
theorem C32_false_sfixed32 :
    let D := single (Sample.tagged "fixed32,1,opt" .int32)
    marshal (envOf D) (.msg 0 (.struct [.w32 1#32])) = .ok (.ok [13#8, 1#8]) ∧
    unmarshal (envOf D) [13#8, 1#8] (.msg 0 (zeroStruct (D 0))) =
      .ok ⟨.msg 0 (.struct [.w32 0#32]), some (.decode (.field 1 5 .unexpectedEOF))⟩ := ⟨rfl, rfl⟩

/-- C32 is false for sfixed64, also in an `Option`. -/
theorem C32_false_option_sfixed64 :
    let D := single { tag := some "fixed64,1,opt".toList, ty := .opt .int64 }
    marshal (envOf D) (.msg 0 (.struct [.opt true (.w64 1#64)])) = .ok (.ok [9#8, 1#8]) ∧
    unmarshal (envOf D) [9#8, 1#8] (.msg 0 (zeroStruct (D 0))) =
      .ok ⟨.msg 0 (.struct [.opt false (.w64 0#64)]), some (.decode (.field 1 1 .unexpectedEOF))⟩ := ⟨rfl, rfl⟩

/-- C32 is false for fixed32 map keys and values. -/
theorem C32_false_map_fixed32 :
    marshal (envOf fixedMap) (.msg 0 (.struct [.map false [(.w32 1#32, .w32 2#32)]])) =
      .ok (.ok [10#8, 4#8, 13#8, 1#8, 21#8, 2#8]) ∧
    unmarshal (envOf fixedMap) [10#8, 4#8, 13#8, 1#8, 21#8, 2#8] (.msg 0 (zeroStruct (fixedMap 0))) =
      .ok ⟨.msg 0 (.struct [.map false []]), some (.decode (.field 1 2 (.field 1 5 .unexpectedEOF)))⟩ := by
  rw [fixedMap_env]
  exact ⟨rfl, rfl⟩

/-! ### C02, C22: mixed maps -/

set_option maxRecDepth 8000 in
/-- C02 is false for `map[bool]string`: for a value of 124 bytes Size says 131 but Marshal writes 130 bytes, because the length
of the entry is computed with the key codec (map.go:80). -/
theorem C02_false_for_maps :
    let v := Val.struct [.map false [(.b8 true, .str (List.replicate 124 65#8))]]
    ProgramOK boolMap ∧ FitsMsg (layoutOf boolMap) 0 v ∧ size (envOf boolMap) (.msg 0 v) = .ok 131 ∧
      ∃ b, marshal (envOf boolMap) (.msg 0 v) = .ok (.ok b) ∧ b.length = 130 := by
  refine ⟨?_, ?_, by rw [boolMap_env]; rfl, ?_⟩
  · intro t
    match t with
    | 0 =>
      refine ⟨fun f hf ha => ?_, by simp [boolMap, single]⟩
      simp only [boolMap, single, List.mem_singleton] at hf
      subst hf
      exact Sample.declOK (n := 1) rfl (by decide) rfl (.map _ _ 0 1 false 2 2 false rfl
        (Sample.says_of (n := 1) (by decide) rfl) (Sample.says_of (n := 2) (by decide) rfl) (by decide) (by decide) (by decide)
        (by decide) (by decide) (.scalar _ .bool .bool (by decide) (by decide) (by decide) (by decide))
        (.scalar _ .string .string (by decide) (by decide)))
    | _ + 1 => exact ⟨by simp [boolMap, single], by simp [boolMap, single]⟩
  · refine fitsMsg_iff.mpr ⟨_, rfl, rfl, ?_⟩
    intro i s v hs hv
    match i with
    | 0 =>
      cases hs; cases hv
      exact .map _ _ _ _ (by simp) (by simp) (by intro e he; simp only [List.mem_singleton] at he; subst he; exact .b8 _)
        (by intro e he; simp only [List.mem_singleton] at he; subst he; exact .str _)
    | _ + 1 => simp [layoutOf, boolMap, single] at hs
  · rw [boolMap_env]
    exact ⟨_, rfl, rfl⟩

/-- C22 (and C01) is false for `map[int32]uint32`: the library refuses its own encoding of `{1: 0xffffffff}`. -/
theorem C22_false_for_mixed_maps :
    ∃ b, marshal (envOf mixedMap) (.msg 0 (.struct [.map false [(.w32 1#32, .w32 0xffffffff#32)]])) = .ok (.ok b) ∧
      unmarshal (envOf mixedMap) b (.msg 0 (zeroStruct (mixedMap 0))) =
        .ok ⟨.msg 0 (.struct [.map true []]), some (.decode (.field 1 2 .unexpectedEOF))⟩ := by
  rw [mixedMap_env]
  exact ⟨[10#8, 13#8, 8#8, 1#8, 16#8, 255#8, 255#8, 255#8, 255#8, 15#8], rfl, rfl⟩

/-- C22 is false for zig-zag coded maps: `map[sint32]sint32 {-1: -1}` comes back as `{1: 1}`. -/
theorem C22_false_for_zigzag_maps :
    ∃ b, marshal (envOf zigzagMap) (.msg 0 (.struct [.map false [(.w32 0xffffffff#32, .w32 0xffffffff#32)]])) = .ok (.ok b) ∧
      unmarshal (envOf zigzagMap) b (.msg 0 (zeroStruct (zigzagMap 0))) =
        .ok ⟨.msg 0 (.struct [.map false [(.w32 1#32, .w32 1#32)]]), none⟩ := by
  rw [zigzagMap_env]
  exact ⟨[10#8, 4#8, 8#8, 1#8, 16#8, 1#8], rfl, rfl⟩

/-- C22 and C03 (for Marshal) are false for `map[int32]string`: Marshal reads the string header as an `int32`, which the model
does not follow further. -/
theorem C22_false_int_to_string :
    (∃ i, walkStruct (stringMap 0) = .ok i) ∧
    marshal (envOf stringMap) (.msg 0 (.struct [.map false [(.w32 1#32, .str [65#8])]])) = .error .confused := by
  refine ⟨⟨_, rfl⟩, ?_⟩
  rw [stringMap_env]
  rfl

end Pb.Props
