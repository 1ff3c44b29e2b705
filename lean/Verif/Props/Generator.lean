import Verif.Proofs.Generator
import Verif.Props.Program
import Verif.Props.Decode
/-
C37, C38, C39: generated code and the library.
-/
namespace Pb.Props
open Spec

/-! ### C37 -/

/-- C37. The tag of the struct field generated for a field is found in the tag text and parsed as number, wire type, zig-zag
coding and cardinality of the field; for map fields also the tags of key and value. Missing: required fields and
groups, for which it is false, see `C37_false_required_and_group`. Members of oneofs have no struct field of their own, see
C39; protoc allows them no label and no map. -/
theorem C37_tags_understood_partial (tracked : Bool) (f : ProtoField) (hr : f.label ≠ .required)
    (hg : ∀ t, f.kind = .group t → ∃ key, f.label = .map key) (hn : f.number < 2 ^ 29) :
    (∃ s, (genField tracked f).tag = some s ∧ parseStructTag s =
      (⟨fieldWire f, BitVec.ofNat 64 f.number, fieldRepeated f, fieldZigzag f⟩, false)) ∧
    ∀ key, f.label = .map key → (∀ t, key ≠ .group t) → (∀ t, f.kind ≠ .group t) →
      parseStructTag (genField tracked f).keyTag = (⟨kindWire key, 1#64, false, kindZigzag key⟩, false) ∧
      parseStructTag (genField tracked f).valTag = (⟨kindWire f.kind, 2#64, false, kindZigzag f.kind⟩, false) := by
  refine ⟨⟨_, genField_tag tracked f, parseStructTag_of_says (fieldTagValue_says f hr hg (by omega))⟩, fun key hl hk hv => ?_⟩
  obtain ⟨e1, e2⟩ := genField_keyTag tracked f key hl
  rw [e1, e2]
  exact ⟨parseStructTag_of_says (fieldTagValue_says ⟨1, key, .implicit⟩ (by simp) (fun t ht => absurd ht (hk t)) (by simp)),
    parseStructTag_of_says (fieldTagValue_says ⟨2, f.kind, .implicit⟩ (by simp) (fun t ht => absurd ht (hv t)) (by simp))⟩

example : (genField true ⟨536870911, .sint64, .map .string⟩).valTag = "zigzag64,2,opt".toList := rfl
example : (genField false ⟨17, .double, .repeated⟩).tag = some "fixed64,17,rep".toList := rfl
example : renderTags (fieldTags true ⟨3, .sint32, .map .bool⟩) =
    "protobuf:\"bytes,3,rep\" protobuf_key:\"varint,1,opt\" protobuf_val:\"zigzag32,2,opt\" go:\"track\"".toList := rfl

theorem refused_req (p : Text) (n : Nat) (hp : Piece p) : (parseStructTag (p ++ ',' :: (decimal n ++ ',' :: "req".toList))).2 = true := by
  simp only [parseStructTag, splitFields_comma hp, splitFields_comma (numeral_piece (numeral_decimal n))]
  rw [splitFields_piece (by simp [Piece])]
  simp only [parseFields]
  split
  · split
    · simp [parseOption]
    · rfl
  · rfl

theorem refused_group (rest : Text) : (parseStructTag ("group".toList ++ ',' :: rest)).2 = true := by
  simp only [parseStructTag]
  rw [splitFields_comma (by simp [Piece])]
  simp [parseFields, parseWireType]

theorem kindTagName_piece (k : Kind) : Piece (kindTagName k) := by
  rw [kindTagName.eq_def]
  split <;> simp [Piece]

theorem kindTagName_group (t : TypeId) : kindTagName (.group t) = "group".toList := rfl
theorem cardTagName_required : cardTagName .required = "req".toList := rfl

theorem refused_tag (f : ProtoField)
    (h : f.label = .required ∨ ∃ t, f.kind = .group t ∧ (f.label = .implicit ∨ f.label = .optional ∨ f.label = .repeated)) :
    (parseStructTag (fieldTagValue f)).2 = true := by
  rcases h with h | ⟨t, hk, hl⟩
  · have e : fieldTagValue f = kindTagName f.kind ++ ',' :: (decimal f.number ++ ',' :: "req".toList) := by
      have e1 : f.descKind = f.kind := by unfold ProtoField.descKind; rw [h]
      have e2 : f.card = .required := by unfold ProtoField.card; rw [h]
      unfold fieldTagValue
      rw [e1, e2, cardTagName_required]
    rw [e]
    exact refused_req _ _ (kindTagName_piece _)
  · have e : fieldTagValue f = "group".toList ++ ',' :: (decimal f.number ++ ',' :: cardTagName f.card) := by
      have e1 : f.descKind = .group t := by
        unfold ProtoField.descKind
        rcases hl with h | h | h <;> rw [h] <;> exact hk
      unfold fieldTagValue
      rw [e1, kindTagName_group]
    rw [e]
    exact refused_group _

/-- C37 is false for required fields and groups: every generated message with such a field is refused, the library
panics on first use. -/
theorem C37_false_required_and_group (tracked : Bool) (name : Nat → Text) (m : ProtoMessage) (f : ProtoField) (hf : f ∈ m)
    (h : f.label = .required ∨ ∃ t, f.kind = .group t ∧ (f.label = .implicit ∨ f.label = .optional ∨ f.label = .repeated)) :
    walkStruct (genMessage tracked name m) = .error .panic := by
  have ho : ¬ InOneof f := by
    rintro ⟨i, hi⟩
    rcases h with h | ⟨t, _, h | h | h⟩ <;> rw [h] at hi <;> cases hi
  refine (C53_accepts_iff _).2.mpr ⟨_, genMessage_has hf ho, genField_active tracked f, ?_⟩
  rintro ⟨s, e, n, c, z, h1, h2, _⟩
  rw [genField_tag] at h1
  cases h1
  have := refused_tag f h
  rw [parseStructTag_of_says h2] at this
  simp at this

example : ∃ f ∈ ([⟨1, .int32, .required⟩, ⟨2, .group 3, .optional⟩] : ProtoMessage), f.label = .required :=
  ⟨⟨1, .int32, .required⟩, by simp, rfl⟩

/-- C54. The tag text that map decoding gives to the fields of its entry struct (map.go:96-98) is found again by
`StructTag.Lookup`, for every wire tag. -/
theorem C54_entry_tag_found (w : U64) (ty : FieldType) :
    (declOf true (renderTags [("protobuf".toList, formatWireTag w)]) ty).tag = some (formatWireTag w) := by
  have hname : PlainText (wireTypeName (wtType w)) := by
    unfold wireTypeName
    split
    · decide
    · split
      · decide
      · split
        · decide
        · split <;> decide
  have hp : PlainText (formatWireTag w) :=
    plain_append (plain_append (plain_append hname (by decide)) (numeral_plain (numeral_decimal _))) (by decide)
  show lookupTag _ (renderTags _) = _
  rw [lookupTag_render _ _ (by
    intro p hm
    simp only [List.mem_cons, List.not_mem_nil, or_false] at hm
    subst hm
    exact ⟨key_protobuf, hp⟩)]
  simp

example : renderTags [("protobuf".toList, formatWireTag 21#64)] = "protobuf:\"fixed32,2,opt\"".toList := rfl

/-! ### C38 -/

/-- C38. A .proto program the library handles becomes a Go program the library handles. -/
theorem C38_generated_program_handled {P : Protos} (h : ProtosOK P) (tracked : TypeId → Bool) (name : TypeId → Nat → Text)
    (hn : ∀ t i, PlainText (name t i)) : ProgramOK (genProgram tracked name P) := genProgram_ok h tracked name hn

theorem mapsAlike_gen {P : Protos} (h : ProtosOK P) (hm : ProtoMapsAlike P) {tracked : TypeId → Bool} {name : TypeId → Nat → Text}
    (hn : ∀ t i, PlainText (name t i)) : MapsAlike (genProgram tracked name P) := by
  intro t d hd ha K V hT
  obtain ⟨f, hf, ho, rfl⟩ := genMessage_mem (hn t) hd ha
  have hh := h.handled t f hf ho
  have hfm := hm t f hf
  cases hh with
  | implicit n k hk =>
    cases hk with
    | scalar _ s hs => cases hs <;> cases hT
    | bytes => cases hT
    | message => cases hT
  | optional n k hk =>
    cases hk with
    | scalar _ s hs => cases hs <;> cases hT
    | bytes => cases hT
    | message => cases hT
  | repeated n k hk => cases hT
  | map n k key hkey hk =>
    cases hT
    exact kindGoType_inj hkey hk (hfm key rfl)

/-- C38. Marshal writes a generated message as its .proto definition says: each field outside of oneofs in order, with
its number and protobuf type. Missing: the types not in `Handled`, for which it is false (see the negations below),
maps whose key and value types differ (see C02, C22), and members of oneofs (see C39). -/
theorem C38_wire_format_partial {P : Protos} (h : ProtosOK P) (hm : ProtoMapsAlike P) (tracked : TypeId → Bool)
    (name : TypeId → Nat → Text) (hn : ∀ t i, PlainText (name t i)) (t : TypeId) (vs : List Val)
    (hv : FitsMsg (layoutOf (genProgram tracked name P)) t (.struct vs))
    (hl : ∀ n, size (envOf (genProgram tracked name P)) (.msg t (.struct vs)) = .ok n → n < 2 ^ 64) :
    ∃ b, marshal (envOf (genProgram tracked name P)) (.msg t (.struct vs)) = .ok (.ok b) ∧ ProtoMsg P [] (P t) vs b := by
  have hp := genProgram_ok h tracked name hn
  have ha := mapsAlike_gen h hm (tracked := tracked) hn
  obtain ⟨b, h1, h2⟩ := C02_program_partial _ hp ha t _ hv
  refine ⟨b, h1, ?_⟩
  have hw := C11_program_partial _ hp ha t vs b hv h1 (hl _ h2)
  refine protoMsg_of h hn hw t (P t) [] _ rfl ?_ (fun f hf => hf)
  intro d hd ha
  split at hd
  · simp only [List.mem_cons, List.not_mem_nil, or_false] at hd
    subst hd
    exact absurd ha.1 (by simp)
  · simp at hd

/-- C38, C01. What Marshal writes for a generated message is read back. -/
theorem C38_round_trip_partial {P : Protos} (h : ProtosOK P) (hm : ProtoMapsAlike P) (tracked : TypeId → Bool)
    (name : TypeId → Nat → Text) (hn : ∀ t i, PlainText (name t i)) (t : TypeId) (vs : List Val)
    (hv : FitsMsg (layoutOf (genProgram tracked name P)) t (.struct vs))
    (hc : Canon (envOf (genProgram tracked name P)) (.msg t) (.ptr (.struct vs)))
    (hl : ∀ n, size (envOf (genProgram tracked name P)) (.msg t (.struct vs)) = .ok n → n < 2 ^ 64) :
    ∃ b w, marshal (envOf (genProgram tracked name P)) (.msg t (.struct vs)) = .ok (.ok b) ∧
      unmarshal (envOf (genProgram tracked name P)) b (.msg t (zeroStruct (genProgram tracked name P t))) = .ok ⟨.msg t w, none⟩ ∧
      w.obs = (Val.struct vs).obs :=
  C01_program_partial _ (genProgram_ok h tracked name hn) (mapsAlike_gen h hm hn) t vs hv hc hl

/-- A .proto program with one message. -/
def oneMessage (m : ProtoMessage) : Protos
  | 0 => m
  | _ => []

/-- The Go program generated for one message. -/
def generated (m : ProtoMessage) : Decls := genProgram (fun _ => false) (fun _ _ => "choice".toList) (oneMessage m)

/-- A message with all sorts of fields; type 0 is recursive. -/
def sampleProto : ProtoMessage :=
  [⟨1, .sint64, .optional⟩, ⟨2, .message 0, .repeated⟩, ⟨3, .enum, .map .int32⟩, ⟨4, .string, .oneof 0⟩, ⟨5, .fixed64, .implicit⟩,
   ⟨6, .bool, .oneof 0⟩, ⟨536870911, .bytes, .implicit⟩]

theorem sampleProto_ok : ProtosOK (oneMessage sampleProto) where
  numbers t := by
    match t with
    | 0 => exact ⟨by decide, by simp [oneMessage, sampleProto]⟩
    | _ + 1 => exact ⟨by simp [oneMessage], by simp [oneMessage]⟩
  handled t f hf ho := by
    match t with
    | 0 =>
      simp only [oneMessage, sampleProto, List.mem_cons, List.not_mem_nil, or_false] at hf
      rcases hf with rfl | rfl | rfl | rfl | rfl | rfl | rfl
      · exact .optional _ _ (.scalar _ _ .sint64)
      · exact .repeated _ _ (.mk _ (.message 0) (by simp) (by simp))
      · exact .map _ _ _ .int32 (.mk _ (.mk _ (.scalar _ _ .enum) (by simp) (by simp)) (by simp) (by simp))
      · exact absurd ⟨0, rfl⟩ ho
      · exact .implicit _ _ (.scalar _ _ .fixed64)
      · exact absurd ⟨0, rfl⟩ ho
      · exact .implicit _ _ .bytes
    | _ + 1 => simp [oneMessage] at hf

theorem sampleProto_alike : ProtoMapsAlike (oneMessage sampleProto) := by
  intro t f hf key hl
  match t with
  | 0 =>
    simp only [oneMessage, sampleProto, List.mem_cons, List.not_mem_nil, or_false] at hf
    rcases hf with rfl | rfl | rfl | rfl | rfl | rfl | rfl <;> simp at hl
    subst hl; simp
  | _ + 1 => simp [oneMessage] at hf

example : PlainText "choice".toList := by decide

-- the Go struct: six fields, one of them for the oneof
example : (generated sampleProto 0).map (·.ty) = [.opt .int64, .ty (.slice (.ptr (.named 0))), .ty (.map .int32 .int32), .ty .other,
    .ty .uint64, .ty (.slice .uint8)] := rfl

/-- C38 is false for sfixed32 and sfixed64, in all positions: the value 1 is written as a varint under a fixed-width wire type. -/
theorem C38_false_sfixed :
    marshal (envOf (generated [⟨1, .sfixed32, .implicit⟩])) (.msg 0 (.struct [.w32 1#32, .opaque 0])) = .ok (.ok [13#8, 1#8]) ∧
    marshal (envOf (generated [⟨1, .sfixed64, .optional⟩])) (.msg 0 (.struct [.opt true (.w64 1#64), .opaque 0])) =
      .ok (.ok [9#8, 1#8]) ∧
    marshal (envOf (generated [⟨1, .sfixed64, .repeated⟩])) (.msg 0 (.struct [.slice false [.w64 1#64] []])) =
      .ok (.ok [9#8, 1#8]) := ⟨rfl, rfl, rfl⟩

/-- C38 is false for repeated fixed32 and fixed64. -/
theorem C38_false_repeated_fixed :
    marshal (envOf (generated [⟨1, .fixed32, .repeated⟩])) (.msg 0 (.struct [.slice false [.w32 1#32] []])) =
      .ok (.ok [13#8, 1#8]) ∧
    marshal (envOf (generated [⟨1, .fixed64, .repeated⟩])) (.msg 0 (.struct [.slice false [.w64 1#64] []])) =
      .ok (.ok [9#8, 1#8]) := ⟨rfl, rfl⟩

/-- C38 is false for maps with zig-zag coded, fixed-width or mixed types: the generated programs are those of
`C22_false_for_zigzag_maps`, `C32_false_map_fixed32`, `C22_false_for_mixed_maps` and `C22_false_int_to_string`. -/
theorem C38_false_maps :
    generated [⟨1, .sint32, .map .sint32⟩] 0 = zigzagMap 0 ∧ generated [⟨1, .fixed32, .map .fixed32⟩] 0 = fixedMap 0 ∧
    generated [⟨1, .uint32, .map .int32⟩] 0 = mixedMap 0 ∧ generated [⟨1, .string, .map .int32⟩] 0 = stringMap 0 :=
  ⟨rfl, rfl, rfl, rfl⟩

/-! ### C39 -/

theorem genField_ty_ne (tracked : Bool) (f : ProtoField) : (genField tracked f).ty ≠ .ty .other := by
  rw [genField_ty]
  intro h
  split at h
  · cases h
  · have h := FieldType.ty.inj h
    obtain ⟨n, k, l⟩ := f
    have hk : kindGoType k ≠ .other := by cases k <;> simp [kindGoType]
    cases l with
    | repeated => simp [fieldGoType] at h
    | map key => simp [fieldGoType] at h
    | _ => exact hk h

theorem kindGoType_shape (k : Kind) : (kindGoType k).shape = kindShape k := by cases k <;> rfl

theorem genField_shape (tracked : Bool) (f : ProtoField) : (genField tracked f).ty.shape = fieldShape f := by
  rw [genField_ty]
  obtain ⟨n, k, l⟩ := f
  cases l with
  | map key => cases key <;> cases k <;> rfl
  | _ => cases k <;> rfl

/-- C39. Every field outside of oneofs has an entry in the type info, with its number and wire type, and memory of the field's
type at the offset of the entry. -/
theorem C39_fields_present (tracked : Bool) (name : Nat → Text) (m : ProtoMessage) (hr : ∀ f ∈ m, f.number < 2 ^ 29)
    (i : TypeInfo) (hi : walkStruct (genMessage tracked name m) = .ok i) (f : ProtoField) (hf : f ∈ m) (ho : ¬ InOneof f) :
    ∃ g ∈ i.fields, g.tag.wiretag.toNat = 8 * f.number + fieldWire f ∧
      ((genMessage tracked name m).map (·.ty.shape))[g.offset]? = some (fieldShape f) := by
  obtain ⟨j, hj⟩ := List.mem_iff_getElem?.mp (genMessage_has (tracked := tracked) (name := name) hf ho)
  have hr' : f.label ≠ .required := fun h => by
    rw [C37_false_required_and_group tracked name m f hf (.inl h)] at hi; cases hi
  have hg' : ∀ t, f.kind = .group t → ∃ key, f.label = .map key := fun t ht => by
    have hx : ¬ (f.label = .implicit ∨ f.label = .optional ∨ f.label = .repeated) := fun h => by
      rw [C37_false_required_and_group tracked name m f hf (.inr ⟨t, ht, h⟩)] at hi; cases hi
    obtain ⟨n, k, l⟩ := f
    cases l with
    | map key => exact ⟨key, rfl⟩
    | oneof i => exact absurd ⟨i, rfl⟩ ho
    | required => exact absurd rfl hr'
    | _ => exact absurd (by simp) hx
  have hs := fieldTagValue_says f hr' hg' (by have := hr f hf; omega)
  obtain ⟨g, hg, h1, s, e, n, c, z, h2, h3, h4⟩ := (C53_entries _ _ hi).2.1 j _ hj (genField_active tracked f)
  rw [genField_tag] at h2
  cases h2
  obtain ⟨rfl, rfl, _⟩ := Sample.says_unique h3 hs
  refine ⟨g, hg, ?_, by rw [h1, List.getElem?_map, hj]; simp [genField_shape]⟩
  have hw := saysTag_wire hs
  have hf29 := hr f hf
  rw [h4, show BitVec.ofInt 64 (f.number : Int) = BitVec.ofNat 64 f.number from BitVec.ofInt_natCast .. ]
  have := wiretag_toNat ⟨fieldWire f, BitVec.ofNat 64 f.number, false, false⟩ f.number (by omega) rfl (by simp; omega)
  simpa [StructTag.wiretag] using this

/-- No entry of an accepted generated message has the number of a oneof member. -/
theorem oneof_undeclared (tracked : Bool) (name : Nat → Text) (hn : ∀ i, PlainText (name i)) (m : ProtoMessage) (hm : NumbersOK m)
    (i : TypeInfo) (hi : walkStruct (genMessage tracked name m) = .ok i) (f : ProtoField) (hf : f ∈ m) (ho : InOneof f) :
    Undeclared i.fields f.number := by
  intro g hg hgn
  obtain ⟨j, d, hj, e1, e2, s, t, e3, e4, e5, _⟩ := (walkFields_spec _ _ _ (walkStruct_fields hi).1).1 g hg
  obtain ⟨f', hf', ho', rfl⟩ := genMessage_mem hn (List.mem_of_getElem? hj) ⟨e2, by simp [e3]⟩
  obtain ⟨g', hg', hw', _⟩ := C39_fields_present tracked name m (fun f hf => (hm.range f hf).2) i hi f' hf' ho'
  have hr' : f'.label ≠ .required := fun h => by
    rw [C37_false_required_and_group tracked name m f' hf' (.inl h)] at hi; cases hi
  obtain ⟨e', n', c', z', hs⟩ := says_of_parseStructTag e4
  rw [genField_tag] at e3
  cases e3
  have hg' : ∀ t, f'.kind = .group t → ∃ key, f'.label = .map key := fun t ht => by
    have hx : ¬ (f'.label = .implicit ∨ f'.label = .optional ∨ f'.label = .repeated) := fun h => by
      rw [C37_false_required_and_group tracked name m f' hf' (.inr ⟨t, ht, h⟩)] at hi; cases hi
    obtain ⟨n, k, l⟩ := f'
    cases l with
    | map key => exact ⟨key, rfl⟩
    | oneof i => exact absurd ⟨i, rfl⟩ ho'
    | required => exact absurd rfl hr'
    | _ => exact absurd (by simp) hx
  have hrange := (hm.range f' hf').2
  have hs' := fieldTagValue_says f' hr' hg' (by omega)
  rw [parseStructTag_of_says hs'] at e4
  cases e4
  have hw := saysTag_wire hs'
  have hparts := wiretag_parts ⟨fieldWire f', BitVec.ofNat 64 f'.number, fieldRepeated f', fieldZigzag f'⟩ f'.number (by omega) rfl
    (by simp; omega)
  rw [e5] at hgn
  simp only at hgn
  rw [show BitVec.ofInt 64 (f'.number : Int) = BitVec.ofNat 64 f'.number from BitVec.ofInt_natCast .., hparts.1] at hgn
  -- numbers are different
  obtain ⟨a, ha⟩ := List.mem_iff_getElem.mp hf
  obtain ⟨b, hb⟩ := List.mem_iff_getElem.mp hf'
  obtain ⟨ha, haf⟩ := ha
  obtain ⟨hb, hbf⟩ := hb
  have hpw := List.pairwise_iff_getElem.mp hm.distinct
  rcases Nat.lt_trichotomy a b with hlt | heq | hlt
  · have := hpw a b ha hb hlt; rw [haf, hbf] at this; exact this hgn.symm
  · subst heq; rw [haf] at hbf; subst hbf; exact ho' ho
  · have := hpw b a hb ha hlt; rw [haf, hbf] at this; exact this hgn

/-- C39 is false for members of oneofs, in every message: what is stored in the interface field of a oneof does not show
in the output of Marshal and Size. (The other slots of type `other` are the unexported padding fields.) -/
theorem C39_false_oneof_not_written (tracked : TypeId → Bool) (name : TypeId → Nat → Text) (hn : ∀ t i, PlainText (name t i))
    (P : Protos) (t : TypeId) (hi : ∃ i, walkStruct (genProgram tracked name P t) = .ok i) (vs ws : List Val)
    (h : ∀ (j : Nat) d, (genProgram tracked name P t)[j]? = some d → d.ty ≠ .ty .other → vs[j]? = ws[j]?) :
    marshal (envOf (genProgram tracked name P)) (.msg t (.struct vs)) = marshal (envOf (genProgram tracked name P)) (.msg t (.struct ws)) ∧
    size (envOf (genProgram tracked name P)) (.msg t (.struct vs)) = size (envOf (genProgram tracked name P)) (.msg t (.struct ws)) := by
  refine C25_program_ignored _ t hi vs ws fun j d hj ha => ?_
  obtain ⟨f, _, _, rfl⟩ := genMessage_mem (hn t) (List.mem_of_getElem? hj) ha
  exact h j _ hj (genField_ty_ne _ f)

/-- C39 is false for members of oneofs, in every message: a record with the number of a member is ignored. -/
theorem C39_false_oneof_not_read (tracked : TypeId → Bool) (name : TypeId → Nat → Text) (hn : ∀ t i, PlainText (name t i))
    (P : Protos) (t : TypeId) (hm : NumbersOK (P t)) (hi : ∃ i, walkStruct (genProgram tracked name P t) = .ok i) (f : ProtoField)
    (hf : f ∈ P t) (ho : InOneof f) (u : Bytes) (wt : Nat) (data b : Bytes) (hu : Record u f.number wt data) (vs : List Val) :
    unmarshal (envOf (genProgram tracked name P)) (u ++ b) (.msg t (.struct vs)) =
      unmarshal (envOf (genProgram tracked name P)) b (.msg t (.struct vs)) := by
  obtain ⟨i, hi⟩ := hi
  have he : envOf (genProgram tracked name P) t = i := by simp only [envOf, hi]
  have := C06_unknown_ignored_accepted (env := envOf (genProgram tracked name P)) t [] u f.number wt data b vs vs
    (by rw [unmarshal_eq]; simp [run_nil]) hu
    (by rw [he]; exact oneof_undeclared _ _ (hn t) _ hm i hi f hf ho)
  simpa using this

example : (⟨4, .string, .oneof 0⟩ : ProtoField) ∈ sampleProto ∧ NumbersOK sampleProto ∧
    (∃ i, walkStruct (generated sampleProto 0) = .ok i) := ⟨by simp [sampleProto], sampleProto_ok.numbers 0, ⟨_, rfl⟩⟩

-- so `oneof choice { int32 a = 1; }`, set to 5, is written as nothing and not read either
example : marshal (envOf (generated [⟨1, .int32, .oneof 0⟩])) (.msg 0 (.struct [.ptr (.struct [.w32 5#32]), .opaque 0])) = .ok (.ok []) ∧
    unmarshal (envOf (generated [⟨1, .int32, .oneof 0⟩])) [8#8, 5#8] (.msg 0 (.struct [.opaque 0, .opaque 0])) =
      .ok ⟨.msg 0 (.struct [.opaque 0, .opaque 0]), none⟩ := ⟨rfl, rfl⟩

end Pb.Props
