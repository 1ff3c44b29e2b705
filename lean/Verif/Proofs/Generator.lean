import Verif.Spec.Generator
import Verif.Proofs.Protobuf
/-
Struct tag texts and generated declarations.
-/
namespace Pb
open Spec

/-! ### Reading back a rendered tag text -/

/-- A key of a tag. -/
def TagKey (k : Text) : Prop := k ≠ [] ∧ ∀ c ∈ k, nameChar c = true

theorem takeWhile_prefix {p : Char → Bool} : ∀ (s : Text) (c : Char) (r : Text), (∀ x ∈ s, p x = true) → p c = false →
    (s ++ c :: r).takeWhile p = s ∧ (s ++ c :: r).dropWhile p = c :: r
  | [], c, r, _, hc => by simp [hc]
  | x :: s, c, r, hs, hc => by
    have := takeWhile_prefix s c r (fun y hy => hs y (by simp [hy])) hc
    simp [hs x (by simp), this.1, this.2]

theorem scanValue_plain : ∀ (v r : Text), PlainText v → scanValue (v ++ '"' :: r) = some (v, r)
  | [], r, _ => by simp [scanValue]
  | c :: v, r, h => by
    have hc := h c (by simp)
    have ih := scanValue_plain v r (fun x hx => h x (by simp [hx]))
    rw [List.cons_append, scanValue.eq_def]
    split
    · rename_i heq; simp at heq
    · rename_i heq; exact absurd (List.cons.inj heq).1 hc.1
    · rename_i heq; exact absurd (List.cons.inj heq).1 hc.2.1
    · rename_i heq; exact absurd (List.cons.inj heq).1 hc.2.1
    · rename_i heq
      obtain ⟨rfl, rfl⟩ := List.cons.inj heq
      simp [ih]

theorem unquote_plain {v : Text} (h : PlainText v) : unquote v = some v := by
  have h1 : '\\' ∉ v := fun hc => (h _ hc).2.1 rfl
  have h2 : '\n' ∉ v := fun hc => (h _ hc).2.2.2 rfl
  simp [unquote, h1, h2]

theorem renderTags_cons (k v : Text) (rest : List (Text × Text)) :
    renderTags ((k, v) :: rest) = k ++ ':' :: '"' :: (v ++ '"' :: (if rest = [] then [] else ' ' :: renderTags rest)) := by
  cases rest with
  | nil => simp [renderTags, quote]
  | cons p ps => obtain ⟨a, b⟩ := p; simp [renderTags, quote]

theorem nameChar_space : nameChar ' ' = false := by decide
theorem nameChar_colon : nameChar ':' = false := by decide

theorem dropWhile_space {k r : Text} (hk : TagKey k) : (k ++ r).dropWhile (· == ' ') = k ++ r := by
  obtain ⟨h1, h2⟩ := hk
  cases k with
  | nil => exact absurd rfl h1
  | cons c k =>
    have : c ≠ ' ' := by rintro rfl; have := h2 ' ' (by simp); simp [nameChar_space] at this
    simp [this]

theorem dropWhile_spaces : ∀ (s : Text), (∀ c ∈ s, c = ' ') → s.dropWhile (· == ' ') = []
  | [], _ => rfl
  | c :: s, h => by
    rw [List.dropWhile_cons, if_pos (by simp [h c (by simp)])]
    exact dropWhile_spaces s fun x hx => h x (by simp [hx])

theorem lookupUpTo_render (key : Text) : ∀ (tags : List (Text × Text)) (n : Nat) (sp : Text), (∀ c ∈ sp, c = ' ') →
    tags.length ≤ n → (∀ p ∈ tags, TagKey p.1 ∧ PlainText p.2) →
    lookupUpTo key n (sp ++ renderTags tags) = (tags.find? (·.1 = key)).map (·.2)
  | [], n, sp, hsp, _, _ => by
    cases n with
    | zero => simp [lookupUpTo]
    | succ n =>
      have : (sp ++ renderTags []).dropWhile (· == ' ') = [] := by
        rw [renderTags, List.append_nil]
        exact dropWhile_spaces _ hsp
      simp only [lookupUpTo, this]
      simp
  | (k, v) :: rest, 0, sp, _, hn, _ => by simp at hn
  | (k, v) :: rest, n + 1, sp, hsp, hn, hp => by
    obtain ⟨hk, hv⟩ := hp (k, v) (by simp)
    have hrest := lookupUpTo_render key rest n (if rest = [] then [] else [' ']) (by split <;> simp)
      (by simpa using hn) (fun p h => hp p (by simp [h]))
    have hdrop : (sp ++ renderTags ((k, v) :: rest)).dropWhile (· == ' ') = renderTags ((k, v) :: rest) := by
      have h1 := dropWhile_spaces sp hsp
      rw [List.dropWhile_append, h1]
      simp only [List.isEmpty_nil, if_true]
      rw [renderTags_cons]
      exact dropWhile_space hk
    have hsplit := takeWhile_prefix k ':' ('"' :: (v ++ '"' :: (if rest = [] then [] else ' ' :: renderTags rest)))
      hk.2 nameChar_colon
    simp only [lookupUpTo, hdrop]
    rw [renderTags_cons, hsplit.1, hsplit.2, if_neg hk.1]
    simp only [scanValue_plain _ _ hv]
    by_cases he : k = key
    · subst he; simp [unquote_plain hv]
    · rw [if_neg he, List.find?_cons_of_neg (by simpa using he), ← hrest]
      congr 1
      split
      · rename_i h0; subst h0; rfl
      · simp

theorem renderTags_length : ∀ (tags : List (Text × Text)), tags.length ≤ (renderTags tags).length
  | [] => by simp
  | (k, v) :: rest => by
    have := renderTags_length rest
    rw [renderTags_cons]
    split
    · rename_i h; subst h; simp; omega
    · simp; omega

/-- What `Lookup` finds in a rendered tag text. -/
theorem lookupTag_render (key : Text) (tags : List (Text × Text)) (h : ∀ p ∈ tags, TagKey p.1 ∧ PlainText p.2) :
    lookupTag key (renderTags tags) = (tags.find? (·.1 = key)).map (·.2) := by
  have := lookupUpTo_render key tags (renderTags tags).length [] (by simp) (renderTags_length tags) h
  simpa [lookupTag] using this

/-! ### The tags the generator writes -/

theorem numeral_plain {s : Text} {n : Nat} (h : Numeral s n) : PlainText s := by
  induction h with
  | one c d hd => intro x hx; cases hd <;> simp at hx <;> subst hx <;> decide
  | more s n c d _ hd ih =>
    intro x hx
    rcases List.mem_append.mp hx with hx | hx
    · exact ih x hx
    · cases hd <;> simp at hx <;> subst hx <;> decide

instance (s : Text) : Decidable (PlainText s) := by unfold PlainText; infer_instance
instance (s : Text) : Decidable (TagKey s) := by unfold TagKey; infer_instance

theorem plain_append {s t : Text} (hs : PlainText s) (ht : PlainText t) : PlainText (s ++ t) := by
  intro c hc
  rcases List.mem_append.mp hc with h | h
  · exact hs c h
  · exact ht c h

theorem plain_cons {c : Char} {t : Text} (hc : PlainText [c]) (ht : PlainText t) : PlainText (c :: t) :=
  plain_append (s := [c]) hc ht

theorem plain_bytes : PlainText "bytes".toList := by decide
theorem plain_group : PlainText "group".toList := by decide
theorem key_protobuf : TagKey "protobuf".toList := by decide
theorem key_key : TagKey "protobuf_key".toList := by decide
theorem key_val : TagKey "protobuf_val".toList := by decide
theorem key_oneof : TagKey "protobuf_oneof".toList := by decide
theorem key_go : TagKey "go".toList := by decide
theorem plain_track : PlainText "track".toList := by decide

theorem fieldTagValue_plain (f : ProtoField) : PlainText (fieldTagValue f) := by
  refine plain_append ?_ (plain_cons (by decide) (plain_append (numeral_plain (numeral_decimal _)) (plain_cons (by decide) ?_)))
  · cases f.descKind with
    | message t => exact plain_bytes
    | group t => exact plain_group
    | _ => decide
  · cases f.card <;> decide

theorem fieldTags_ok (tracked : Bool) (f : ProtoField) : ∀ p ∈ fieldTags tracked f, TagKey p.1 ∧ PlainText p.2 := by
  intro p hp
  simp only [fieldTags, List.mem_cons, List.mem_append] at hp
  rcases hp with rfl | hp | hp
  · exact ⟨key_protobuf, fieldTagValue_plain f⟩
  · split at hp
    · simp only [List.mem_cons, List.not_mem_nil, or_false] at hp
      rcases hp with rfl | rfl
      · exact ⟨key_key, fieldTagValue_plain _⟩
      · exact ⟨key_val, fieldTagValue_plain _⟩
    · simp at hp
  · split at hp
    · simp only [List.mem_cons, List.not_mem_nil, or_false] at hp
      subst hp
      exact ⟨key_go, plain_track⟩
    · simp at hp

theorem genField_exported (tracked : Bool) (f : ProtoField) : (genField tracked f).exported = true := rfl

theorem genField_tag (tracked : Bool) (f : ProtoField) : (genField tracked f).tag = some (fieldTagValue f) := by
  show lookupTag _ (renderTags _) = _
  rw [lookupTag_render _ _ (fieldTags_ok tracked f)]
  simp [fieldTags]

theorem genField_keyTag (tracked : Bool) (f : ProtoField) (key : Kind) (h : f.label = .map key) :
    (genField tracked f).keyTag = fieldTagValue ⟨1, key, .implicit⟩ ∧
    (genField tracked f).valTag = fieldTagValue ⟨2, f.kind, .implicit⟩ := by
  constructor
  · show (lookupTag _ (renderTags _)).getD [] = _
    rw [lookupTag_render _ _ (fieldTags_ok tracked f)]
    simp [fieldTags, h, ProtoField.entryFields]
  · show (lookupTag _ (renderTags _)).getD [] = _
    rw [lookupTag_render _ _ (fieldTags_ok tracked f)]
    simp [fieldTags, h, ProtoField.entryFields]

theorem oneof_tag (tracked : Bool) (name : Text) (hn : PlainText name) :
    lookupTag "protobuf".toList (renderTags (oneofTags tracked name)) = none := by
  rw [lookupTag_render _ _ ?_]
  · cases tracked <;> simp [oneofTags]
  · intro p hp
    cases tracked <;> simp only [oneofTags, List.mem_cons, List.not_mem_nil, or_false, if_true, Bool.false_eq_true, if_false] at hp
    · subst hp; exact ⟨key_oneof, hn⟩
    · rcases hp with rfl | rfl
      · exact ⟨key_oneof, hn⟩
      · exact ⟨key_go, plain_track⟩

/-- The tag value of a field says number, wire type, zig-zag coding and cardinality of the field. -/
theorem fieldTagValue_says (f : ProtoField) (hr : f.label ≠ .required)
    (hg : ∀ t, f.kind = .group t → ∃ key, f.label = .map key) (hn : f.number < 2 ^ 63) :
    SaysTag (fieldTagValue f) (fieldWire f) f.number (fieldRepeated f) (fieldZigzag f) := by
  have hi := Integer.nat _ _ (numeral_decimal f.number) hn
  have he : Encoding (kindTagName f.descKind) (fieldWire f) (fieldZigzag f) := by
    obtain ⟨n, k, l⟩ := f
    cases l with
    | map key => exact .bytes
    | required => exact absurd rfl hr
    | _ =>
      cases k with
      | group t => obtain ⟨key, hk⟩ := hg t rfl; cases hk
      | sint32 => exact .zigzag32
      | sint64 => exact .zigzag64
      | sfixed32 | fixed32 | float => exact .fixed32
      | sfixed64 | fixed64 | double => exact .fixed64
      | string | bytes | message => exact .bytes
      | _ => exact .varint
  have hc : Cardinality (cardTagName f.card) (fieldRepeated f) := by
    obtain ⟨n, k, l⟩ := f
    cases l with
    | required => exact absurd rfl hr
    | repeated | map => exact .rep
    | _ => exact .opt
  exact .three _ _ _ _ _ _ _ he hi hc

/-! ### Generated declarations are handled -/

theorem genField_active (tracked : Bool) (f : ProtoField) : (genField tracked f).Active :=
  ⟨rfl, by rw [genField_tag]; simp⟩

theorem genField_ty (tracked : Bool) (f : ProtoField) : (genField tracked f).ty =
    if (fieldGoType f).2 then .opt (optBaseOf (fieldGoType f).1) else .ty (fieldGoType f).1 := rfl

theorem kindIs_means {k : Kind} {s : Scalar} (h : KindIs k s) : Means (kindWire k) (kindZigzag k) (kindGoType k) s := by
  cases h <;> constructor

theorem means_kindIs {k : Kind} {s : Scalar} (h : Means (kindWire k) (kindZigzag k) (kindGoType k) s) : KindIs k s := by
  cases k <;> cases h <;> constructor

theorem kindIs_opt {k : Kind} {s : Scalar} (h : KindIs k s) : (optBaseOf (kindGoType k)).goType = kindGoType k ∧
    k.selfPresent = false := by
  cases h <;> exact ⟨rfl, rfl⟩

theorem repeatedKind_value {k : Kind} (h : RepeatedKind k) : ValueOK (kindWire k) (kindZigzag k) (kindGoType k) := by
  obtain ⟨hk, h1, h2⟩ := h
  cases hk with
  | scalar _ s hs =>
    refine .scalar _ s (kindIs_means hs) ?_ ?_
    · rintro rfl; cases hs; exact h1 rfl
    · rintro rfl; cases hs; exact h2 rfl
  | bytes => exact .bytes rfl
  | message t => exact .msg t rfl

theorem mapValueKind_entry {k : Kind} (h : MapValueKind k) : EntryOK (kindWire k) (kindGoType k) ∧ kindZigzag k = false := by
  obtain ⟨⟨hk, h1, h2⟩, h3, h4⟩ := h
  cases hk with
  | scalar _ s hs =>
    have hz : kindZigzag k = false := by cases hs <;> first | rfl | exact absurd rfl h3 | exact absurd rfl h4
    have hm := kindIs_means hs
    rw [hz] at hm
    refine ⟨.scalar _ s hm ?_ ?_, hz⟩
    · rintro rfl; cases hs; exact h1 rfl
    · rintro rfl; cases hs; exact h2 rfl
  | bytes => exact ⟨.value _ (.bytes rfl) (by decide) (by decide), rfl⟩
  | message t => exact ⟨.value _ (.msg t rfl) (by simp [kindWire]) (by simp [kindWire]), rfl⟩

theorem mapKeyKind_key {k : Kind} (h : MapKeyKind k) : KeyOK (kindWire k) (kindGoType k) ∧ kindZigzag k = false := by
  cases h
  · exact ⟨.scalar _ _ .bool (by decide) (by decide) (by decide) (by decide), rfl⟩
  · exact ⟨.scalar _ _ .int32 (by decide) (by decide) (by decide) (by decide), rfl⟩
  · exact ⟨.scalar _ _ .int64 (by decide) (by decide) (by decide) (by decide), rfl⟩
  · exact ⟨.scalar _ _ .uint32 (by decide) (by decide) (by decide) (by decide), rfl⟩
  · exact ⟨.scalar _ _ .uint64 (by decide) (by decide) (by decide) (by decide), rfl⟩
  · exact ⟨.scalar _ _ .string (by decide) (by decide) (by decide) (by decide), rfl⟩

theorem handled_says {f : ProtoField} (h : Handled f) (hn : f.number < 2 ^ 29) :
    SaysTag (fieldTagValue f) (fieldWire f) f.number (fieldRepeated f) (fieldZigzag f) := by
  have hs : ∀ {k t}, SingularKind k → k ≠ .group t := by
    rintro k t hk rfl
    cases hk with | scalar _ s hs => cases hs
  refine fieldTagValue_says f ?_ ?_ (by omega)
  · cases h <;> simp
  · intro t ht
    cases h with
    | implicit n k hk => exact absurd ht (hs hk)
    | optional n k hk => exact absurd ht (hs hk)
    | repeated n k hk => obtain ⟨hk, _, _⟩ := hk; exact absurd ht (hs hk)
    | map n k key _ _ => exact ⟨key, rfl⟩

theorem singular_fieldOK {k : Kind} (h : SingularKind k) (kt vt : Text) :
    FieldOK (kindWire k) (kindZigzag k) kt vt (.ty (kindGoType k)) := by
  cases h with
  | scalar _ s hs => exact .scalar _ s (kindIs_means hs)
  | bytes => exact .value _ (.bytes rfl) (by decide) (by decide)
  | message t => exact .value _ (.msg t rfl) (by simp [kindWire]) (by simp [kindWire])

theorem entry_says (n : Nat) (k : Kind) (hk : SingularKind k) (hn : n < 2 ^ 29) :
    SaysTag (fieldTagValue ⟨n, k, .implicit⟩) (kindWire k) n false (kindZigzag k) :=
  handled_says (f := ⟨n, k, .implicit⟩) (.implicit n k hk) hn

theorem mapKeyKind_singular {k : Kind} (h : MapKeyKind k) : SingularKind k := by
  cases h
  · exact .scalar _ _ .bool
  · exact .scalar _ _ .int32
  · exact .scalar _ _ .int64
  · exact .scalar _ _ .uint32
  · exact .scalar _ _ .uint64
  · exact .scalar _ _ .string

/-- The struct field generated for a handled field is handled by the library. -/
theorem genField_declOK (tracked : Bool) {f : ProtoField} (h : Handled f) (hn : f.number < 2 ^ 29) :
    DeclOK (genField tracked f) := by
  refine ⟨_, _, _, _, _, genField_tag tracked f, handled_says h hn, by omega, by omega, ?_⟩
  rw [genField_ty]
  cases h with
  | implicit n k hk =>
    have e : (fieldGoType ⟨n, k, .implicit⟩).2 = false := by
      cases hk with
      | scalar _ s hs => cases hs <;> rfl
      | bytes => rfl
      | message => rfl
    rw [e]
    exact singular_fieldOK hk _ _
  | optional n k hk =>
    cases hk with
    | scalar _ s hs =>
      have e : (fieldGoType ⟨n, k, .optional⟩).2 = true := by
        simp [fieldGoType, ProtoField.hasPresence, (kindIs_opt hs).2]
      rw [e]
      refine .option _ s ?_
      show Means _ _ (optBaseOf (kindGoType k)).goType s
      rw [(kindIs_opt hs).1]
      exact kindIs_means hs
    | bytes => exact singular_fieldOK .bytes _ _
    | message t => exact singular_fieldOK (.message t) _ _
  | repeated n k hk => exact .repeated _ (repeatedKind_value hk)
  | map n k key hkey hk =>
    obtain ⟨e1, e2⟩ := genField_keyTag tracked ⟨n, k, .map key⟩ key rfl
    rw [e1, e2]
    have hks := entry_says 1 key (mapKeyKind_singular hkey) (by decide)
    have hvs := entry_says 2 k (by obtain ⟨⟨h, _, _⟩, _, _⟩ := hk; exact h) (by decide)
    rw [(mapKeyKind_key hkey).2] at hks
    rw [(mapValueKind_entry hk).2] at hvs
    exact .map _ _ _ _ _ _ _ _ rfl hks hvs (by decide) (by decide) (by decide) (by decide) (by decide)
      (mapKeyKind_key hkey).1 (mapValueKind_entry hk).1

theorem oneof_inactive (tracked : Bool) {name : Text} (hn : PlainText name) (ty : FieldType) :
    ¬ (declOf true (renderTags (oneofTags tracked name)) ty).Active := fun h => h.2 (oneof_tag tracked name hn)

theorem genFields_mem {tracked : Bool} {name : Nat → Text} (hn : ∀ i, PlainText (name i)) : ∀ (fs : List ProtoField) (seen : List Nat)
    (d : FieldDecl), d ∈ genFields tracked name seen fs → d.Active → ∃ f ∈ fs, ¬ InOneof f ∧ d = genField tracked f
  | [], _, _, h, _ => by simp [genFields] at h
  | f :: fs, seen, d, h, ha => by
    have ih := genFields_mem (tracked := tracked) hn fs
    by_cases ho : InOneof f
    · obtain ⟨i, hi⟩ := ho
      simp only [genFields, hi] at h
      split at h
      · obtain ⟨g, h1, h2⟩ := ih _ _ h ha; exact ⟨g, by simp [h1], h2⟩
      · rcases List.mem_cons.mp h with rfl | h
        · exact absurd ha (oneof_inactive tracked (hn i) _)
        · obtain ⟨g, h1, h2⟩ := ih _ _ h ha; exact ⟨g, by simp [h1], h2⟩
    · have e : genFields tracked name seen (f :: fs) = genField tracked f :: genFields tracked name seen fs := by
        rw [genFields]; split
        · rename_i i hi; exact absurd ⟨i, hi⟩ ho
        · rfl
      rw [e] at h
      rcases List.mem_cons.mp h with rfl | h
      · exact ⟨f, by simp, ho, rfl⟩
      · obtain ⟨g, h1, h2⟩ := ih _ _ h ha; exact ⟨g, by simp [h1], h2⟩

theorem genFields_field {tracked : Bool} {name : Nat → Text} {f : ProtoField} (ho : ¬ InOneof f) (fs : List ProtoField) (seen : List Nat) :
    genFields tracked name seen (f :: fs) = genField tracked f :: genFields tracked name seen fs := by
  rw [genFields]; split
  · rename_i i hi; exact absurd ⟨i, hi⟩ ho
  · rfl

theorem genFields_has {tracked : Bool} {name : Nat → Text} : ∀ (fs : List ProtoField) (seen : List Nat)
    (f : ProtoField), f ∈ fs → ¬ InOneof f → genField tracked f ∈ genFields tracked name seen fs
  | g :: fs, seen, f, h, ho => by
    have ih := genFields_has (tracked := tracked) (name := name) fs
    rcases List.mem_cons.mp h with rfl | h
    · rw [genFields_field ho]; simp
    · rw [genFields]
      split
      · split
        · exact ih _ _ h ho
        · exact List.mem_cons_of_mem _ (ih _ _ h ho)
      · exact List.mem_cons_of_mem _ (ih _ _ h ho)

theorem genFields_pairwise {tracked : Bool} {name : Nat → Text} (hn : ∀ i, PlainText (name i)) {R : FieldDecl → FieldDecl → Prop} :
    ∀ (fs : List ProtoField) (seen : List Nat),
    fs.Pairwise (fun f g => ¬ InOneof f → ¬ InOneof g → R (genField tracked f) (genField tracked g)) →
    (genFields tracked name seen fs).Pairwise (fun d e => d.Active → e.Active → R d e)
  | [], _, _ => by simp [genFields]
  | f :: fs, seen, h => by
    obtain ⟨h1, h2⟩ := List.pairwise_cons.mp h
    have ih := fun seen => genFields_pairwise hn (R := R) fs seen h2
    by_cases ho : InOneof f
    · obtain ⟨i, hi⟩ := ho
      simp only [genFields, hi]
      split
      · exact ih _
      · exact List.pairwise_cons.mpr ⟨fun e _ ha _ => absurd ha (oneof_inactive tracked (hn i) _), ih _⟩
    · rw [genFields_field ho]
      refine List.pairwise_cons.mpr ⟨fun e he _ ha => ?_, ih _⟩
      obtain ⟨g, hg, hgo, rfl⟩ := genFields_mem hn fs seen e he ha
      exact h1 g hg ho hgo

theorem genMessage_mem {tracked : Bool} {name : Nat → Text} (hn : ∀ i, PlainText (name i)) {m : ProtoMessage} {d : FieldDecl}
    (h : d ∈ genMessage tracked name m) (ha : d.Active) : ∃ f ∈ m, ¬ InOneof f ∧ d = genField tracked f := by
  rw [genMessage] at h
  rcases List.mem_append.mp h with h | h
  · exact genFields_mem hn m [] d h ha
  · split at h
    · simp only [List.mem_cons, List.not_mem_nil, or_false] at h
      subst h
      exact absurd ha.1 (by simp)
    · simp at h

theorem genMessage_has {tracked : Bool} {name : Nat → Text} {m : ProtoMessage} {f : ProtoField} (h : f ∈ m) (ho : ¬ InOneof f) :
    genField tracked f ∈ genMessage tracked name m :=
  List.mem_append.mpr (.inl (genFields_has m [] f h ho))

/-- The generated program is one the library handles. -/
theorem genProgram_ok {P : Protos} (h : ProtosOK P) (tracked : TypeId → Bool) (name : TypeId → Nat → Text)
    (hn : ∀ t i, PlainText (name t i)) : ProgramOK (genProgram tracked name P) := by
  intro t
  constructor
  · intro d hd ha
    obtain ⟨f, hf, ho, rfl⟩ := genMessage_mem (hn t) hd ha
    exact genField_declOK _ (h.handled t f hf ho) ((h.numbers t).range f hf).2
  · show (genMessage (tracked t) (name t) (P t)).Pairwise _
    rw [genMessage]
    refine List.pairwise_append.mpr ⟨?_, by split <;> simp, fun d _ e he _ ha => ?_⟩
    · refine genFields_pairwise (hn t) (R := fun d e => ∀ n m, Says d n → Says e m → n ≠ m) (P t) [] ?_
      refine List.Pairwise.imp_of_mem ?_ (h.numbers t).distinct
      rintro f g hf hg hne hof hog n m ⟨s, e, c, z, h1, h2⟩ ⟨s', e', c', z', h1', h2'⟩
      rw [genField_tag] at h1 h1'
      cases h1; cases h1'
      obtain ⟨_, e1, _⟩ := Sample.says_unique h2 (handled_says (h.handled t f hf hof) ((h.numbers t).range f hf).2)
      obtain ⟨_, e2, _⟩ := Sample.says_unique h2' (handled_says (h.handled t g hg hog) ((h.numbers t).range g hg).2)
      rw [e1, e2]
      exact fun h => hne (by omega)
    · split at he
      · simp only [List.mem_cons, List.not_mem_nil, or_false] at he
        subst he
        exact absurd ha.1 (by simp)
      · simp at he

theorem kindGoType_inj {k k' : Kind} (hk : MapKeyKind k) (hk' : MapValueKind k')
    (h : k' = k ∨ (k = .int32 ∧ k' = .enum) ∨ (k = .int64 ∧ k' = .uint64) ∨ (k = .uint64 ∧ k' = .int64)) :
    kindGoType k = kindGoType k' ∨ (kindGoType k = .int64 ∧ kindGoType k' = .uint64) ∨
      (kindGoType k = .uint64 ∧ kindGoType k' = .int64) := by
  rcases h with rfl | ⟨rfl, rfl⟩ | ⟨rfl, rfl⟩ | ⟨rfl, rfl⟩
  · exact .inl rfl
  · exact .inl rfl
  · exact .inr (.inl ⟨rfl, rfl⟩)
  · exact .inr (.inr ⟨rfl, rfl⟩)

/-! ### From the wire format of the declarations to that of the .proto file -/

theorem genFields_nil {tracked : Bool} {name : Nat → Text} {P : Protos} : ∀ (fs : List ProtoField) (seen : List Nat),
    genFields tracked name seen fs = [] → ∀ vs, ProtoMsg P seen fs vs []
  | [], seen, _, vs => .nil seen vs
  | f :: fs, seen, h, vs => by
    have ih := genFields_nil (tracked := tracked) (name := name) (P := P) fs seen
    rw [genFields] at h
    split at h
    · rename_i i hi
      split at h
      · rename_i hs; exact .oneofSeen seen f fs i vs [] hi hs (ih h vs)
      · simp at h
    · simp at h

theorem genFields_cons {tracked : Bool} {name : Nat → Text} (P : Protos) : ∀ (fs : List ProtoField) (seen : List Nat) (d : FieldDecl)
    (ds : List FieldDecl), genFields tracked name seen fs = d :: ds →
    ∃ f fs', f ∈ fs ∧ (∀ g ∈ fs', g ∈ fs) ∧ (∀ vs b, ProtoMsg P seen (f :: fs') vs b → ProtoMsg P seen fs vs b) ∧
      ((¬ InOneof f ∧ d = genField tracked f ∧ ds = genFields tracked name seen fs') ∨
       ∃ i, f.label = .oneof i ∧ i ∉ seen ∧ d = declOf true (renderTags (oneofTags tracked (name i))) (.ty .other) ∧
         ds = genFields tracked name (i :: seen) fs')
  | [], _, _, _, h => by simp [genFields] at h
  | f :: fs, seen, d, ds, h => by
    by_cases ho : InOneof f
    · obtain ⟨i, hi⟩ := ho
      simp only [genFields, hi] at h
      split at h
      · rename_i hs
        obtain ⟨g, fs', h1, h2, h3, h4⟩ := genFields_cons P fs seen d ds h
        exact ⟨g, fs', (by simp [h1]), (fun x hx => by simp [h2 x hx]),
          (fun vs b hb => .oneofSeen seen f fs i vs b hi hs (h3 vs b hb)), h4⟩
      · rename_i hs
        obtain ⟨e1, e2⟩ := List.cons.inj h
        exact ⟨f, fs, (by simp), (fun x hx => by simp [hx]), (fun vs b hb => hb), .inr ⟨i, hi, hs, e1.symm, e2.symm⟩⟩
    · rw [genFields_field ho] at h
      obtain ⟨e1, e2⟩ := List.cons.inj h
      exact ⟨f, fs, (by simp), (fun x hx => by simp [hx]), (fun vs b hb => hb), .inl ⟨ho, e1.symm, e2.symm⟩⟩

/-- The fields after those of the message: at most the unexported one. -/
def Inactive (tail : StructDecl) : Prop := ∀ d ∈ tail, ¬ d.Active

theorem wireMsg_inactive {D : Decls} : ∀ {tail : StructDecl} {vs : List Val} {b : Bytes}, Inactive tail → WireMsg D tail vs b → b = []
  | [], _, _, _, h => by cases h; rfl
  | d :: tail, _, _, hi, h => by
    cases h with
    | skip _ _ v vs b hna h => exact wireMsg_inactive (fun x hx => hi x (by simp [hx])) h
    | field _ _ v vs s e n c z ds b ha => exact absurd ha (hi d (by simp))

theorem selfPresent_not_scalar {k : Kind} (h : k.selfPresent = true) (s : Scalar) : ¬ KindIs k s := by
  intro hs; rw [(kindIs_opt hs).2] at h; simp at h

/-- Records of singular values. -/
theorem singular_not_opt {k : Kind} {s : Scalar} (h : KindIs k s) (n : Nat) (tracked : Bool) :
    (genField tracked ⟨n, k, .optional⟩).ty = .opt (optBaseOf (kindGoType k)) := by
  rw [genField_ty]
  simp [fieldGoType, ProtoField.hasPresence, (kindIs_opt h).2]

mutual
theorem protoValue_of {P : Protos} (hP : ProtosOK P) {tracked : TypeId → Bool} {name : TypeId → Nat → Text}
    (hn : ∀ t i, PlainText (name t i)) {e : Nat} {z always : Bool} {T : GoType} {v : Val} {ds : List Bytes} :
    WireValue (genProgram tracked name P) e z always T v ds → ∀ k, SingularKind k → e = kindWire k → z = kindZigzag k →
      T = kindGoType k → ProtoValue P always k v ds
  | .scalar e z always T s v hm hz => fun k hk he hzz hT => by
    subst he hzz hT
    exact .scalar always k s v (means_kindIs hm) hz
  | .zero e z T s hm => fun k hk he hzz hT => by
    subst he hzz hT
    exact .zero k s (means_kindIs hm)
  | .bytes z always s => fun k hk he hzz hT => by
    cases k <;> simp [kindGoType] at hT
    exact .bytes always s
  | .bytesNil z always => fun k hk he hzz hT => by
    cases k <;> simp [kindGoType] at hT
    exact .bytesNil always
  | .msg z always t vs body hb => fun k hk he hzz hT => by
    have ih := protoMsg_of hP hn hb t (P t) [] _ rfl (by
      intro d hd ha
      split at hd
      · simp only [List.mem_cons, List.not_mem_nil, or_false] at hd
        subst hd
        exact absurd ha.1 (by simp)
      · simp at hd) (fun f hf => hf)
    cases k <;> simp [kindGoType] at hT
    · subst hT; exact .message always _ vs body ih
    · cases hk with | scalar _ s hs => cases hs
  | .ptr e z always T v ds hne hv => fun k hk he hzz hT => by
    cases k <;> simp [kindGoType] at hT
    · exact absurd hT (hne _)
    · exact absurd hT (hne _)
  | .nil e z always T => fun k hk he hzz hT => by
    cases k <;> simp [kindGoType] at hT
    · exact .messageNil always _
    · cases hk with | scalar _ s hs => cases hs

theorem protoField_of {P : Protos} (hP : ProtosOK P) {tracked : TypeId → Bool} {name : TypeId → Nat → Text}
    (hn : ∀ t i, PlainText (name t i)) {e : Nat} {z : Bool} {kt vt : Text} {T : FieldType} {v : Val} {ds : List Bytes} :
    WireField (genProgram tracked name P) e z kt vt T v ds → ∀ (tr : Bool) (f : ProtoField), Handled f → e = fieldWire f →
      z = fieldZigzag f → T = (genField tr f).ty → kt = (genField tr f).keyTag → vt = (genField tr f).valTag →
      ProtoFieldValue P f.label f.kind v ds
  | .single e z kt vt T v ds hv => fun tr f hf he hz hT _ _ => by
    have ih := protoValue_of hP hn hv
    cases hf with
    | implicit n k hk =>
      have e2 : (fieldGoType ⟨n, k, .implicit⟩).2 = false := by
        cases hk with
        | scalar _ s hs => cases hs <;> rfl
        | bytes => rfl
        | message => rfl
      rw [genField_ty, e2] at hT
      simp only [Bool.false_eq_true, if_false, FieldType.ty.injEq] at hT
      exact .implicit k v ds (ih k hk he hz hT)
    | optional n k hk =>
      cases hk with
      | scalar _ s hs => rw [singular_not_opt hs] at hT; cases hT
      | bytes =>
        exact .optional _ v ds (selfPresent_not_scalar rfl) (ih .bytes .bytes he hz (FieldType.ty.inj hT))
      | message t =>
        exact .optional _ v ds (selfPresent_not_scalar rfl) (ih (.message t) (.message t) he hz (FieldType.ty.inj hT))
    | repeated n k hk =>
      rw [genField_ty] at hT
      simp only [fieldGoType, Bool.false_eq_true, if_false, FieldType.ty.injEq] at hT
      obtain ⟨hk, _, _⟩ := hk
      have hu : kindGoType k ≠ .uint8 := by cases k <;> simp [kindGoType]
      generalize kindGoType k = T' at hT hu
      subst hT
      cases hv with
      | scalar _ _ _ _ s _ hm => cases hm
      | zero _ _ _ s hm => cases hm
      | bytes => exact absurd rfl hu
      | bytesNil => exact absurd rfl hu
    | map n k key _ _ =>
      rw [genField_ty] at hT
      simp only [fieldGoType, Bool.false_eq_true, if_false, FieldType.ty.injEq] at hT
      subst hT
      cases hv with
      | scalar _ _ _ _ s _ hm => cases hm
      | zero _ _ _ s hm => cases hm
  | .some e z kt vt b s v hm => fun tr f hf he hz hT _ _ => by
    cases hf with
    | implicit n k hk =>
      exfalso
      rw [genField_ty] at hT
      have e2 : (fieldGoType ⟨n, k, .implicit⟩).2 = false := by
        cases hk with
        | scalar _ s hs => cases hs <;> rfl
        | bytes => rfl
        | message => rfl
      rw [e2] at hT
      simp at hT
    | optional n k hk =>
      cases hk with
      | scalar _ s' hs =>
        rw [singular_not_opt hs] at hT
        cases hT
        rw [(kindIs_opt hs).1, he, hz] at hm
        exact .some k s v (means_kindIs hm)
      | bytes => cases hT
      | message t => cases hT
    | repeated n k hk => cases hT
    | map n k key _ _ => cases hT
  | .none e z kt vt b v => fun tr f hf he hz hT _ _ => by
    cases hf with
    | implicit n k hk =>
      exfalso
      rw [genField_ty] at hT
      have e2 : (fieldGoType ⟨n, k, .implicit⟩).2 = false := by
        cases hk with
        | scalar _ s hs => cases hs <;> rfl
        | bytes => rfl
        | message => rfl
      rw [e2] at hT
      simp at hT
    | optional n k hk =>
      cases hk with
      | scalar _ s' hs => exact .none k s' v hs
      | bytes => cases hT
      | message t => cases hT
    | repeated n k hk => cases hT
    | map n k key _ _ => cases hT
  | .repeated e z kt vt T isNil es spare ds hu hl => fun tr f hf he hz hT _ _ => by
    have ih := protoList_of hP hn hl
    cases hf with
    | implicit n k hk =>
      cases hk with
      | scalar _ s hs => cases hs <;> cases hT
      | bytes => cases hT; exact absurd rfl hu
      | message => cases hT
    | optional n k hk =>
      cases hk with
      | scalar _ s hs => cases hs <;> cases hT
      | bytes => cases hT; exact absurd rfl hu
      | message => cases hT
    | repeated n k hk =>
      rw [genField_ty] at hT
      simp only [fieldGoType, Bool.false_eq_true, if_false, FieldType.ty.injEq, GoType.slice.injEq] at hT
      exact .repeated k isNil es spare ds (ih k hk.1 he hz hT)
    | map n k key _ _ => cases hT
  | .map z kt vt K V ke kn kc ve vn vc isNil m ds hks hvs hne hes => fun tr f hf he hz hT hkt hvt => by
    have ih := protoEntries_of hP hn hes
    cases hf with
    | implicit n k hk =>
      cases hk with
      | scalar _ s hs => cases hs <;> cases hT
      | bytes => cases hT
      | message => cases hT
    | optional n k hk =>
      cases hk with
      | scalar _ s hs => cases hs <;> cases hT
      | bytes => cases hT
      | message => cases hT
    | repeated n k hk => cases hT
    | map n k key hkey hk =>
      cases hT
      obtain ⟨e1, e2⟩ := genField_keyTag tr ⟨n, k, .map key⟩ key rfl
      rw [hkt, e1] at hks
      rw [hvt, e2] at hvs
      obtain ⟨a1, a2, _⟩ := Sample.says_unique hks (entry_says 1 key (mapKeyKind_singular hkey) (by decide))
      obtain ⟨b1, b2, _⟩ := Sample.says_unique hvs (entry_says 2 k hk.1.1 (by decide))
      exact .map key k isNil m ds hne (ih key k (mapKeyKind_singular hkey) hk.1.1 (mapKeyKind_key hkey).2
        (mapValueKind_entry hk).2 a1 (by omega) b1 (by omega) rfl rfl)
  | .mapEmpty z kt vt K V isNil => fun tr f hf he hz hT _ _ => by
    cases hf with
    | implicit n k hk =>
      cases hk with
      | scalar _ s hs => cases hs <;> cases hT
      | bytes => cases hT
      | message => cases hT
    | optional n k hk =>
      cases hk with
      | scalar _ s hs => cases hs <;> cases hT
      | bytes => cases hT
      | message => cases hT
    | repeated n k hk => cases hT
    | map n k key hkey hk => exact .mapEmpty key k isNil

theorem protoList_of {P : Protos} (hP : ProtosOK P) {tracked : TypeId → Bool} {name : TypeId → Nat → Text}
    (hn : ∀ t i, PlainText (name t i)) {e : Nat} {z : Bool} {T : GoType} {es : List Val} {ds : List Bytes} :
    WireList (genProgram tracked name P) e z T es ds → ∀ k, SingularKind k → e = kindWire k → z = kindZigzag k →
      T = kindGoType k → ProtoList P k es ds
  | .nil e z T => fun k _ _ _ _ => .nil k
  | .cons e z T v vs ds ds' hv hl => fun k hk he hz hT =>
    .cons k v vs ds ds' (protoValue_of hP hn hv k hk he hz hT) (protoList_of hP hn hl k hk he hz hT)

theorem protoEntries_of {P : Protos} (hP : ProtosOK P) {tracked : TypeId → Bool} {name : TypeId → Nat → Text}
    (hn : ∀ t i, PlainText (name t i)) {ke kn ve vn : Nat} {K V : GoType} {m : List (Key × Val)} {ds : List Bytes} :
    WireEntries (genProgram tracked name P) ke kn ve vn K V m ds → ∀ key k, SingularKind key → SingularKind k →
      kindZigzag key = false → kindZigzag k = false → ke = kindWire key → kn = 1 → ve = kindWire k → vn = 2 →
      K = kindGoType key → V = kindGoType k → ProtoEntries P key k m ds
  | .nil ke kn ve vn K V => fun key k _ _ _ _ _ _ _ _ _ _ => .nil key k
  | .cons ke kn ve vn K V x v m kds vds ds hk hv hm => fun key k hkey hk' hz1 hz2 e1 e2 e3 e4 e5 e6 => by
    have i1 := protoValue_of hP hn hk key hkey e1 hz1.symm e5
    have i2 := protoValue_of hP hn hv k hk' e3 hz2.symm e6
    have i3 := protoEntries_of hP hn hm key k hkey hk' hz1 hz2 e1 e2 e3 e4 e5 e6
    rw [e1, e2, e3, e4]
    exact .cons key k x v m kds vds ds i1 i2 i3

theorem protoMsg_of {P : Protos} (hP : ProtosOK P) {tracked : TypeId → Bool} {name : TypeId → Nat → Text}
    (hn : ∀ t i, PlainText (name t i)) {d : StructDecl} {vs : List Val} {b : Bytes} :
    WireMsg (genProgram tracked name P) d vs b → ∀ t (fs : List ProtoField) (seen : List Nat) (tail : StructDecl),
      d = genFields (tracked t) (name t) seen fs ++ tail → Inactive tail → (∀ f ∈ fs, f ∈ P t) → ProtoMsg P seen fs vs b
  | .nil => fun t fs seen tail hd hi hfs => by
    have : genFields (tracked t) (name t) seen fs = [] := (List.append_eq_nil_iff.mp hd.symm).1
    exact genFields_nil fs seen this []
  | .skip f ds v vs b hna hb => fun t fs seen tail hd hi hfs => by
    have ih := protoMsg_of hP hn hb t
    cases hg : genFields (tracked t) (name t) seen fs with
    | nil =>
      rw [hg, List.nil_append] at hd
      subst hd
      rw [wireMsg_inactive (fun x hx => hi x (by simp [hx])) hb]
      exact genFields_nil fs seen hg _
    | cons d ds' =>
      rw [hg, List.cons_append] at hd
      obtain ⟨rfl, rfl⟩ := List.cons.inj hd
      obtain ⟨g, fs', h1, h2, h3, ⟨ho, rfl, rfl⟩ | ⟨i, hl, hs, rfl, rfl⟩⟩ := genFields_cons P fs seen _ _ hg
      · exact absurd (genField_active _ _) hna
      · exact h3 _ _ (.oneof seen g fs' i v vs b hl hs (ih fs' (i :: seen) tail rfl hi fun x hx => hfs x (h2 x hx)))
  | .field f ds v vs s e n c z pds b ha htag hsays hv hb => fun t fs seen tail hd hi hfs => by
    have ih := protoMsg_of hP hn hb t
    have ihv := protoField_of hP hn hv (tracked t)
    cases hg : genFields (tracked t) (name t) seen fs with
    | nil =>
      rw [hg, List.nil_append] at hd
      subst hd
      exact absurd ha (hi f (by simp))
    | cons d ds' =>
      rw [hg, List.cons_append] at hd
      obtain ⟨rfl, rfl⟩ := List.cons.inj hd
      obtain ⟨g, fs', h1, h2, h3, ⟨ho, rfl, rfl⟩ | ⟨i, hl, hs, rfl, rfl⟩⟩ := genFields_cons P fs seen _ _ hg
      · have hh := hP.handled t g (hfs g h1) ho
        rw [genField_tag] at htag
        cases htag
        obtain ⟨a1, a2, _, a3⟩ := Sample.says_unique hsays (handled_says hh ((hP.numbers t).range g (hfs g h1)).2)
        have hrest := ih fs' seen tail rfl hi fun x hx => hfs x (h2 x hx)
        have hval := ihv g hh a1 a3 rfl rfl rfl
        rw [a1, show n = g.number by omega]
        exact h3 _ _ (.field seen g fs' v vs pds b ho hval hrest)
      · exact absurd ha (oneof_inactive _ (hn t i) _)
end

end Pb
