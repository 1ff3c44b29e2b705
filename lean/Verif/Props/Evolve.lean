import Verif.Proofs.ProtoEvolve
import Verif.Props.Merge
import Verif.Props.Generator
/-
C57: messages that cross versions.
-/
namespace Pb.Props
open Spec

/-- C57. A receiver whose message types are a compatible version of the sender's accepts what the sender marshalled, and
each of its fields takes what the sender's field with the same number held; all others keep their values. Missing: senders
with maps that are measured wrong (see C02, C22), and integers that become bool (`C57_false_int_to_bool`). -/
theorem C57_versions_partial {L L' : Layout} {env env' : Env} {R : TypeId → TypeId → Prop} (hg : Good L env) (hg' : Good L' env')
    (hR : Versions env env' R) (t t' : TypeId) (ht : R t t') (vs : List Val) (b : Bytes) (hv : FitsMsg L t (.struct vs))
    (ho : EncOKMsg env t (.struct vs)) (h : marshal env (.msg t (.struct vs)) = .ok (.ok b)) (hl : b.length < 2 ^ 64)
    (os : List Val) (hos : FitsMsg L' t' (.struct os)) :
    ∃ ws, unmarshal env' b (.msg t' (.struct os)) = .ok ⟨.msg t' (.struct ws), none⟩ ∧ TakesMsg env env' t vs t' os ws := by
  have he := C11_marshal_encodes_partial hg t vs b hv ho h hl
  obtain ⟨rs, ws, h1, h2, h3⟩ := understoodUpTo hg hg' hR (2 ^ 64) (Nat.le_refl _) t t' vs b ht he hl (fitsL_of_msg hv) os
    (fitsL_of_msg hos)
  exact ⟨ws, C55_meaning_accepted hg'.wf t' b rs os ws hos h1 h2, h3⟩

/-- C57 for programs, from the declarations on. -/
theorem C57_program_partial (D D' : Decls) (h : ProgramOK D) (h' : ProgramOK D') (hm : MapsAlike D) {R : TypeId → TypeId → Prop}
    (hR : Versions (envOf D) (envOf D') R) (t t' : TypeId) (ht : R t t') (vs : List Val)
    (hv : FitsMsg (layoutOf D) t (.struct vs)) (hl : ∀ n, size (envOf D) (.msg t (.struct vs)) = .ok n → n < 2 ^ 64)
    (os : List Val) (hos : FitsMsg (layoutOf D') t' (.struct os)) :
    ∃ b ws, marshal (envOf D) (.msg t (.struct vs)) = .ok (.ok b) ∧
      unmarshal (envOf D') b (.msg t' (.struct os)) = .ok ⟨.msg t' (.struct ws), none⟩ ∧
      TakesMsg (envOf D) (envOf D') t vs t' os ws := by
  have hg := good_of_program h
  obtain ⟨b, h1, h2⟩ := C02_program_partial D h hm t _ hv
  obtain ⟨ws, h3, h4⟩ := C57_versions_partial hg (good_of_program h') hR t t' ht vs b hv
    (encOK_of_types hg (mapsSized_of_alike h hm) t _ hv) h1 (hl _ h2) os hos
  exact ⟨b, ws, h1, h3, h4⟩

/-- C57 for .proto files: if fields with the same number are compatible, then the receiver's program, generated from a later
or earlier version of the .proto files, reads what the sender's program writes. -/
theorem C57_proto_partial {P P' : Protos} (h : ProtosOK P) (h' : ProtosOK P') (hm : ProtoMapsAlike P) {R : TypeId → TypeId → Prop}
    (hR : ProtoVersions P P' R) (tracked tracked' : TypeId → Bool) (name name' : TypeId → Nat → Text)
    (hn : ∀ t i, PlainText (name t i)) (hn' : ∀ t i, PlainText (name' t i)) (t t' : TypeId) (ht : R t t') (vs : List Val)
    (hv : FitsMsg (layoutOf (genProgram tracked name P)) t (.struct vs))
    (hl : ∀ n, size (envOf (genProgram tracked name P)) (.msg t (.struct vs)) = .ok n → n < 2 ^ 64)
    (os : List Val) (hos : FitsMsg (layoutOf (genProgram tracked' name' P')) t' (.struct os)) :
    ∃ b ws, marshal (envOf (genProgram tracked name P)) (.msg t (.struct vs)) = .ok (.ok b) ∧
      unmarshal (envOf (genProgram tracked' name' P')) b (.msg t' (.struct os)) = .ok ⟨.msg t' (.struct ws), none⟩ ∧
      TakesMsg (envOf (genProgram tracked name P)) (envOf (genProgram tracked' name' P')) t vs t' os ws :=
  C57_program_partial _ _ (genProgram_ok h tracked name hn) (genProgram_ok h' tracked' name' hn') (mapsAlike_gen h hm hn)
    (versions_of h h' hR hn hn') t t' ht vs hv hl os hos

/-- The numbers of an integer type. -/
def InRange : Scalar → Int → Prop
  | .bool, i => i = 0 ∨ i = 1
  | .int32, i | .zigzag32, i => -2 ^ 31 ≤ i ∧ i < 2 ^ 31
  | .int64, i | .zigzag64, i => -2 ^ 63 ≤ i ∧ i < 2 ^ 63
  | .uint32, i => 0 ≤ i ∧ i < 2 ^ 32
  | .uint64, i => 0 ≤ i ∧ i < 2 ^ 64
  | _, _ => False

/-- C57. What happens to plain scalar fields: zero is not sent, all else is converted. -/
theorem C57_plain_field {env env' : Env} {t t' : TypeId} {vs os ws : List Val} (h : TakesMsg env env' t vs t' os ws)
    {f f' : Field} (hf : f ∈ (env t).fields) (hf' : f' ∈ (env' t').fields)
    (hn : keyNumber f.tag.wiretag = keyNumber f'.tag.wiretag) {s s' : Scalar} (hc : f.codec = .normal s) (hc' : f'.codec = .normal s')
    {v o w : Val} (hv : vs[f.offset]? = some v) (ho : os[f'.offset]? = some o) (hw : ws[f'.offset]? = some w) :
    (zeroScalar v = true → w = o) ∧ (zeroScalar v = false → Converts s v s' w) := by
  cases h with
  | mk _ _ _ _ _ h1 h2 h3 =>
    have := h2 f hf f' hf' hn v o w hv ho hw
    rw [hc, hc'] at this
    refine ⟨fun hz => ?_, fun hz => ?_⟩
    · simp only [items, hz, if_true] at this
      cases this; rfl
    · simp only [items, hz, Bool.false_eq_true, if_false] at this
      cases this with
      | cons _ _ _ _ mid _ h1 h2 =>
        cases h2
        cases h1 with
        | normal _ _ _ _ hs => cases hs with | scalar _ _ _ _ hs => exact hs

/-- C57. Integers keep their value when the receiver's type has room for it. -/
theorem C57_integers_kept {s s' : Scalar} {v w : Val} (h : Converts s v s' w)
    (hs : (s = .bool ∨ IntType s) ∧ IntType s' ∨ ZigzagType s ∧ ZigzagType s') (hr : InRange s' (intOf s v)) :
    intOf s' w = intOf s v := by
  have key : ∀ (i : Int), (IntType s' ∨ ZigzagType s') → InRange s' i → intOf s' (ofInt s' i) = i := by
    intro i h hr
    rcases h with (rfl | rfl | rfl | rfl) | (rfl | rfl) <;>
      simp only [InRange] at hr <;>
      simp only [ofInt, Scalar.shape, intOf, BitVec.toInt_ofInt, Int.bmod_def, BitVec.toNat_ofInt] <;> omega
  cases h with
  | same => rfl
  | int _ _ h1 h2 => exact key _ (.inl h2) hr
  | zigzag _ _ h1 h2 => exact key _ (.inr h2) hr
  | bits32 _ _ h1 h2 =>
    rcases hs with ⟨_, h⟩ | ⟨_, h⟩ <;> rcases h2 with rfl | rfl <;> simp [IntType, ZigzagType] at h
  | bits64 _ _ h1 h2 =>
    rcases hs with ⟨_, h⟩ | ⟨_, h⟩ <;> rcases h2 with rfl | rfl <;> simp [IntType, ZigzagType] at h

/-- C57. Types that widen: every value of the first has room in the second. -/
theorem C57_widening {s s' : Scalar} (v : Val)
    (h : (s, s') ∈ [(Scalar.int32, Scalar.int64), (.uint32, .uint64), (.uint32, .int64), (.bool, .int32), (.bool, .int64),
      (.bool, .uint32), (.bool, .uint64), (.zigzag32, .zigzag64)]) : InRange s' (intOf s v) := by
  simp only [List.mem_cons, Prod.mk.injEq, List.not_mem_nil, or_false] at h
  rcases h with ⟨rfl, rfl⟩ | ⟨rfl, rfl⟩ | ⟨rfl, rfl⟩ | ⟨rfl, rfl⟩ | ⟨rfl, rfl⟩ | ⟨rfl, rfl⟩ | ⟨rfl, rfl⟩ | ⟨rfl, rfl⟩ <;>
    cases v <;> simp only [InRange, intOf] <;> first | omega | (split <;> decide) | (have := BitVec.toInt_lt (x := ‹U32›); have := BitVec.le_toInt (x := ‹U32›); omega)

/-- C57. Fields that the sender's version does not have keep their values. -/
theorem C57_new_field {env env' : Env} {t t' : TypeId} {vs os ws : List Val} (h : TakesMsg env env' t vs t' os ws) {f' : Field}
    (hd : ∀ g ∈ (env' t').fields, g.offset = f'.offset → g = f')
    (hn : ∀ f ∈ (env t).fields, keyNumber f.tag.wiretag ≠ keyNumber f'.tag.wiretag) : ws[f'.offset]? = os[f'.offset]? := by
  cases h with
  | mk _ _ _ _ _ h1 h2 h3 =>
    refine h3 _ fun g hg hgo f hf => ?_
    rw [hd g hg hgo]
    exact hn f hf

/-! ### two versions of a .proto file -/

/-- The first version. -/
def version1 : Protos
  | 0 => [⟨1, .int32, .implicit⟩, ⟨2, .string, .implicit⟩, ⟨3, .message 1, .repeated⟩, ⟨4, .uint32, .implicit⟩,
          ⟨5, .string, .map .string⟩]
  | 1 => [⟨1, .bool, .implicit⟩]
  | _ => []

/-- The second version: field 4 is gone, field 6 is new, all others have changed. -/
def version2 : Protos
  | 0 => [⟨5, .bytes, .map .string⟩, ⟨6, .double, .implicit⟩, ⟨3, .message 1, .implicit⟩, ⟨2, .bytes, .repeated⟩,
          ⟨1, .int64, .optional⟩]
  | 1 => [⟨2, .string, .implicit⟩, ⟨1, .int32, .implicit⟩]
  | _ => []

theorem version1_ok : ProtosOK version1 where
  numbers t := by
    match t with
    | 0 => exact ⟨by decide, by simp [version1]⟩
    | 1 => exact ⟨by decide, by simp [version1]⟩
    | _ + 2 => exact ⟨by simp [version1], by simp [version1]⟩
  handled t f hf ho := by
    match t with
    | 0 =>
      simp only [version1, List.mem_cons, List.not_mem_nil, or_false] at hf
      rcases hf with rfl | rfl | rfl | rfl | rfl
      · exact .implicit _ _ (.scalar _ _ .int32)
      · exact .implicit _ _ (.scalar _ _ .string)
      · exact .repeated _ _ (.mk _ (.message 1) (by simp) (by simp))
      · exact .implicit _ _ (.scalar _ _ .uint32)
      · exact .map _ _ _ .string (.mk _ (.mk _ (.scalar _ _ .string) (by simp) (by simp)) (by simp) (by simp))
    | 1 =>
      simp only [version1, List.mem_cons, List.not_mem_nil, or_false] at hf
      rcases hf with rfl
      exact .implicit _ _ (.scalar _ _ .bool)
    | _ + 2 => simp [version1] at hf

theorem version2_ok : ProtosOK version2 where
  numbers t := by
    match t with
    | 0 => exact ⟨by decide, by simp [version2]⟩
    | 1 => exact ⟨by decide, by simp [version2]⟩
    | _ + 2 => exact ⟨by simp [version2], by simp [version2]⟩
  handled t f hf ho := by
    match t with
    | 0 =>
      simp only [version2, List.mem_cons, List.not_mem_nil, or_false] at hf
      rcases hf with rfl | rfl | rfl | rfl | rfl
      · exact .map _ _ _ .string (.mk _ (.mk _ .bytes (by simp) (by simp)) (by simp) (by simp))
      · exact .implicit _ _ (.scalar _ _ .double)
      · exact .implicit _ _ (.message 1)
      · exact .repeated _ _ (.mk _ .bytes (by simp) (by simp))
      · exact .optional _ _ (.scalar _ _ .int64)
    | 1 =>
      simp only [version2, List.mem_cons, List.not_mem_nil, or_false] at hf
      rcases hf with rfl | rfl
      · exact .implicit _ _ (.scalar _ _ .string)
      · exact .implicit _ _ (.scalar _ _ .int32)
    | _ + 2 => simp [version2] at hf

theorem version1_alike : ProtoMapsAlike version1 := by
  intro t f hf key hl
  match t with
  | 0 =>
    simp only [version1, List.mem_cons, List.not_mem_nil, or_false] at hf
    rcases hf with rfl | rfl | rfl | rfl | rfl <;> simp at hl
    subst hl; simp
  | 1 =>
    simp only [version1, List.mem_cons, List.not_mem_nil, or_false] at hf
    subst hf; simp at hl
  | _ + 2 => simp [version1] at hf

theorem versions_ok : ProtoVersions version1 version2 (· = ·) := by
  rintro t _ rfl f hf f' hf' _ _ hn
  match t with
  | 0 =>
    simp only [version1, List.mem_cons, List.not_mem_nil, or_false] at hf
    simp only [version2, List.mem_cons, List.not_mem_nil, or_false] at hf'
    rcases hf with rfl | rfl | rfl | rfl | rfl <;> rcases hf' with rfl | rfl | rfl | rfl | rfl <;> simp at hn
    · exact .plain _ _ (by simp [NoMap]) (by simp [NoMap]) (.scalar _ _ _ _ .int32 .int64 (.int _ _ (by simp [IntType]) (by simp [IntType])))
    · exact .plain _ _ (by simp [NoMap]) (by simp [NoMap]) (.text _ _ (by simp [TextKind]) (by simp [TextKind]))
    · exact .plain _ _ (by simp [NoMap]) (by simp [NoMap]) (.message _ _ rfl)
    · exact .map _ _ _ _ rfl rfl (.text _ _ (by simp [TextKind]) (by simp [TextKind])) (.text _ _ (by simp [TextKind]) (by simp [TextKind]))
  | 1 =>
    simp only [version1, List.mem_cons, List.not_mem_nil, or_false] at hf
    simp only [version2, List.mem_cons, List.not_mem_nil, or_false] at hf'
    subst hf
    rcases hf' with rfl | rfl <;> simp at hn
    exact .plain _ _ (by simp [NoMap]) (by simp [NoMap]) (.scalar _ _ _ _ .bool .int32 (.int _ _ (by simp) (by simp [IntType])))
  | _ + 2 => simp [version1] at hf

/-- The Go programs of the two versions. -/
def sender : Decls := genProgram (fun _ => false) (fun _ _ => []) version1
def receiver : Decls := genProgram (fun _ => false) (fun _ _ => []) version2

/-- A message of the first version: `{-1, "A", [{true}, {false}], 7, {"k": "v"}}` -/
def sent : List Val := [.w32 (-1#32), .str [65#8], .slice false [.ptr (.struct [.b8 true, .opaque 0]), .ptr (.struct [.b8 false, .opaque 0])] [], .w32 7#32,
  .map false [(.str [107#8], .str [118#8])]]

theorem layout_sender : layoutOf sender 0 = [.w32, .str, .slice (.msg 1), .w32, .map .str .str] ∧ layoutOf sender 1 = [.b8, .opaque] :=
  ⟨rfl, rfl⟩
theorem layout_receiver : layoutOf receiver 0 = [.map .str .bytes, .w64, .msg 1, .slice .bytes, .opt .w64] := rfl

theorem sent_fits : FitsMsg (layoutOf sender) 0 (.struct sent) := by
  have hb : ∀ x, FitsMsg (layoutOf sender) 1 (.struct [.b8 x, .opaque 0]) := by
    intro x
    refine .msg _ _ rfl fun i s v hs hv => ?_
    rw [layout_sender.2] at hs
    match i with
    | 0 => cases hs; cases hv; exact .b8 _
    | 1 => cases hs; cases hv; exact .opaque _
    | _ + 2 => simp at hs
  refine .msg _ _ rfl fun i s v hs hv => ?_
  rw [layout_sender.1] at hs
  match i with
  | 0 => cases hs; cases hv; exact .w32 _
  | 1 => cases hs; cases hv; exact .str _
  | 2 =>
    cases hs; cases hv
    refine .slice _ _ _ _ (by simp) ?_ (by simp)
    intro e he
    simp only [List.mem_cons, List.not_mem_nil, or_false] at he
    rcases he with rfl | rfl
    · exact hb true
    · exact hb false
  | 3 => cases hs; cases hv; exact .w32 _
  | 4 =>
    cases hs; cases hv
    refine .map _ _ _ _ (by simp) (by simp) ?_ ?_ <;> intro e he <;> simp at he <;> subst he
    · exact .str _
    · exact .str _
  | _ + 5 => simp at hs

/-- The receiver's message before: `{nil, 1.0 (bits), nil, nil, None}` -/
def before : List Val := [.map true [], .w64 0x3ff0000000000000#64, .nilp, .slice true [] [], .opt false (.w64 0#64)]

theorem before_fits : FitsMsg (layoutOf receiver) 0 (.struct before) := by
  refine .msg _ _ rfl fun i s v hs hv => ?_
  rw [layout_receiver] at hs
  match i with
  | 0 => cases hs; cases hv; exact .map _ _ _ _ (by simp) (by simp) (by simp) (by simp)
  | 1 => cases hs; cases hv; exact .w64 _
  | 2 => cases hs; cases hv; exact .msgNil _
  | 3 => cases hs; cases hv; exact .slice _ _ _ _ (by simp) (by simp) (by simp)
  | 4 => cases hs; cases hv; exact .none _
  | _ + 5 => simp at hs

/-- The hypotheses of `C57_proto_partial` hold for the two versions, and this is what happens: -1 is still -1, the string is a
byte slice, the two submessages have become one, field 4 is ignored, and field 6 keeps its value. -/
example : ProtosOK version1 ∧ ProtosOK version2 ∧ ProtoMapsAlike version1 ∧ ProtoVersions version1 version2 (· = ·) ∧
    FitsMsg (layoutOf sender) 0 (.struct sent) ∧ FitsMsg (layoutOf receiver) 0 (.struct before) ∧
    size (envOf sender) (.msg 0 (.struct sent)) = .ok 30 ∧
    marshal (envOf sender) (.msg 0 (.struct sent)) = .ok (.ok
      [8#8, 255#8, 255#8, 255#8, 255#8, 255#8, 255#8, 255#8, 255#8, 255#8, 1#8, 18#8, 1#8, 65#8, 26#8, 2#8, 8#8, 1#8, 26#8, 0#8, 32#8, 7#8,
       42#8, 6#8, 10#8, 1#8, 107#8, 18#8, 1#8, 118#8]) ∧
    unmarshal (envOf receiver)
      [8#8, 255#8, 255#8, 255#8, 255#8, 255#8, 255#8, 255#8, 255#8, 255#8, 1#8, 18#8, 1#8, 65#8, 26#8, 2#8, 8#8, 1#8, 26#8, 0#8, 32#8, 7#8,
       42#8, 6#8, 10#8, 1#8, 107#8, 18#8, 1#8, 118#8] (.msg 0 (.struct before)) =
      .ok ⟨.msg 0 (.struct [.map false [(.str [107#8], .bytes (some [118#8]))], .w64 0x3ff0000000000000#64,
        .ptr (.struct [.str [], .w32 1#32, .opaque 0]),
        .slice false [.bytes (some [65#8])] (List.replicate 9 (.bytes none)), .opt true (.w64 (-1#64))]), none⟩ :=
  ⟨version1_ok, version2_ok, version1_alike, versions_ok, sent_fits, before_fits, rfl, rfl, rfl⟩

/-- C57 is false for integers that become bool, which protobuf allows: the value 300 is refused. -/
theorem C57_false_int_to_bool :
    marshal (envOf (generated [⟨1, .int32, .implicit⟩])) (.msg 0 (.struct [.w32 300#32, .opaque 0])) = .ok (.ok [8#8, 172#8, 2#8]) ∧
    ∃ m e, unmarshal (envOf (generated [⟨1, .bool, .implicit⟩])) [8#8, 172#8, 2#8] (.msg 0 (.struct [.b8 false, .opaque 0])) =
      .ok ⟨m, some e⟩ := ⟨rfl, _, _, rfl⟩

end Pb.Props
