import Verif.Proofs.AbstractWrite
import Verif.Proofs.AbstractUnique
import Verif.Proofs.AbstractAccept
import Verif.Proofs.Reads
import Verif.Props.Evolve
/-
C58: other implementations of protobuf.
-/
namespace Pb.Props
open Spec

/-- C58. Generated code reads what any implementation of protobuf writes: if a reader that follows the specification turns
the message `m` into `m'` by the input, then Unmarshal turns the Go value of `m` into that of `m'`. Missing: oneofs (see
C39), packed fields (see C13), bools of more than one byte (see C28), and the types not in `Handled`. -/
theorem C58_reads_partial {P : Protos} (h : ProtosOK P) (hno : NoOneofs P) (tracked : TypeId → Bool) (name : TypeId → Nat → Text)
    (hn : ∀ t i, PlainText (name t i)) (t : TypeId) (vs : List Val) (m m' : PMsg) (b : Bytes) (rs : List (Nat × Nat × Bytes))
    (hv : FitsMsg (layoutOf (genProgram tracked name P)) t (.struct vs)) (hr : ReprMsg P t vs m) (hb : Records b rs)
    (hp : ParseMsg P t m rs m') :
    ∃ vs', unmarshal (envOf (genProgram tracked name P)) b (.msg t (.struct vs)) = .ok ⟨.msg t (.struct vs'), none⟩ ∧ ReprMsg P t vs' m' := by
  have hg := genEnv_of h hno (tracked := tracked) hn
  obtain ⟨vs', h1, h2, _⟩ := msg_merge hg hp vs hr (fitsL_of_msg hv)
  exact ⟨vs', C55_meaning_accepted hg.good.wf t b rs vs vs' hv hb h1, h2⟩

/-- C58 for a new struct: the result is the message that was sent. -/
theorem C58_received_partial {P : Protos} (h : ProtosOK P) (hno : NoOneofs P) (tracked : TypeId → Bool) (name : TypeId → Nat → Text)
    (hn : ∀ t i, PlainText (name t i)) (t : TypeId) (m : PMsg) (b : Bytes) (hp : Parses P t b m) :
    ∃ vs', unmarshal (envOf (genProgram tracked name P)) b (.msg t (zeroStruct (genProgram tracked name P t))) =
      .ok ⟨.msg t (.struct vs'), none⟩ ∧ ReprMsg P t vs' m := by
  have hg := genEnv_of h hno (tracked := tracked) hn
  obtain ⟨rs, hb, hp⟩ := hp
  rw [zeroStruct_layout]
  exact C58_reads_partial h hno tracked name hn t _ _ m b rs (fitsMsg_iff.mpr ⟨_, rfl, fitsL_zero _ _⟩) (zero_msg hg t) hb hp

/-- C58, the converse: without bools, what Unmarshal accepts is accepted by every reader that follows the specification, with
the same result. -/
theorem C58_accepts_partial {P : Protos} (h : ProtosOK P) (hno : NoOneofs P)
    (hb : ∀ t, ∀ f ∈ P t, f.kind ≠ .bool ∧ f.label ≠ .map .bool) (tracked : TypeId → Bool) (name : TypeId → Nat → Text)
    (hn : ∀ t i, PlainText (name t i)) (t : TypeId) (vs vs' : List Val) (m : PMsg) (b : Bytes)
    (hv : FitsMsg (layoutOf (genProgram tracked name P)) t (.struct vs)) (hr : ReprMsg P t vs m)
    (hu : unmarshal (envOf (genProgram tracked name P)) b (.msg t (.struct vs)) = .ok ⟨.msg t (.struct vs'), none⟩) :
    ∃ rs m', Records b rs ∧ ParseMsg P t m rs m' ∧ ReprMsg P t vs' m' := by
  have hg := genEnv_of h hno (tracked := tracked) hn
  have hnb : ∀ t, ∀ g ∈ (envOf (genProgram tracked name P) t).fields, g.codec.noBool := by
    intro t g hmem
    obtain ⟨i, f, hi, _, _, _, hc⟩ := genEnv_entry hg hmem
    exact genCodec_noBool hc (hb t f (List.mem_of_getElem? hi)).1 (hb t f (List.mem_of_getElem? hi)).2
  obtain ⟨rs, h1, h2⟩ := (C55_refinement_partial hg.good.wf (readsOK_of_good hg.good) hnb t b vs vs' hv).mp hu
  obtain ⟨m', h3, h4⟩ := merge_msg hg h2 m hr (fitsL_of_msg hv)
  exact ⟨rs, m', h1, h3, h4⟩

/-- C58. Any implementation of protobuf reads what generated code writes: a reader that follows the specification takes the
output of Marshal for the message the Go value stands for. Missing: as in `C38_wire_format_partial`, and empty maps, for
which it is false (`C58_false_empty_map`). -/
theorem C58_written_partial {P : Protos} (h : ProtosOK P) (hno : NoOneofs P) (hm : ProtoMapsAlike P) (tracked : TypeId → Bool)
    (name : TypeId → Nat → Text) (hn : ∀ t i, PlainText (name t i)) (t : TypeId) (vs : List Val) (m : PMsg)
    (hv : FitsMsg (layoutOf (genProgram tracked name P)) t (.struct vs)) (hr : ReprMsg P t vs m) (hfull : FullVal (.msg m))
    (hl : ∀ n, size (envOf (genProgram tracked name P)) (.msg t (.struct vs)) = .ok n → n < 2 ^ 64) :
    ∃ b, marshal (envOf (genProgram tracked name P)) (.msg t (.struct vs)) = .ok (.ok b) ∧ Parses P t b m := by
  obtain ⟨b, h1, h2⟩ := C38_wire_format_partial h hm tracked name hn t vs hv hl
  obtain ⟨b', h1', h3⟩ := C02_program_partial _ (genProgram_ok h tracked name hn) (mapsAlike_gen h hm hn) t _ hv
  rw [h1] at h1'; cases h1'
  exact ⟨b, h1, parses_of_protoMsg h.numbers hno h2 hr hfull (hl _ h3)⟩

/-- C58. The specification leaves readers no choice: they all take an input for the same message. -/
theorem C58_readers_agree {P : Protos} (hN : ∀ t, NumbersOK (P t)) (t : TypeId) (b : Bytes) (m m' : PMsg) (h : Parses P t b m)
    (h' : Parses P t b m') : m = m' := by
  obtain ⟨rs, h1, h2⟩ := h
  obtain ⟨rs', h3, h4⟩ := h'
  cases records_unique h1 h3
  exact msg_unique hN h2 _ h4

/-- The program of one message with a `map<int32, int32>`. -/
def onlyMap : Protos := fun _ => [⟨1, .int32, .map .int32⟩]

/-- C58 is false for messages with empty maps: Marshal writes one empty entry for a nil map, and other readers see the entry
`{0: 0}`. -/
theorem C58_false_empty_map :
    ProtosOK onlyMap ∧ NoOneofs onlyMap ∧ ProtoMapsAlike onlyMap ∧
    FitsMsg (layoutOf (genProgram (fun _ => false) (fun _ _ => []) onlyMap)) 0 (.struct [.map true []]) ∧
    ReprMsg onlyMap 0 [.map true []] (newMsg onlyMap 0) ∧
    marshal (envOf (genProgram (fun _ => false) (fun _ _ => []) onlyMap)) (.msg 0 (.struct [.map true []])) = .ok (.ok [10#8, 0#8]) ∧
    Parses onlyMap 0 [10#8, 0#8] ((newMsg onlyMap 0).put 1 (.entries (putEntry (fun _ => none) (.int 0) (.int 0)))) ∧
    ¬ Parses onlyMap 0 [10#8, 0#8] (newMsg onlyMap 0) := by
  have hN : ∀ t, NumbersOK (onlyMap t) := fun t => ⟨by simp [onlyMap], by simp [onlyMap]⟩
  have hp : Parses onlyMap 0 [10#8, 0#8] ((newMsg onlyMap 0).put 1 (.entries (putEntry (fun _ => none) (.int 0) (.int 0)))) := by
    refine ⟨[(1, 2, [0#8])], ?_, ?_⟩
    · exact .cons [10#8, 0#8] [] 1 2 [0#8] [] ⟨[10#8], ⟨by decide, .last 10#8 (by decide), by decide, by decide⟩,
        .varlen [0#8] [] ⟨.last 0#8 (by decide), by decide, by decide⟩, rfl⟩ .nil
    · refine .known 0 _ ⟨1, .int32, .map .int32⟩ [0#8] [] _ _ (by simp [onlyMap]) ?_ (.nil _ _)
      exact .map _ _ _ _ [] [] (.int 0) (.int 0) ⟨[0#8], ⟨.last 0#8 (by decide), by decide, by decide⟩, rfl⟩ .nil (.nil _ _ _ _)
  refine ⟨⟨hN, ?_⟩, ?_, ?_, ?_, ?_, rfl, hp, fun h => ?_⟩
  · intro t f hf _
    simp only [onlyMap, List.mem_cons, List.not_mem_nil, or_false] at hf
    subst hf
    exact .map _ _ _ .int32 (.mk _ (.mk _ (.scalar _ _ .int32) (by simp) (by simp)) (by simp) (by simp))
  · rintro t f hf ⟨i, hi⟩
    simp only [onlyMap, List.mem_cons, List.not_mem_nil, or_false] at hf
    subst hf
    simp at hi
  · intro t f hf key hl
    simp only [onlyMap, List.mem_cons, List.not_mem_nil, or_false] at hf
    subst hf
    simp at hl
    simp [hl]
  · have hL : layoutOf (genProgram (fun _ => false) (fun _ _ => []) onlyMap) 0 = [.map .w32 .w32] := rfl
    refine .msg _ _ rfl fun i s v hs hv => ?_
    rw [hL] at hs
    match i with
    | 0 => cases hs; cases hv; exact .map _ _ _ _ (by simp) (by simp) (by simp) (by simp)
    | _ + 1 => simp at hs
  · refine .mk _ _ _ (fun i f v hf hv => ?_) fun n hn => newMsg_none hn
    match i with
    | 0 => cases hf; cases hv; exact .map _ _ _ _ [] _ (.nil _ _) (by simp) (by simp)
    | _ + 1 => simp [onlyMap] at hf
  · have := congrArg (fun m => m 1) (C58_readers_agree hN 0 _ _ _ h hp)
    have e : newMsg onlyMap 0 1 = .entries fun _ => none := rfl
    simp only [PMsg.put, if_true, e, PField.entries.injEq] at this
    have := congrFun this (.int 0)
    simp [putEntry] at this

/-! ### Examples -/

/-- What `sent` stands for: `{1: -1, 2: "A", 3: [{1: true}, {1: false}], 4: 7, 5: {"k": "v"}}` -/
def innerMsg (b : Bool) : PMsg := fun n => if n = 1 then .one (.bool b) else .unset
def sentMsg : PMsg := fun n =>
  match n with
  | 1 => .one (.int (-1))
  | 2 => .one (.text [65#8])
  | 3 => .many [.msg (innerMsg true), .msg (innerMsg false)]
  | 4 => .one (.int 7)
  | 5 => .entries (putEntry (fun _ => none) (.text [107#8]) (.text [118#8]))
  | _ => .unset

theorem version1_noOneofs : NoOneofs version1 := by
  rintro t f hf ⟨i, hi⟩
  match t with
  | 0 =>
    simp only [version1, List.mem_cons, List.not_mem_nil, or_false] at hf
    rcases hf with rfl | rfl | rfl | rfl | rfl <;> simp at hi
  | 1 =>
    simp only [version1, List.mem_cons, List.not_mem_nil, or_false] at hf
    subst hf; simp at hi
  | _ + 2 => simp [version1] at hf

theorem inner_repr (b : Bool) : ReprMsg version1 1 [.b8 b, .opaque 0] (innerMsg b) := by
  refine .mk _ _ _ (fun i f v hf hv => ?_) fun n hn => ?_
  · match i with
    | 0 => cases hf; cases hv; exact .scalar _ _ _ (.bool b)
    | _ + 1 => simp [version1] at hf
  · have : n ≠ 1 := fun e => hn ⟨1, .bool, .implicit⟩ (by simp [version1]) e.symm
    simp [innerMsg, this]

theorem sent_repr : ReprMsg version1 0 sent sentMsg := by
  refine .mk _ _ _ (fun i f v hf hv => ?_) fun n hn => ?_
  · match i with
    | 0 => cases hf; cases hv; exact .scalar _ _ _ (.int32 (-1#32))
    | 1 => cases hf; cases hv; exact .scalar _ _ _ (.string _)
    | 2 =>
      cases hf; cases hv
      exact .repeated _ _ _ _ _ (by simp) (.cons _ _ _ _ _ (.message _ _ _ (inner_repr true))
        (.cons _ _ _ _ _ (.message _ _ _ (inner_repr false)) (.nil _)))
    | 3 => cases hf; cases hv; exact .scalar _ _ _ (.uint32 7#32)
    | 4 =>
      cases hf; cases hv
      refine .map _ _ _ _ [(.text [107#8], .text [118#8])] _ (.cons _ _ _ _ _ _ _ _ (.string _) (.val _ _ _ (.scalar _ _ _ (.string _))) (.nil _ _)) ?_ ?_
      · simp [putEntry]
      · intro x hx
        have : x ≠ .text [107#8] := fun e => hx (.text [107#8], .text [118#8]) (by simp) e.symm
        simp [putEntry, this]
    | _ + 5 => simp [version1] at hf
  · match n with
    | 0 => rfl
    | 1 => exact absurd rfl (hn ⟨1, .int32, .implicit⟩ (by simp [version1]))
    | 2 => exact absurd rfl (hn ⟨2, .string, .implicit⟩ (by simp [version1]))
    | 3 => exact absurd rfl (hn ⟨3, .message 1, .repeated⟩ (by simp [version1]))
    | 4 => exact absurd rfl (hn ⟨4, .uint32, .implicit⟩ (by simp [version1]))
    | 5 => exact absurd rfl (hn ⟨5, .string, .map .string⟩ (by simp [version1]))
    | _ + 6 => rfl

theorem inner_full (b : Bool) : FullVal (.msg (innerMsg b)) := by
  refine .msg _ fun n => ?_
  simp only [innerMsg]
  split
  · exact .one _ (.bool b)
  · exact .unset

theorem sent_full : FullVal (.msg sentMsg) := by
  refine .msg _ fun n => ?_
  match n with
  | 0 => exact .unset
  | 1 => exact .one _ (.int _)
  | 2 => exact .one _ (.text _)
  | 3 =>
    refine .many _ fun v hv => ?_
    simp only [List.mem_cons, List.not_mem_nil, or_false] at hv
    rcases hv with rfl | rfl
    · exact inner_full true
    · exact inner_full false
  | 4 => exact .one _ (.int _)
  | 5 =>
    refine .entries _ (.text [107#8]) (.text [118#8]) (by simp [putEntry]) fun x v h => ?_
    simp only [putEntry] at h
    split at h
    · cases h; exact .text _
    · cases h
  | _ + 6 => exact .unset

/-- `sent` meets the hypotheses of `C58_written_partial`; by it, every reader takes these bytes for `sentMsg`. -/
example : Parses version1 0 [8#8, 255#8, 255#8, 255#8, 255#8, 255#8, 255#8, 255#8, 255#8, 255#8, 1#8, 18#8, 1#8, 65#8, 26#8, 2#8, 8#8, 1#8,
    26#8, 0#8, 32#8, 7#8, 42#8, 6#8, 10#8, 1#8, 107#8, 18#8, 1#8, 118#8] sentMsg := by
  obtain ⟨b, h1, h2⟩ := C58_written_partial version1_ok version1_noOneofs version1_alike (fun _ => false) (fun _ _ => [])
    (by intro _ _ c hc; cases hc) 0 sent sentMsg sent_fits sent_repr sent_full (by
      intro n hn
      have : size (envOf sender) (.msg 0 (.struct sent)) = .ok 30 := rfl
      rw [show genProgram (fun _ => false) (fun _ _ => []) version1 = sender from rfl, this] at hn
      cases hn; decide)
  have : marshal (envOf sender) (.msg 0 (.struct sent)) = .ok (.ok
      [8#8, 255#8, 255#8, 255#8, 255#8, 255#8, 255#8, 255#8, 255#8, 255#8, 1#8, 18#8, 1#8, 65#8, 26#8, 2#8, 8#8, 1#8, 26#8, 0#8, 32#8, 7#8,
       42#8, 6#8, 10#8, 1#8, 107#8, 18#8, 1#8, 118#8]) := rfl
  rw [show genProgram (fun _ => false) (fun _ _ => []) version1 = sender from rfl, this] at h1
  cases h1
  exact h2

/-- Another implementation may pad varints, change the order of fields and add unknown ones. The bytes are field 9 (unknown,
`{}`), field 3 `{1: true}`, field 1 with the number 5 in two bytes. -/
theorem foreign_parses : Parses version1 0 [74#8, 0#8, 26#8, 2#8, 8#8, 1#8, 8#8, 133#8, 0#8]
    (((newMsg version1 0).put 3 (.many [.msg ((newMsg version1 1).put 1 (.one (.bool true)))])).put 1 (.one (.int 5))) := by
  have v1 : ∀ c : Byte, c.toNat < 128 → Varint64 [c] c.toNat := fun c hc => ⟨.last c hc, by simp, by omega⟩
  have v5 : Varint64 [133#8, 0#8] 5 := ⟨.cont 133#8 [0#8] 0 (by decide) (.last 0#8 (by decide)), by decide, by decide⟩
  refine ⟨[(9, 2, [0#8]), (3, 2, [2#8, 8#8, 1#8]), (1, 0, [133#8, 0#8])], ?_, ?_⟩
  · refine .cons [74#8, 0#8] _ 9 2 [0#8] _ ⟨[74#8], ⟨by decide, v1 74#8 (by decide)⟩, .varlen [0#8] [] (v1 0#8 (by decide)), rfl⟩ ?_
    refine .cons [26#8, 2#8, 8#8, 1#8] _ 3 2 [2#8, 8#8, 1#8] _
      ⟨[26#8], ⟨by decide, v1 26#8 (by decide)⟩, .varlen [2#8] [8#8, 1#8] (v1 2#8 (by decide)), rfl⟩ ?_
    exact .cons [8#8, 133#8, 0#8] [] 1 0 [133#8, 0#8] [] ⟨[8#8], ⟨by decide, v1 8#8 (by decide)⟩, .varint _ 5 v5, rfl⟩ .nil
  · refine .unknown _ _ _ _ _ _ _ (by simp [version1]) ?_
    refine .known 0 _ ⟨3, .message 1, .repeated⟩ _ _ (.many ([] ++ [.msg ((newMsg version1 1).put 1 (.one (.bool true)))])) _ (by simp [version1]) ?_ ?_
    · refine .repeated _ [] _ _ (.message 1 _ _ [8#8, 1#8] [(1, 0, [1#8])] _ ⟨[2#8], v1 2#8 (by decide), rfl⟩ ?_ ?_)
      · exact .cons [8#8, 1#8] [] 1 0 [1#8] [] ⟨[8#8], ⟨by decide, v1 8#8 (by decide)⟩, .varint _ 1 (v1 1#8 (by decide)), rfl⟩ .nil
      · exact .known 1 _ ⟨1, .bool, .implicit⟩ _ _ (.one (.bool true)) _ (by simp [version1])
          (.set _ _ (.bool false) _ _ (.inl rfl) (.scalar _ _ _ _ (.bool _ 1 (v1 1#8 (by decide))) (by simp))) (.nil _ _)
    · exact .known 0 _ ⟨1, .int32, .implicit⟩ _ _ (.one (.int 5)) _ (by simp [version1])
        (.set _ _ (.int 0) _ _ (.inl rfl) (.scalar _ _ _ _ (.int32 _ 5 v5) (by simp))) (.nil _ _)

/-- What the library makes of it: `{5, "", [{true}], 0, nil}` -/
example : unmarshal (envOf sender) [74#8, 0#8, 26#8, 2#8, 8#8, 1#8, 8#8, 133#8, 0#8] (.msg 0 (zeroStruct (sender 0))) =
    .ok ⟨.msg 0 (.struct [.w32 5#32, .str [], .slice false [.ptr (.struct [.b8 true, .opaque 0])] (List.replicate 9 .nilp), .w32 0#32,
      .map true []]), none⟩ := rfl

end Pb.Props
