import Verif.Proofs.Errors
import Verif.Props.Safety
/-
C48: which inputs are rejected and with which errors. `Readable` and `Rejected` (Spec/Errors.lean) describe this as
relations between the declared fields and the input.
-/
namespace Pb.Props
open Spec

/-- C48. Unmarshal fails with error `e` exactly if the input is `Rejected` with `e`, whatever the message held before:
every error about a record is wrapped with the number and wire type of that record, with one layer for each nested
message or map entry around it; only errors about a tag that cannot be read are not wrapped. -/
theorem C48_error_iff {L : Layout} {env : Env} (hwf : WFEnv L env) (hr : ReadsOK env) (t : TypeId) (b : Bytes) (v : Val)
    (hv : FitsMsg L t v) (e : Err) :
    (∃ v', unmarshal env b (.msg t v) = .ok ⟨.msg t v', some (.decode e)⟩) ↔ Rejected env (env t).fields b e := by
  obtain ⟨vs, rfl, hfl⟩ := fitsMsg_iff.mp hv
  constructor
  · rintro ⟨v', h⟩
    obtain ⟨vs', o', h1, h2, h3⟩ := unmarshal_inv h
    cases o' with
    | none => simp at h2
    | some e' =>
      simp only [Option.map_some, Option.some.injEq, ApiErr.decode.injEq] at h2
      subst h2
      obtain ⟨vs'', o, h4, _, h5⟩ := run_explained hwf hr (b.length + 1) b (by omega) (env t).fields (L t) vs
        (fieldsOK_msg hwf hr t) hfl
      have h4 : run (idxM env t) b vs = .ok (vs'', o) := h4
      rw [h3] at h4
      cases h4
      exact h5 _ rfl
  · intro h
    obtain ⟨vs1, h1⟩ := rejected_run hwf hr h (fieldsOK_msg hwf hr t) hfl
    exact ⟨.struct vs1, unmarshal_err_iff.mpr h1⟩

/-- C48. Unmarshal succeeds exactly if the input is `Readable`, whatever the message held before. -/
theorem C48_accepted_iff {L : Layout} {env : Env} (hwf : WFEnv L env) (hr : ReadsOK env) (t : TypeId) (b : Bytes) (v : Val)
    (hv : FitsMsg L t v) :
    (∃ v', unmarshal env b (.msg t v) = .ok ⟨.msg t v', none⟩) ↔ Readable env (env t).fields b := by
  obtain ⟨vs, rfl, hfl⟩ := fitsMsg_iff.mp hv
  constructor
  · rintro ⟨v', h⟩
    obtain ⟨vs', o', h1, h2, h3⟩ := unmarshal_inv h
    cases o' with
    | some e' => simp at h2
    | none =>
      obtain ⟨vs'', o, h4, h5, _⟩ := run_explained hwf hr (b.length + 1) b (by omega) (env t).fields (L t) vs
        (fieldsOK_msg hwf hr t) hfl
      have h4 : run (idxM env t) b vs = .ok (vs'', o) := h4
      rw [h3] at h4
      cases h4
      exact h5 rfl
  · intro h
    obtain ⟨vs1, h1⟩ := accepted_run hwf hr h (fieldsOK_msg hwf hr t) hfl
    exact ⟨.struct vs1, unmarshal_ok_iff.mpr h1⟩

/-- C48. Whether an input is accepted, and the error if it is not, depends on the input and the type only. -/
theorem C48_outcome_by_input {L : Layout} {env : Env} (hwf : WFEnv L env) (hr : ReadsOK env) (t : TypeId) (b : Bytes)
    (v w : Val) (hv : FitsMsg L t v) (hw : FitsMsg L t w) :
    ∃ v' w' o, unmarshal env b (.msg t v) = .ok ⟨.msg t v', o⟩ ∧ unmarshal env b (.msg t w) = .ok ⟨.msg t w', o⟩ := by
  obtain ⟨v', o, h, _, ho⟩ := C03_unmarshal_safe hwf b t v hv
  rcases ho with rfl | ⟨e, rfl⟩
  · obtain ⟨w', h'⟩ := (C48_accepted_iff hwf hr t b w hw).mpr ((C48_accepted_iff hwf hr t b v hv).mp ⟨v', h⟩)
    exact ⟨v', w', _, h, h'⟩
  · obtain ⟨w', h'⟩ := (C48_error_iff hwf hr t b w hw e).mpr ((C48_error_iff hwf hr t b v hv e).mp ⟨v', h⟩)
    exact ⟨v', w', _, h, h'⟩

/-- The four causes. -/
def RootCause (e : Err) : Prop :=
  e = .unexpectedEOF ∨ e = .varintOverflow ∨ e = .wireTypeUnknown ∨ ∃ t, e = .expectedWireType t

theorem noVarint_root {s : Bytes} {e : Err} (h : NoVarint s e) : e = .unexpectedEOF ∨ e = .varintOverflow := by
  cases h with
  | eof => exact .inl rfl
  | overflow => exact .inr rfl

theorem noPayload_root {wt : Nat} {s : Bytes} {e : Err} (h : NoPayload wt s e) : RootCause e.root := by
  have k : ∀ {s e}, NoVarint s e → RootCause e.root := fun h => by
    rcases noVarint_root h with rfl | rfl
    · exact .inl rfl
    · exact .inr (.inl rfl)
  cases h with
  | varint _ _ h => exact k h
  | length _ _ h => exact k h
  | fixed64 => exact .inl rfl
  | body => exact .inl rfl
  | fixed32 => exact .inl rfl
  | unknown => exact .inr (.inr (.inl rfl))

mutual
theorem rejected_root {env : Env} : ∀ {fs : List Field} {b : Bytes} {e : Err}, Rejected env fs b e → RootCause e.root
  | _, _, _, .later _ _ _ _ _ h => rejected_root h
  | _, _, _, .tag _ _ _ _ h => by
    rcases noVarint_root h with rfl | rfl
    · exact .inl rfl
    · exact .inr (.inl rfl)
  | _, _, _, .skip _ _ _ _ _ _ _ _ h => by have := noPayload_root h; simpa only [Err.root] using this
  | _, _, _, .wire _ _ _ _ _ _ _ _ _ => .inr (.inr (.inr ⟨_, rfl⟩))
  | _, _, _, .short _ _ _ _ _ _ _ _ h => by have := noPayload_root h; simpa only [Err.root] using this
  | _, _, _, .nested _ _ _ _ _ _ e _ _ h => by
    have := bad_root h
    simpa only [Err.root] using this

theorem bad_root {env : Env} : ∀ {c : Codec} {data : Bytes} {e : Err}, Bad env c data e → RootCause e.root
  | _, _, _, .ptr _ _ _ _ h => bad_root h
  | _, _, _, .slice _ _ _ _ h => bad_root h
  | _, _, _, .msg _ _ _ _ _ h => rejected_root h
  | _, _, _, .map _ _ _ _ _ _ _ _ _ h => rejected_root h
end

/-- C48. The root cause of every error is truncation, varint overflow, an unknown wire type or a wire type mismatch, and
`errors.Is` finds it through all layers. -/
theorem C48_root_cause {L : Layout} {env : Env} (hwf : WFEnv L env) (hr : ReadsOK env) (t : TypeId) (b : Bytes) (v v' : Val)
    (hv : FitsMsg L t v) (e : Err) (h : unmarshal env b (.msg t v) = .ok ⟨.msg t v', some (.decode e)⟩) :
    (e.root = .unexpectedEOF ∨ e.root = .varintOverflow ∨ e.root = .wireTypeUnknown ∨ ∃ w, e.root = .expectedWireType w) ∧
      Err.is e.root e = true := by
  refine ⟨rejected_root ((C48_error_iff hwf hr t b v hv e).mp ⟨v', h⟩), ?_⟩
  clear h
  induction e with
  | field n w e ih => simp [Err.is, Err.root, ih]
  | _ => simp [Err.is, Err.root]

/-- C48. An error that is not wrapped is about a tag: truncation or overflow. -/
theorem C48_unwrapped_is_tag {L : Layout} {env : Env} (hwf : WFEnv L env) (hr : ReadsOK env) (t : TypeId) (b : Bytes)
    (v v' : Val) (hv : FitsMsg L t v) (e : Err)
    (h : unmarshal env b (.msg t v) = .ok ⟨.msg t v', some (.decode e)⟩) :
    (∃ num wt e', e = .field num wt e') ∨
      ∃ a s, b = a ++ s ∧ s ≠ [] ∧ NoVarint s e ∧ (e = .unexpectedEOF ∨ e = .varintOverflow) := by
  have h := (C48_error_iff hwf hr t b v hv e).mp ⟨v', h⟩
  clear hv
  revert h
  generalize (env t).fields = fs
  have suff : ∀ {fs : List Field} {b r : Bytes}, Passes env fs b r → ∃ a, b = a ++ r ∧ 0 < a.length := by
    intro fs b r h
    cases h with
    | unknown _ u _ _ _ _ hu => exact ⟨u, rfl, List.length_pos_iff.mpr (by simpa using record_ne_nil (r := []) hu)⟩
    | known _ u _ _ _ _ hu => exact ⟨u, rfl, List.length_pos_iff.mpr (by simpa using record_ne_nil (r := []) hu)⟩
    | bool _ u p num f c cs r _ _ _ hu => exact ⟨p ++ [c], by simp [hu], by simp⟩
  have main : ∀ {fs b e}, Rejected env fs b e → (∃ num wt e', e = .field num wt e') ∨
      ∃ a s, b = a ++ s ∧ s ≠ [] ∧ NoVarint s e ∧ (e = .unexpectedEOF ∨ e = .varintOverflow) := by
    intro fs b
    induction hl : b.length using Nat.strongRecOn generalizing b with
    | ind k ih =>
      intro e h
      cases h with
      | later _ _ r _ hp h =>
        obtain ⟨a, rfl, ha⟩ := suff hp
        have hlt : r.length < k := by
          rw [← hl]
          simp; omega
        rcases ih _ hlt rfl h with h | ⟨a', s, rfl, h'⟩
        · exact .inl h
        · exact .inr ⟨a ++ a', s, by simp, h'⟩
      | tag _ _ _ h0 h => exact .inr ⟨[], b, rfl, h0, h, noVarint_root h⟩
      | skip => exact .inl ⟨_, _, _, rfl⟩
      | wire => exact .inl ⟨_, _, _, rfl⟩
      | short => exact .inl ⟨_, _, _, rfl⟩
      | nested => exact .inl ⟨_, _, _, rfl⟩
  exact main

/-- C48. For types without bool fields, the offending record starts at a record boundary of the input: what precedes it
are complete records, and the outermost layer of the error carries its number and wire type. (Bool fields with payloads
of more than one byte shift the boundaries, see C28.) -/
theorem C48_at_record_boundary {L : Layout} {env : Env} (hwf : WFEnv L env) (hr : ReadsOK env) (t : TypeId) (b : Bytes)
    (v v' : Val) (hv : FitsMsg L t v) (num wt : Nat) (e : Err) (hb : ∀ f ∈ (env t).fields, ¬ f.codec.isBool)
    (h : unmarshal env b (.msg t v) = .ok ⟨.msg t v', some (.decode (.field num wt e))⟩) :
    ∃ a rs p r, b = a ++ (p ++ r) ∧ Records a rs ∧ TagBytes p num wt := by
  have h := (C48_error_iff hwf hr t b v hv _).mp ⟨v', h⟩
  clear hv
  revert h hb
  generalize (env t).fields = fs
  intro hb h
  have main : ∀ {b : Bytes} {e0}, Rejected env fs b e0 → e0 = .field num wt e →
      ∃ a rs p r, b = a ++ (p ++ r) ∧ Records a rs ∧ TagBytes p num wt := by
    intro b
    induction hl : b.length using Nat.strongRecOn generalizing b with
    | ind k ih =>
      intro e0 h he
      cases h with
      | later _ _ r _ hp h =>
        have hone : ∃ u num wt data, b = u ++ r ∧ Record u num wt data := by
          cases hp with
          | unknown _ u num wt data r hu => exact ⟨u, _, _, _, rfl, hu⟩
          | known _ u num f data r hu => exact ⟨u, _, _, _, rfl, hu⟩
          | bool _ u p num f c cs r _ hf hbool => exact absurd hbool (hb f hf.mem)
        obtain ⟨u, n', w', d', rfl, hu⟩ := hone
        have hlt : r.length < k := by
          rw [← hl]
          have : 0 < u.length := List.length_pos_iff.mpr (by simpa using record_ne_nil (r := []) hu)
          simp; omega
        obtain ⟨a, rs, p, s, rfl, h1, h2⟩ := ih _ hlt rfl h he
        exact ⟨u ++ a, _, p, s, by simp, .cons _ _ _ _ _ _ hu h1, h2⟩
      | tag _ _ _ h0 h =>
        subst he
        rcases noVarint_root h with h | h <;> simp at h
      | skip _ p r num wt e ht => cases he; exact ⟨[], [], p, r, rfl, .nil, ht⟩
      | wire _ p r num wt f ht => cases he; exact ⟨[], [], p, r, rfl, .nil, ht⟩
      | short _ p r num f e ht => cases he; exact ⟨[], [], p, r, rfl, .nil, ht⟩
      | nested _ u num f data r e hu =>
        cases he
        obtain ⟨p, ht, _, rfl⟩ := hu
        exact ⟨[], [], p, data ++ r, by simp, .nil, ht⟩
  exact main h rfl

-- A truncated `Id` inside the second of two `Kids`: field 3 (length-delimited), field 1 (varint), truncation.
example : ∃ v', unmarshal Sample.env [26#8, 2#8, 8#8, 3#8, 26#8, 1#8, 8#8] (.msg 0 Sample.emptyNode) =
    .ok ⟨.msg 0 v', some (.decode (.field 3 2 (.field 1 0 .unexpectedEOF)))⟩ := ⟨_, rfl⟩
example : Rejected Sample.env (Sample.env 0).fields [26#8, 2#8, 8#8, 3#8, 26#8, 1#8, 8#8]
    (.field 3 2 (.field 1 0 .unexpectedEOF)) :=
  (C48_error_iff Sample.wf Sample.readsOK 0 _ _ Sample.emptyNode_fits _).mp ⟨_, rfl⟩
example : (∀ f ∈ (Sample.env 0).fields, ¬ f.codec.isBool) ∧ Readable Sample.env (Sample.env 0).fields [74#8, 1#8, 5#8] :=
  ⟨by simp [Sample.env, Sample.fields, Sample.attrCodec, Codec.isBool], (C48_accepted_iff Sample.wf Sample.readsOK 0 _ _ Sample.emptyNode_fits).mp ⟨_, rfl⟩⟩

/-! ### C27: the field named by the failing record -/

theorem slot_of_accepted_fits {L : Layout} {env : Env} (hwf : WFEnv L env) {t : TypeId} {a : Bytes} {vs vs1 : List Val}
    (hv : FitsMsg L t (.struct vs))
    (ha : unmarshal env a (.msg t (.struct vs)) = .ok ⟨.msg t (.struct vs1), none⟩) {f : Field} (hf : f ∈ (env t).fields)
    {old : Val} (ho : vs1[f.offset]? = some old) : Fits L f.codec.shape old := by
  obtain ⟨v', err, h, hfit, _⟩ := C03_unmarshal_safe hwf a t _ hv
  rw [ha] at h
  cases h
  obtain ⟨vs', he, hfl⟩ := fitsMsg_iff.mp hfit
  cases he
  obtain ⟨old', _, ho2, hfit'⟩ := slotOf_fits hfl (hwf.slot t f hf)
  rw [ho] at ho2
  cases ho2
  exact hfit'

/-- C27, for repeated fields: an element that fails to decode is not appended. After the failing record the slice has the
elements it had before, and all other fields are as the accepted part of the input left them. -/
theorem C27_failed_element_dropped {L : Layout} {env : Env} (hwf : WFEnv L env) (hr : ReadsOK env) (t : TypeId)
    (a u r data : Bytes) (num : Nat) (f : Field) (z : Val) (c : Codec) (vs vs1 : List Val) (n : Bool) (es sp : List Val)
    (e : Err) (hv : FitsMsg L t (.struct vs))
    (ha : unmarshal env a (.msg t (.struct vs)) = .ok ⟨.msg t (.struct vs1), none⟩)
    (hf : Declared (env t).fields num f) (hc : f.codec = .slice z c) (hu : Record u num (keyType f.tag.wiretag) data)
    (ho : vs1[f.offset]? = some (.slice n es sp)) (hbad : Bad env c data e) :
    ∃ n' sp', unmarshal env (a ++ (u ++ r)) (.msg t (.struct vs)) =
      .ok ⟨.msg t (.struct (vs1.set f.offset (.slice n' es sp'))),
        some (.decode (.field num (keyType f.tag.wiretag) e))⟩ := by
  have hfit := slot_of_accepted_fits hwf hv ha hf.mem ho
  have hwc := hwf.codec t f hf.mem
  have hrd := hr t f hf.mem
  rw [hc] at hfit hwc hrd
  simp only [Codec.shape] at hfit
  obtain ⟨p, _, hp, _⟩ := id hu
  cases hfit with
  | slice _ _ _ _ _ _ hsp =>
    obtain ⟨slot, sp', hg, hs⟩ := growIfFull_cons z es sp
    have hsf : Fits L c.shape slot := by
      rcases hs with ⟨_, rfl, _⟩ | rfl
      · rw [hwc.1]; exact fits_zero _ _
      · exact hsp _ (by simp)
    obtain ⟨new, h⟩ := bad_dec hwf hr hbad hwc.2 hrd hp hsf
    obtain ⟨n', h⟩ := dec_slice_err (n := n) hg h
    rw [← hc] at h
    exact ⟨n', _, unmarshal_known_err ha hf hu ho h⟩

/-- C27, for maps: an entry that fails to decode is not assigned. -/
theorem C27_failed_entry_dropped {L : Layout} {env : Env} (hwf : WFEnv L env) (hr : ReadsOK env) (t : TypeId)
    (a u r data body : Bytes) (num : Nat) (f : Field) (i : MapInfo) (kc vc kd vd : Codec) (vs vs1 : List Val) (n : Bool)
    (m : List (Key × Val)) (e : Err)
    (ha : unmarshal env a (.msg t (.struct vs)) = .ok ⟨.msg t (.struct vs1), none⟩)
    (hf : Declared (env t).fields num f) (hc : f.codec = .map i kc vc kd vd)
    (hu : Record u num (keyType f.tag.wiretag) data) (ho : vs1[f.offset]? = some (.map n m)) (hb : BytesAs data body)
    (hbad : Rejected env (entryFields i kd vd) body e) :
    unmarshal env (a ++ (u ++ r)) (.msg t (.struct vs)) =
      .ok ⟨.msg t (.struct (vs1.set f.offset (.map false m))),
        some (.decode (.field num (keyType f.tag.wiretag) e))⟩ := by
  have hwc := hwf.codec t f hf.mem
  have hrd := hr t f hf.mem
  rw [hc] at hwc hrd
  obtain ⟨pt, _, hp, _⟩ := id hu
  obtain ⟨vs2, h⟩ := rejected_run hwf hr hbad (fieldsOK_entry hwc hrd) (fitsL_entry (L := L) hwc)
  obtain ⟨p, hp', rfl⟩ := hb
  have hne : p ++ body ≠ [] := payload_ne_nil hp
  have hbd := fun c => bounded_codec (zerosOf env) (decM env) (bounded_decM env) c
  have hd : dec env (.map i kc vc kd vd) (p ++ body) (.map n m) = _ :=
    codecDecode_map _ _ _ _ _ _ _ (hbd _) (hbd _) (p ++ body) n m
  simp only [hne, if_false, decodeVarint_of hp', List.drop_left, idxF_entry, h] at hd
  rw [← hc] at hd
  exact unmarshal_known_err ha hf hu ho hd

-- the second of two `Kids` is broken: `Kids` has one element, as after the first
example : ∃ n vs', unmarshal Sample.env [26#8, 2#8, 8#8, 3#8, 26#8, 1#8, 8#8] (.msg 0 Sample.emptyNode) =
    .ok ⟨.msg 0 (.struct vs'), some (.decode (.field 3 2 (.field 1 0 .unexpectedEOF)))⟩ ∧
    ∃ k sp, vs'[2]? = some (.slice n [k] sp) := ⟨_, _, rfl, _, _, rfl⟩

end Pb.Props
