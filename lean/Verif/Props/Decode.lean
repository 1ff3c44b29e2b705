import Verif.Proofs.Prefix
import Verif.Spec.Sample
/-
C05-C10, C25-C27, C33, C47, C49: Unmarshal as a function of the records of its input.
-/
namespace Pb.Props
open Spec

theorem unmarshal_ok_iff {env : Env} {b : Bytes} {t : TypeId} {vs vs' : List Val} :
    unmarshal env b (.msg t (.struct vs)) = .ok ⟨.msg t (.struct vs'), none⟩ ↔ run (idxM env t) b vs = .ok (vs', none) := by
  rw [unmarshal_eq]
  rcases run (idxM env t) b vs with e | ⟨vs1, _ | e⟩ <;> simp

theorem unmarshal_err_iff {env : Env} {b : Bytes} {t : TypeId} {vs vs' : List Val} {e : Err} :
    unmarshal env b (.msg t (.struct vs)) = .ok ⟨.msg t (.struct vs'), some (.decode e)⟩ ↔
      run (idxM env t) b vs = .ok (vs', some e) := by
  rw [unmarshal_eq]
  rcases run (idxM env t) b vs with e | ⟨vs1, _ | e⟩ <;> simp

/-- The result of Unmarshal is always a struct of the same type. -/
theorem unmarshal_inv {env : Env} {b : Bytes} {t : TypeId} {vs : List Val} {m : Arg} {o : Option ApiErr}
    (h : unmarshal env b (.msg t (.struct vs)) = .ok ⟨m, o⟩) :
    ∃ vs' o', m = .msg t (.struct vs') ∧ o = o'.map .decode ∧ run (idxM env t) b vs = .ok (vs', o') := by
  rw [unmarshal_eq] at h
  rcases hr : run (idxM env t) b vs with e | ⟨vs1, _ | e⟩ <;> simp [hr] at h
  · obtain ⟨rfl, rfl⟩ := h; exact ⟨vs1, none, rfl, rfl, rfl⟩
  · obtain ⟨rfl, rfl⟩ := h; exact ⟨vs1, some e, rfl, rfl, rfl⟩

/-! ### C05 -/

/-- C05, for inputs whose bool records have one-byte payloads (in particular for types without bool fields): an accepted
input is a concatenation of complete records. Missing: bool fields with multi-byte payloads, for which it is false,
see `C05_false_for_bool`. -/
theorem C05_accepted_is_records_partial {env : Env} (hr : ReadsOK env) (t : TypeId) (b : Bytes) (v : Val) (m : Arg)
    (hb : BoolsShort (env t).fields b) (h : unmarshal env b (.msg t v) = .ok ⟨m, none⟩) : ∃ rs, Records b rs := by
  by_cases h0 : b = []
  · subst h0; exact ⟨[], .nil⟩
  by_cases hs : ∃ vs, v = .struct vs
  · obtain ⟨vs, rfl⟩ := hs
    obtain ⟨vs', o', rfl, ho, hrun⟩ := unmarshal_inv h
    cases o' with
    | some e => simp at ho
    | none =>
      obtain ⟨a, rest, rs, vs1, rfl, ha, _, _, ⟨rfl, _, _⟩ | ⟨e, he, _⟩⟩ := run_split hr t b vs vs' none hb hrun
      · exact ⟨rs, by simpa using ha⟩
      · simp at he
  · have hd := decM_nonstruct env t b v (fun vs e => hs ⟨vs, e⟩)
    unfold decM at hd
    unfold unmarshal at h
    have : ¬ b.length = 0 := by simpa using h0
    simp [this, hd, bind, Except.bind] at h

example : ∃ m, unmarshal Sample.env [8#8, 3#8, 74#8, 1#8, 5#8] (.msg 0 Sample.emptyNode) = .ok ⟨m, none⟩ ∧
    BoolsShort (Sample.env 0).fields [8#8, 3#8, 74#8, 1#8, 5#8] := ⟨_, rfl, Sample.boolsShort_node _⟩

/-- C05 is false for bool fields: in `Pair`, the input `08 80 10 07` is accepted, but it is no sequence of records (the
second byte announces that the varint of field 1 continues). -/
theorem C05_false_for_bool :
    (∃ m, unmarshal Sample.env [8#8, 128#8, 16#8, 7#8] (.msg 2 (Sample.env 2).zero) = .ok ⟨m, none⟩) ∧
      ¬ ∃ rs, Records [8#8, 128#8, 16#8, 7#8] rs := by
  refine ⟨⟨_, rfl⟩, ?_⟩
  rintro ⟨rs, h⟩
  -- for a type without fields, accepted inputs are exactly the record sequences
  let env0 : Env := fun _ => ⟨[], .struct []⟩
  have hr : ReadsOK env0 := fun t f hf => by simp [env0] at hf
  have hb : BoolsShort (env0 0).fields [8#8, 128#8, 16#8, 7#8] := fun _ _ _ _ _ _ _ _ _ _ f hf => by simp [env0] at hf
  have h1 := fold_of_run hr 0 h hb []
  have h2 : ∀ rs, foldRecs (idxM env0 0) rs [] = .ok ([], none) := by
    intro rs
    induction rs with
    | nil => rfl
    | cons r rs ih =>
      have : idxM env0 0 r.1 = none := rfl
      simp [foldRecs, applyRec, this, ih]
  rw [h2] at h1
  have h3 : unmarshal env0 [8#8, 128#8, 16#8, 7#8] (.msg 0 (.struct [])) = .ok ⟨.msg 0 (.struct []), none⟩ :=
    unmarshal_ok_iff.mpr h1
  have h4 : unmarshal env0 [8#8, 128#8, 16#8, 7#8] (.msg 0 (.struct [])) =
      .ok ⟨.msg 0 (.struct []), some (.decode (.field 0 7 .wireTypeUnknown))⟩ := rfl
  rw [h4] at h3
  simp at h3

/-! ### C06 -/

/-- C06. A record with an undeclared number, inserted at any record boundary, whatever follows, changes nothing: same
error, same message. (Bool records before it with multi-byte payloads are excluded: the library does not see record
boundaries after them.) -/
theorem C06_unknown_ignored {env : Env} (hr : ReadsOK env) (t : TypeId) (a : Bytes) (rs) (u : Bytes) (num wt : Nat)
    (data b : Bytes) (ha : Records a rs) (hb : BoolsShort (env t).fields a) (hu : Record u num wt data)
    (hn : Undeclared (env t).fields num) (vs : List Val) :
    unmarshal env (a ++ (u ++ b)) (.msg t (.struct vs)) = unmarshal env (a ++ b) (.msg t (.struct vs)) := by
  have hi := idxM_undeclared (env := env) (t := t) hn
  rw [unmarshal_eq, unmarshal_eq, run_records_M hr t ha hb, run_records_M hr t ha hb]
  have : ∀ vs, run (idxM env t) (u ++ b) vs = run (idxM env t) b vs := by
    intro vs
    rw [stepS_record hu (fun f hf => by rw [hi] at hf; simp at hf)]
    simp [applyRec, hi, andThen]
  simp only [andThen, this]

/-- C06. The same after any accepted prefix, for all types, also those with bool fields. -/
theorem C06_unknown_ignored_accepted {env : Env} (t : TypeId) (a u : Bytes) (num wt : Nat) (data b : Bytes)
    (vs vs1 : List Val) (ha : unmarshal env a (.msg t (.struct vs)) = .ok ⟨.msg t (.struct vs1), none⟩)
    (hu : Record u num wt data) (hn : Undeclared (env t).fields num) :
    unmarshal env (a ++ (u ++ b)) (.msg t (.struct vs)) = unmarshal env (a ++ b) (.msg t (.struct vs)) := by
  have hi := idxM_undeclared (env := env) (t := t) hn
  have ha := unmarshal_ok_iff.mp ha
  rw [unmarshal_eq, unmarshal_eq, run_append (boundedIdx_M env t) _ _ _ ha, run_append (boundedIdx_M env t) _ _ _ ha,
    stepS_record hu (fun f hf => by rw [hi] at hf; simp at hf)]
  simp [applyRec, hi, andThen]

example : Records [8#8, 3#8] [(1, 0, [3#8])] ∧ Record [74#8, 1#8, 5#8] 9 2 [1#8, 5#8] ∧
    Undeclared (Sample.env 0).fields 9 := by
  refine ⟨?_, Sample.rec_unknown 5#8, ?_⟩
  · simpa using Records.cons _ [] _ _ _ [] (Sample.rec_id 3#8 (by decide)) .nil
  · simp [Undeclared, Sample.env, Sample.fields, Sample.mkTag, keyNumber]

/-! ### C07 -/

/-- C07. After an accepted `a`, Unmarshal of `a ++ b` is Unmarshal of `b` into the result of Unmarshal of `a`. -/
theorem C07_concat_is_merge {env : Env} (t : TypeId) (a b : Bytes) (v v1 : Val)
    (ha : unmarshal env a (.msg t v) = .ok ⟨.msg t v1, none⟩) :
    unmarshal env (a ++ b) (.msg t v) = unmarshal env b (.msg t v1) := by
  by_cases h0 : a = []
  · subst h0
    simp [unmarshal] at ha
    subst ha; rfl
  by_cases hs : ∃ vs, v = .struct vs
  · obtain ⟨vs, rfl⟩ := hs
    obtain ⟨vs', o', he, ho, hrun⟩ := unmarshal_inv ha
    cases o' with
    | some e => simp at ho
    | none =>
      simp only [Arg.msg.injEq, true_and] at he
      subst he
      rw [unmarshal_eq, unmarshal_eq, run_append (boundedIdx_M env t) _ _ _ hrun]
  · have hd := decM_nonstruct env t a v (fun vs e => hs ⟨vs, e⟩)
    unfold decM at hd
    unfold unmarshal at ha
    have : ¬ a.length = 0 := by simpa using h0
    simp [this, hd, bind, Except.bind] at ha

example : ∃ v, unmarshal Sample.env [8#8, 3#8] (.msg 0 Sample.node) = .ok ⟨.msg 0 v, none⟩ := ⟨_, rfl⟩

/-! ### C08 -/

/-- C08. Every prefix of an accepted input is accepted, or refused with an error for which
`errors.Is(err, io.ErrUnexpectedEOF)` holds. -/
theorem C08_truncation {env : Env} (t : TypeId) (p q : Bytes) (v : Val) (m : Arg)
    (h : unmarshal env (p ++ q) (.msg t v) = .ok ⟨m, none⟩) :
    ∃ m' o, unmarshal env p (.msg t v) = .ok ⟨m', o⟩ ∧
      (o = none ∨ ∃ e, o = some (.decode e) ∧ Err.is .unexpectedEOF e = true) := by
  by_cases h0 : p = []
  · subst h0; exact ⟨_, _, rfl, .inl rfl⟩
  by_cases hs : ∃ vs, v = .struct vs
  · obtain ⟨vs, rfl⟩ := hs
    obtain ⟨vs', o', rfl, ho, hrun⟩ := unmarshal_inv h
    cases o' with
    | some e => simp at ho
    | none =>
      obtain ⟨vs1, h1 | h1 | ⟨num, wt, h1⟩⟩ := run_prefix (boundedIdx_M env t) _ _ _ hrun p q rfl
      · exact ⟨_, _, unmarshal_ok_iff.mpr h1, .inl rfl⟩
      · exact ⟨_, _, unmarshal_err_iff.mpr h1, .inr ⟨_, rfl, rfl⟩⟩
      · exact ⟨_, _, unmarshal_err_iff.mpr h1, .inr ⟨_, rfl, by simp [Err.is]⟩⟩
  · have hd := decM_nonstruct env t (p ++ q) v (fun vs e => hs ⟨vs, e⟩)
    unfold decM at hd
    unfold unmarshal at h
    have : ¬ (p ++ q).length = 0 := by simp [h0]
    simp only [this, if_false, hd, bind, Except.bind] at h
    simp at h

/-- C08. Where the prefix is accepted, it ends on a record boundary (types whose bool records are short). -/
theorem C08_accepted_prefix_is_boundary {env : Env} (hr : ReadsOK env) (t : TypeId) (p q : Bytes) (v : Val) (m m' : Arg)
    (hb : BoolsShort (env t).fields (p ++ q)) (h : unmarshal env (p ++ q) (.msg t v) = .ok ⟨m, none⟩)
    (hp : unmarshal env p (.msg t v) = .ok ⟨m', none⟩) :
    ∃ rs ss, Records p rs ∧ Records (p ++ q) (rs ++ ss) := by
  obtain ⟨rs, h1⟩ := C05_accepted_is_records_partial hr t p v m' (boolsShort_prefix hb) hp
  by_cases h0 : p = []
  · subst h0
    obtain ⟨ss, h2⟩ := C05_accepted_is_records_partial hr t _ v m hb h
    exact ⟨[], ss, .nil, by simpa using h2⟩
  have hv : ∃ v', m' = .msg t v' := by
    by_cases hs : ∃ vs, v = .struct vs
    · obtain ⟨vs, rfl⟩ := hs
      obtain ⟨vs', o', rfl, _, _⟩ := unmarshal_inv hp
      exact ⟨_, rfl⟩
    · have hd := decM_nonstruct env t p v (fun vs e => hs ⟨vs, e⟩)
      unfold decM at hd
      unfold unmarshal at hp
      have : ¬ p.length = 0 := by simpa using h0
      simp [this, hd, bind, Except.bind] at hp
  obtain ⟨v', rfl⟩ := hv
  have h3 := C07_concat_is_merge t p q v v' hp
  rw [h] at h3
  have hbq : BoolsShort (env t).fields q := by
    intro a rs' u num wt data r e ha hu
    refine hb (p ++ a) (rs ++ rs') u num wt data r (by rw [e]; simp) ?_ hu
    exact records_append h1 ha
  obtain ⟨ss, h4⟩ := C05_accepted_is_records_partial hr t q v' m hbq h3.symm
  exact ⟨rs, ss, h1, records_append h1 h4⟩

example : ∃ m, unmarshal Sample.env ([26#8, 2#8, 8#8] ++ [3#8]) (.msg 0 Sample.node) = .ok ⟨m, none⟩ := ⟨_, rfl⟩
example : ∃ m, unmarshal Sample.env [26#8, 2#8, 8#8] (.msg 0 Sample.node) =
    .ok ⟨m, some (.decode (.field 3 2 .unexpectedEOF))⟩ := ⟨_, rfl⟩

/-! ### C09, C10, C33 -/

/-- C09. A declared number with another wire type than the field's, after any accepted part, is refused with an error
that names number and wire type; the message is what the accepted part made it. -/
theorem C09_wire_type_mismatch {env : Env} (t : TypeId) (a p r : Bytes) (num wt : Nat) (f : Field) (vs vs1 : List Val)
    (ha : unmarshal env a (.msg t (.struct vs)) = .ok ⟨.msg t (.struct vs1), none⟩)
    (hf : Declared (env t).fields num f) (hp : TagBytes p num wt) (hw : wt ≠ keyType f.tag.wiretag) :
    unmarshal env (a ++ (p ++ r)) (.msg t (.struct vs)) =
      .ok ⟨.msg t (.struct vs1), some (.decode (.field num wt (.expectedWireType (keyType f.tag.wiretag))))⟩ := by
  have hi := idxM_declared hf
  rw [C07_concat_is_merge t _ _ _ _ ha]
  apply unmarshal_err_iff.mpr
  have hne : p ++ r ≠ [] := by
    have := hp.2.1.length_pos
    intro e; simp at e; simp [e] at this
  rw [run_cons _ _ _ hne]
  simp only [stepS, decodeTag_of hp, hi]
  rw [if_pos (by exact hw)]
  rfl

example : Declared (Sample.env 0).fields 1 ⟨0, Sample.mkTag 1 0, .normal .int32⟩ ∧ TagBytes [13#8] 1 5 ∧
    unmarshal Sample.env [13#8, 1#8] (.msg 0 Sample.leaf) =
      .ok ⟨.msg 0 Sample.leaf, some (.decode (.field 1 5 (.expectedWireType 0)))⟩ := by
  refine ⟨⟨[], _, rfl, by decide, ?_⟩, ⟨by decide, .last 13#8 (by decide), by decide, by decide⟩, rfl⟩
  simp [Sample.mkTag, keyNumber]

/-- C10. An undeclared number with wire type 3, 4, 6 or 7, after any accepted part, is refused with
`ErrWireTypeUnknown` wrapped with number and wire type. -/
theorem C10_unsupported_wire_types {env : Env} (t : TypeId) (a p r : Bytes) (num wt : Nat) (vs vs1 : List Val)
    (ha : unmarshal env a (.msg t (.struct vs)) = .ok ⟨.msg t (.struct vs1), none⟩)
    (hn : Undeclared (env t).fields num) (hp : TagBytes p num wt) (hw : wt = 3 ∨ wt = 4 ∨ wt = 6 ∨ wt = 7) :
    unmarshal env (a ++ (p ++ r)) (.msg t (.struct vs)) =
      .ok ⟨.msg t (.struct vs1), some (.decode (.field num wt .wireTypeUnknown))⟩ := by
  have hi := idxM_undeclared (env := env) (t := t) hn
  rw [C07_concat_is_merge t _ _ _ _ ha]
  apply unmarshal_err_iff.mpr
  have hne : p ++ r ≠ [] := by
    have := hp.2.1.length_pos
    intro e; simp at e; simp [e] at this
  rw [run_cons _ _ _ hne]
  have ht : takePayload r wt = .error .wireTypeUnknown := by
    rcases hw with rfl | rfl | rfl | rfl <;> simp [takePayload, wtVarint, wtVarlen, wtFixed32, wtFixed64]
  simp only [stepS, decodeTag_of hp, hi, List.drop_left, ht]

/-- C10. The wire types the library can skip are exactly 0, 1, 2 and 5: a record of an undeclared number that is passed
over has one of them, and `errors.Is` finds `ErrWireTypeUnknown` in the error for the others. -/
theorem C10_skippable {env : Env} (t : TypeId) (p r : Bytes) (num wt : Nat) (vs vs1 : List Val)
    (hn : Undeclared (env t).fields num) (hp : TagBytes p num wt)
    (h : unmarshal env (p ++ r) (.msg t (.struct vs)) = .ok ⟨.msg t (.struct vs1), none⟩) :
    wt = 0 ∨ wt = 1 ∨ wt = 2 ∨ wt = 5 := by
  have hw : ¬ (wt = 3 ∨ wt = 4 ∨ wt = 6 ∨ wt = 7) := by
    intro hw
    have := C10_unsupported_wire_types t [] p r num wt vs vs rfl hn hp hw
    rw [List.nil_append, h] at this
    simp at this
  have := hp.1
  omega

example : unmarshal Sample.env [75#8, 1#8] (.msg 0 Sample.leaf) =
    .ok ⟨.msg 0 Sample.leaf, some (.decode (.field 9 3 .wireTypeUnknown))⟩ := rfl
example : Err.is .wireTypeUnknown (.field 9 3 .wireTypeUnknown) = true := by decide

/-- C33. A packed (length-delimited) record for a repeated field of numbers is refused with a wire type error; the field
is as the accepted part left it. -/
theorem C33_packed_refused {env : Env} (t : TypeId) (a p r : Bytes) (num : Nat) (f : Field) (z : Val) (s : Scalar)
    (vs vs1 : List Val) (ha : unmarshal env a (.msg t (.struct vs)) = .ok ⟨.msg t (.struct vs1), none⟩)
    (hf : Declared (env t).fields num f) (_hc : f.codec = .slice z (.required s)) (hs : keyType f.tag.wiretag ≠ 2)
    (hp : TagBytes p num 2) :
    unmarshal env (a ++ (p ++ r)) (.msg t (.struct vs)) =
      .ok ⟨.msg t (.struct vs1), some (.decode (.field num 2 (.expectedWireType (keyType f.tag.wiretag))))⟩ :=
  C09_wire_type_mismatch t a p r num 2 f vs vs1 ha hf hp (fun e => hs e.symm)

-- `Vals` of `Flat`, packed
example : unmarshal Sample.env [26#8, 8#8, 0#8, 0#8, 0#8, 0#8, 0#8, 0#8, 0#8, 0#8] (.msg 1 (Sample.env 1).zero) =
    .ok ⟨.msg 1 (Sample.env 1).zero, some (.decode (.field 3 2 (.expectedWireType 1)))⟩ := rfl

/-! ### C25, C26 -/

theorem stepS_other {env : Env} {t : TypeId} {s : Bytes} {vs vs' : List Val} {i : Nat}
    (h : (∃ rest, stepS (idxM env t) s vs = .ok (.next rest vs')) ∨ ∃ e, stepS (idxM env t) s vs = .ok (.fail vs' e))
    (hi : ∀ p num wt r f, s = p ++ r → TagBytes p num wt → Declared (env t).fields num f → f.offset ≠ i) :
    vs'[i]? = vs[i]? ∧ vs'.length = vs.length := by
  have set : ∀ p num wt r (f : DField) v, s = p ++ r → TagBytes p num wt → idxM env t num = some f →
      (vs.set f.offset v)[i]? = vs[i]? ∧ (vs.set f.offset v).length = vs.length := by
    intro p num wt r f v e ht hf
    obtain ⟨g, hg, rfl⟩ := idxM_some hf
    have := hi p num wt r g e ht hg
    exact ⟨List.getElem?_set_ne this, by simp⟩
  rcases h with ⟨rest, h⟩ | ⟨e, h⟩
  · obtain ⟨p, num, wt, data, ht, hp, ⟨_, rfl, rfl⟩ | ⟨f, rest', v, v', m, hf, rfl, rfl, hv, hdec, rfl, rfl⟩⟩ :=
      stepS_next_inv h
    · exact ⟨rfl, rfl⟩
    · exact set _ _ _ _ f v' rfl ht hf
  · rcases stepS_cases h with ⟨e, _, hc⟩ | ⟨p, q, num, wt, rfl, ht, hc⟩
    · cases hc; exact ⟨rfl, rfl⟩
    rcases hc with ⟨hf, ⟨e, _, hc⟩ | ⟨data, rest', hp, rfl, hc⟩⟩ | ⟨f, hf, ⟨_, hc⟩ | ⟨rfl, ⟨e, _, hc⟩ |
      ⟨data, rest', v, hp, rfl, hv, ⟨v', m, hdec, hc⟩ | ⟨v', e, hdec, hc⟩⟩⟩⟩
    · cases hc; exact ⟨rfl, rfl⟩
    · cases hc
    · cases hc; exact ⟨rfl, rfl⟩
    · cases hc; exact ⟨rfl, rfl⟩
    · cases hc
    · cases hc; exact set _ _ _ _ f v' rfl ht hf

/-- C25. A slot that belongs to no field of the type info (an unexported or untagged Go field) is left alone by
Unmarshal, for every input and also on failure. -/
theorem C25_unmarshal_leaves_untagged {env : Env} (t : TypeId) (b : Bytes) (vs : List Val) (m : Arg) (o) (i : Nat)
    (hi : ∀ f ∈ (env t).fields, f.offset ≠ i)
    (h : unmarshal env b (.msg t (.struct vs)) = .ok ⟨m, o⟩) :
    ∃ vs', m = .msg t (.struct vs') ∧ vs'[i]? = vs[i]? ∧ vs'.length = vs.length := by
  obtain ⟨vs', o', rfl, rfl, hr⟩ := unmarshal_inv h
  refine ⟨vs', rfl, ?_⟩
  clear h
  induction hl : b.length using Nat.strongRecOn generalizing b vs with
  | ind k ih =>
    by_cases h0 : b = []
    · subst h0; rw [run_nil] at hr; cases hr; exact ⟨rfl, rfl⟩
    rw [run_cons _ _ _ h0] at hr
    have off : ∀ p num wt r f, b = p ++ r → TagBytes p num wt → Declared (env t).fields num f → f.offset ≠ i :=
      fun _ _ _ _ f _ _ hf => hi f hf.mem
    rcases hs : stepS (idxM env t) b vs with er | ⟨vs1, er⟩ | ⟨rest, vs1⟩ <;> simp only [hs] at hr
    · simp at hr
    · cases hr
      exact stepS_other (.inr ⟨er, hs⟩) off
    · have h1 := stepS_other (.inl ⟨rest, hs⟩) off
      have h2 := ih rest.length (by have := stepS_lt hs; omega) rest vs1 hr rfl
      exact ⟨h2.1.trans h1.1, h2.2.trans h1.2⟩

/-- C25. Such a slot has no influence on Size and Marshal. -/
theorem C25_marshal_ignores_untagged {env : Env} (t : TypeId) (vs ws : List Val) 
    (hi : ∀ f ∈ (env t).fields, vs[f.offset]? = ws[f.offset]?) :
    marshal env (.msg t (.struct vs)) = marshal env (.msg t (.struct ws)) ∧
      size env (.msg t (.struct vs)) = size env (.msg t (.struct ws)) := by
  have e1 : sizeM env t (.struct vs) = sizeM env t (.struct ws) := by
    rw [sizeM_eq, sizeM_eq]
    unfold sizeFields
    generalize (env t).fields = fs at hi
    induction fs with
    | nil => rfl
    | cons f fs ih =>
      have hh : slotOf (.struct vs) f.offset = slotOf (.struct ws) f.offset := by simp only [slotOf, hi f (by simp)]
      simp only [sumAll, hh, ih (fun g hg => hi g (by simp [hg]))]
  have e2 : encM env t (.struct vs) = encM env t (.struct ws) := by
    rw [encM_eq, encM_eq]
    unfold encFields
    generalize (env t).fields = fs at hi
    induction fs with
    | nil => rfl
    | cons f fs ih =>
      have hh : slotOf (.struct vs) f.offset = slotOf (.struct ws) f.offset := by simp only [slotOf, hi f (by simp)]
      simp only [catAll, hh, ih (fun g hg => hi g (by simp [hg]))]
  rw [marshal_msg, marshal_msg, size_msg, size_msg, e1, e2]
  exact ⟨rfl, rfl⟩

-- `cache`, slot 5 of `Node`
example : ∀ f ∈ (Sample.env 0).fields, f.offset ≠ 5 := by simp [Sample.env, Sample.fields]
example : ∀ f ∈ (Sample.env 0).fields,
    [Val.w32 3#32, .str [], .slice true [] [], .opt false (.w64 0#64), .map true [], .opaque 0, .bytes none, .nilp][f.offset]?
      = [Val.w32 3#32, .str [], .slice true [] [], .opt false (.w64 0#64), .map true [], .opaque 9, .bytes none,
        .nilp][f.offset]? := by simp [Sample.env, Sample.fields]

/-- C26, for inputs whose bool records have one-byte payloads: Unmarshal leaves alone every slot whose field's number
does not occur in the input, also when it fails. Missing: multi-byte bool payloads, for which it is false, see
`C26_false_for_bool`. -/
theorem C26_frame_partial {env : Env} (hr : ReadsOK env) (t : TypeId) (b : Bytes) (vs : List Val) (m : Arg) (o) (i : Nat)
    (hb : BoolsShort (env t).fields b)
    (hi : ∀ f ∈ (env t).fields, f.offset = i → ¬ Occurs b (keyNumber f.tag.wiretag))
    (h : unmarshal env b (.msg t (.struct vs)) = .ok ⟨m, o⟩) :
    ∃ vs', m = .msg t (.struct vs') ∧ vs'[i]? = vs[i]? ∧ vs'.length = vs.length := by
  obtain ⟨vs', o', rfl, rfl, hrun⟩ := unmarshal_inv h
  refine ⟨vs', rfl, ?_⟩
  clear h
  induction hl : b.length using Nat.strongRecOn generalizing b vs with
  | ind k ih =>
    by_cases h0 : b = []
    · subst h0; rw [run_nil] at hrun; cases hrun; exact ⟨rfl, rfl⟩
    rw [run_cons _ _ _ h0] at hrun
    have off : ∀ p num wt r f, b = p ++ r → TagBytes p num wt → Declared (env t).fields num f → f.offset ≠ i := by
      intro p num wt r f e ht hf ho
      refine hi f hf.mem ho ⟨[], [], p, wt, r, by simpa using e, .nil, ?_⟩
      rw [hf.num]; exact ht
    rcases hs : stepS (idxM env t) b vs with er | ⟨vs1, er⟩ | ⟨rest, vs1⟩ <;> simp only [hs] at hrun
    · simp at hrun
    · cases hrun
      exact stepS_other (.inr ⟨er, hs⟩) off
    · have h1 := stepS_other (.inl ⟨rest, hs⟩) off
      have hlt := stepS_lt hs
      obtain ⟨tg, num, wt, data, ht, hp, hcase⟩ := stepS_next_inv hs
      have hrec : Record (tg ++ data) num wt data := ⟨tg, ht, hp, rfl⟩
      have key : b = (tg ++ data) ++ rest := by
        rcases hcase with ⟨_, rfl, rfl⟩ | ⟨f, rest', v, v', m, hf, rfl, rfl, hv, hdec, rfl, rfl⟩
        · simp
        · have he : ExactOn f.dec data := exactOn_M hr hf hp fun g hg hn hbool =>
            hb [] [] (tg ++ data) num f.wt data rest' (by simp) .nil hrec g hg hn hbool
          have := he v v' m hdec
          subst this
          simp
      subst key
      have h2 := ih rest.length (by omega) rest vs1 (boolsShort_tail hb hrec) (fun f hf ho hoc => by
        obtain ⟨a, rs, p, wt', r, e, ha, hp'⟩ := hoc
        refine hi f hf ho ⟨(tg ++ data) ++ a, (num, wt, data) :: rs, p, wt', r, by rw [e]; simp,
          .cons _ _ _ _ _ _ hrec ha, hp'⟩) hrun rfl
      exact ⟨h2.1.trans h1.1, h2.2.trans h1.2⟩

-- `Name` of `Node` is not in the input
example : ¬ Occurs [8#8, 3#8] 2 := by
  rintro ⟨a, rs, p, wt, r, e, ha, hp⟩
  have h1 : Records [8#8, 3#8] [(1, 0, [3#8])] := by
    simpa using Records.cons _ [] _ _ _ [] (Sample.rec_id 3#8 (by decide)) .nil
  cases ha with
  | nil =>
    have := decodeTag_of hp r
    rw [← (show [8#8, 3#8] = p ++ r from e)] at this
    have h2 : decodeTag [8#8, 3#8] = (1, 0, 1, none) := by decide
    rw [h2] at this; simp at this
  | cons b bs num wt' data rs hr ha =>
    have hl := congrArg List.length e
    obtain ⟨q, hq, hpl, rfl⟩ := hr
    have l1 := hq.2.1.length_pos
    have l2 := hp.2.1.length_pos
    have l3 : 0 < data.length := by
      cases hpl with
      | varint _ _ h => exact h.1.length_pos
      | fixed64 _ h => omega
      | varlen p bs h => have := h.1.length_pos; simp; omega
      | fixed32 _ h => omega
    simp at hl
    omega

/-- C26 is false for bool fields with multi-byte payloads: the input `08 80 10 08 01` consists of two records for field
1 of `Pair` (with values 2048 and 1) but changes field 2. -/
theorem C26_false_for_bool :
    Records [8#8, 128#8, 16#8, 8#8, 1#8] [(1, 0, [128#8, 16#8]), (1, 0, [1#8])] ∧
    ∃ e, unmarshal Sample.env [8#8, 128#8, 16#8, 8#8, 1#8] (.msg 2 (.struct [.b8 false, .w32 0#32])) =
      .ok ⟨.msg 2 (.struct [.b8 true, .w32 8#32]), some e⟩ := by
  refine ⟨?_, _, rfl⟩
  refine Records.cons [8#8, 128#8, 16#8] [8#8, 1#8] 1 0 [128#8, 16#8] _ ⟨[8#8], ⟨by decide, .last 8#8 (by decide),
    by decide, by decide⟩, .varint _ _ ⟨.cont 128#8 [16#8] _ (by decide) (.last 16#8 (by decide)), by decide, by decide⟩,
    rfl⟩ ?_
  simpa using Records.cons _ [] _ _ _ [] (Sample.rec_id 1#8 (by decide)) .nil

/-! ### C27 -/

/-- C27, for inputs whose bool records have one-byte payloads: when Unmarshal fails, the input splits into complete
records `a`, which alone are accepted, and a failing rest; the message is what `a` made it, except possibly for the
field named by the tag at which the failing rest starts. -/
theorem C27_error_effects_partial {env : Env} (hr : ReadsOK env) (t : TypeId) (b : Bytes) (vs : List Val) (m : Arg) (e)
    (hb : BoolsShort (env t).fields b)
    (h : unmarshal env b (.msg t (.struct vs)) = .ok ⟨m, some e⟩) :
    ∃ a rest rs vs1 vs', b = a ++ rest ∧ rest ≠ [] ∧ Records a rs ∧
      unmarshal env a (.msg t (.struct vs)) = .ok ⟨.msg t (.struct vs1), none⟩ ∧ m = .msg t (.struct vs') ∧
      (vs' = vs1 ∨ ∃ p num wt r f v, rest = p ++ r ∧ TagBytes p num wt ∧ Declared (env t).fields num f ∧
        vs' = vs1.set f.offset v) := by
  obtain ⟨vs', o', rfl, ho, hrun⟩ := unmarshal_inv h
  cases o' with
  | none => simp at ho
  | some e' =>
    obtain ⟨a, rest, rs, vs1, rfl, ha, _, hra, ⟨_, h, _⟩ | ⟨e2, he, hne, hstep⟩⟩ := run_split hr t b vs vs' _ hb hrun
    · simp at h
    refine ⟨a, rest, rs, vs1, vs', rfl, hne, ha, unmarshal_ok_iff.mpr hra, rfl, ?_⟩
    rcases stepS_cases hstep with ⟨e, _, hc⟩ | ⟨p, q, num, wt, rfl, ht, hc⟩
    · cases hc; exact .inl rfl
    rcases hc with ⟨hf, ⟨e, _, hc⟩ | ⟨data, rest', hp, rfl, hc⟩⟩ | ⟨f, hf, ⟨_, hc⟩ | ⟨rfl, ⟨e, _, hc⟩ |
      ⟨data, rest', v, hp, rfl, hv, ⟨v', m, hdec, hc⟩ | ⟨v', e, hdec, hc⟩⟩⟩⟩
    · cases hc; exact .inl rfl
    · cases hc
    · cases hc; exact .inl rfl
    · cases hc; exact .inl rfl
    · cases hc
    · cases hc
      obtain ⟨g, hg, rfl⟩ := idxM_some hf
      exact .inr ⟨p, num, _, _, g, v', rfl, ht, hg, rfl⟩

/-- C27. Nothing after a failing record has an effect. -/
theorem C27_rest_irrelevant {env : Env} (hr : ReadsOK env) (t : TypeId) (a u : Bytes) (num wt : Nat) (data : Bytes)
    (vs vs1 : List Val) (m : Arg) (e)
    (ha : unmarshal env a (.msg t (.struct vs)) = .ok ⟨.msg t (.struct vs1), none⟩) (hu : Record u num wt data)
    (hb : ∀ f ∈ (env t).fields, keyNumber f.tag.wiretag = num → f.codec.isBool → data.length = 1)
    (h : unmarshal env (a ++ u) (.msg t (.struct vs)) = .ok ⟨m, some e⟩) (r : Bytes) :
    unmarshal env (a ++ (u ++ r)) (.msg t (.struct vs)) = .ok ⟨m, some e⟩ := by
  rw [C07_concat_is_merge t _ _ _ _ ha] at h ⊢
  have he : ∀ f, idxM env t num = some f → f.wt = wt → ExactOn f.dec data := by
    rintro f hi rfl
    obtain ⟨p, _, hp, _⟩ := hu
    exact exactOn_M hr hi hp hb
  have h1 := stepS_record hu he [] vs1
  have h2 := stepS_record hu he r vs1
  obtain ⟨vs', o', rfl, ho, hrun⟩ := unmarshal_inv h
  rw [List.append_nil, hrun] at h1
  rw [unmarshal_eq, h2]
  rcases hap : applyRec (idxM env t) (num, wt, data) vs1 with er | ⟨vs2, _ | er⟩ <;> rw [hap] at h1
  · simp [andThen] at h1
  · simp only [andThen, run_nil, Except.ok.injEq, Prod.mk.injEq] at h1
    rw [h1.2] at ho; simp at ho
  · simp only [andThen, Except.ok.injEq, Prod.mk.injEq] at h1
    obtain ⟨rfl, rfl⟩ := h1
    simp only [Option.map_some, Option.some.injEq] at ho
    subst ho
    rfl

-- `Kids` of `Node`: the nested record is broken; the record before it has been applied, the one after it not
example : ∃ vs', unmarshal Sample.env [8#8, 7#8, 26#8, 1#8, 8#8, 8#8, 9#8] (.msg 0 Sample.emptyNode) =
    .ok ⟨.msg 0 (.struct vs'), some (.decode (.field 3 2 (.field 1 0 .unexpectedEOF)))⟩ ∧ vs'[0]? = some (.w32 7#32) :=
  ⟨_, rfl, rfl⟩

/-! ### C47 -/

theorem applyRec_slot {idx : Nat → Option DField} {r : Nat × Nat × Bytes} {vs vs' : List Val}
    (h : applyRec idx r vs = .ok (vs', none)) (ws : List Val) :
    (idx r.1 = none ∧ vs' = vs ∧ applyRec idx r ws = .ok (ws, none)) ∨
    ∃ f v, idx r.1 = some f ∧ vs' = vs.set f.offset v ∧
      (ws[f.offset]? = vs[f.offset]? → applyRec idx r ws = .ok (ws.set f.offset v, none)) := by
  rcases applyRec_ok h with ⟨hi, rfl⟩ | ⟨f, v, v', m, hi, hw, hv, hd, rfl⟩
  · exact .inl ⟨hi, rfl, by simp [applyRec, hi]⟩
  · refine .inr ⟨f, v', hi, rfl, fun e => ?_⟩
    simp [applyRec, hi, hw, slotOf, e, hv, hd]

/-- C47. In an accepted input, two adjacent records with different numbers can be exchanged: the result is the same. -/
theorem C47_record_order {env : Env} (hr : ReadsOK env) (t : TypeId) (hs : DistinctSlots (env t).fields)
    (a u w b : Bytes) (n1 w1 : Nat) (d1 : Bytes) (n2 w2 : Nat) (d2 : Bytes) (vs vs1 : List Val) (m : Arg)
    (ha : unmarshal env a (.msg t (.struct vs)) = .ok ⟨.msg t (.struct vs1), none⟩)
    (hu : Record u n1 w1 d1) (hw : Record w n2 w2 d2) (hne : n1 ≠ n2)
    (hb1 : ∀ f ∈ (env t).fields, keyNumber f.tag.wiretag = n1 → f.codec.isBool → d1.length = 1)
    (hb2 : ∀ f ∈ (env t).fields, keyNumber f.tag.wiretag = n2 → f.codec.isBool → d2.length = 1)
    (h : unmarshal env (a ++ (u ++ (w ++ b))) (.msg t (.struct vs)) = .ok ⟨m, none⟩) :
    unmarshal env (a ++ (w ++ (u ++ b))) (.msg t (.struct vs)) = .ok ⟨m, none⟩ := by
  rw [C07_concat_is_merge t _ _ _ _ ha] at h ⊢
  have e1 : ∀ f, idxM env t n1 = some f → f.wt = w1 → ExactOn f.dec d1 := by
    rintro f hi rfl
    obtain ⟨p, _, hp, _⟩ := hu
    exact exactOn_M hr hi hp hb1
  have e2 : ∀ f, idxM env t n2 = some f → f.wt = w2 → ExactOn f.dec d2 := by
    rintro f hi rfl
    obtain ⟨p, _, hp, _⟩ := hw
    exact exactOn_M hr hi hp hb2
  obtain ⟨vs', o', rfl, ho, hrun⟩ := unmarshal_inv h
  cases o' with
  | some e => simp at ho
  | none =>
    clear ho
    apply unmarshal_ok_iff.mpr
    rw [stepS_record hu e1] at hrun
    rw [stepS_record hw e2]
    rcases hA : applyRec (idxM env t) (n1, w1, d1) vs1 with er | ⟨vsA, _ | er⟩ <;> rw [hA] at hrun <;>
      simp only [andThen] at hrun
    · simp at hrun
    · rw [stepS_record hw e2] at hrun
      rcases hB : applyRec (idxM env t) (n2, w2, d2) vsA with er | ⟨vsB, _ | er⟩ <;> rw [hB] at hrun <;>
        simp only [andThen] at hrun
      · simp at hrun
      · -- both records succeed
        suffices hsw : ∃ vsC, applyRec (idxM env t) (n2, w2, d2) vs1 = .ok (vsC, none) ∧
            applyRec (idxM env t) (n1, w1, d1) vsC = .ok (vsB, none) by
          obtain ⟨vsC, h1, h2⟩ := hsw
          rw [h1]; simp only [andThen]
          rw [stepS_record hu e1, h2]
          exact hrun
        rcases applyRec_slot hB vs1 with ⟨i2, rfl, s2⟩ | ⟨g, y, i2, rfl, s2⟩
        · rcases applyRec_slot hA vs1 with ⟨i1, rfl, s1⟩ | ⟨f, x, i1, rfl, s1⟩
          · exact ⟨_, s2, s1⟩
          · exact ⟨_, s2, s1 rfl⟩
        · rcases applyRec_slot hA (vs1.set g.offset y) with ⟨i1, rfl, s1⟩ | ⟨f, x, i1, rfl, s1⟩
          · exact ⟨_, s2 rfl, s1⟩
          · have hoff : f.offset ≠ g.offset := by
              obtain ⟨f', hf', rfl⟩ := idxM_some i1
              obtain ⟨g', hg', rfl⟩ := idxM_some i2
              intro e
              have := hs f' hf'.mem g' hg'.mem e
              subst this
              exact hne (hf'.num.symm.trans hg'.num)
            refine ⟨_, s2 (List.getElem?_set_ne hoff).symm, ?_⟩
            rw [s1 (List.getElem?_set_ne hoff.symm), List.set_comm _ _ hoff]
      · simp at hrun
    · simp at hrun

example : ∃ m, unmarshal Sample.env ([] ++ ([8#8, 3#8] ++ ([74#8, 1#8, 5#8] ++ [26#8, 0#8]))) (.msg 0 Sample.node) =
    .ok ⟨m, none⟩ := ⟨_, rfl⟩

end Pb.Props
