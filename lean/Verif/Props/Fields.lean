import Verif.Proofs.Fields
import Verif.Props.RoundTrip
/-
C16-C18, C24, C28, C29, C34, C49: what the records of one field do to it.

Two kinds of statements: the effect of one record after any accepted part and with anything following, as an equation
between calls of Unmarshal; and the contents of the field after an accepted input, in terms of the payloads of its
records in input order. `Declared (env t).fields num f` says that `f` carries the number `num` on input.
-/
namespace Pb.Props
open Spec

/-! ### C16 -/

/-- C16. One record of a singular field, after any accepted part and whatever follows: the field holds what the payload
denotes (`Latest` does not mention the old contents), nothing else changes, and decoding goes on after the record.
Missing: bool payloads of more than one byte, for which it is false (`C28_multi_byte_bool_desyncs`). -/
theorem C16_record_replaces_partial {L : Layout} {env : Env} (hwf : WFEnv L env) (hr : ReadsOK env) (t : TypeId)
    (a u r data : Bytes) (num : Nat) (f : Field) (vs vs1 : List Val) (hv : FitsMsg L t (.struct vs1))
    (ha : unmarshal env a (.msg t (.struct vs)) = .ok ⟨.msg t (.struct vs1), none⟩)
    (hf : Declared (env t).fields num f) (hs : f.codec.isSingular) (hu : Record u num (keyType f.tag.wiretag) data)
    (hb : f.codec.isBool → data.length = 1) :
    ∃ new, Latest f.codec data new ∧
      unmarshal env (a ++ (u ++ r)) (.msg t (.struct vs)) = unmarshal env r (.msg t (.struct (vs1.set f.offset new))) := by
  obtain ⟨old, _, ho, hfit⟩ := slotOf_fits (fitsL_of_msg hv) (hwf.slot t f hf.mem)
  obtain ⟨p, _, hp, _⟩ := id hu
  obtain ⟨new, h1, h2⟩ := dec_singular (env := env) hs (hwf.codec t f hf.mem) (hr t f hf.mem) hp hb hfit
  exact ⟨new, h2, unmarshal_known ha hf hu ho h1⟩

/-- C16. After an accepted input, a singular field holds what the last of its payloads denotes.
Missing: inputs with bool payloads of more than one byte, for which it is false (`C28_multi_byte_bool_desyncs`). -/
theorem C16_last_wins_partial {L : Layout} {env : Env} (hwf : WFEnv L env) (hr : ReadsOK env) (t : TypeId) (b : Bytes)
    (rs : List (Nat × Nat × Bytes)) (vs vs' : List Val) (num : Nat) (f : Field) (ds : List Bytes) (d : Bytes)
    (hv : FitsMsg L t (.struct vs)) (hd : DistinctSlots (env t).fields) (hb : BoolsShort (env t).fields b)
    (hrs : Records b rs) (h : unmarshal env b (.msg t (.struct vs)) = .ok ⟨.msg t (.struct vs'), none⟩)
    (hf : Declared (env t).fields num f) (hs : f.codec.isSingular) (hp : payloadsFor num rs = ds ++ [d]) :
    ∃ new, vs'[f.offset]? = some new ∧ Latest f.codec d new := by
  obtain ⟨old, _, ho, hfit⟩ := slotOf_fits (fitsL_of_msg hv) (hwf.slot t f hf.mem)
  obtain ⟨new, h1, h2⟩ := slot_of_accepted hr hb hd hrs h hf ho
  obtain ⟨hpay, hbool⟩ := payloadsFor_wt hr hb hrs h hf d (by rw [hp]; simp)
  rw [hp] at h2
  obtain ⟨w, m, h3, h4⟩ := decAll_snoc h2
  have hw := decAll_fits hwf (hwf.codec t f hf.mem) h3 hfit
  obtain ⟨new', h5, h6⟩ := dec_singular (env := env) hs (hwf.codec t f hf.mem) (hr t f hf.mem) hpay hbool hw
  rw [h4] at h5
  simp at h5
  exact ⟨new, h1, h5.1 ▸ h6⟩

/-- C16. A field without records keeps its contents; `Latest` is functional, so the two theorems determine the field. -/
theorem C16_absent_kept {env : Env} (hr : ReadsOK env) (t : TypeId) (b : Bytes)
    (rs : List (Nat × Nat × Bytes)) (vs vs' : List Val) (num : Nat) (f : Field) (old : Val)
    (hd : DistinctSlots (env t).fields) (hb : BoolsShort (env t).fields b)
    (hrs : Records b rs) (h : unmarshal env b (.msg t (.struct vs)) = .ok ⟨.msg t (.struct vs'), none⟩)
    (hf : Declared (env t).fields num f) (ho : vs[f.offset]? = some old) (hp : payloadsFor num rs = []) :
    vs'[f.offset]? = some old := by
  obtain ⟨new, h1, h2⟩ := slot_of_accepted hr hb hd hrs h hf ho
  rw [hp] at h2
  cases h2
  exact h1

theorem C16_latest_functional (c : Codec) (data : Bytes) (v w : Val) (h : Latest c data v) (h' : Latest c data w) : v = w :=
  latest_unique h h'

theorem Sample.declared_id : Declared (Sample.env 0).fields 1 ⟨0, Sample.mkTag 1 0, .normal .int32⟩ :=
  ⟨[], _, rfl, by decide, by simp [Sample.mkTag, keyNumber]⟩

/-- `08 03 4a 01 05 08 07`: two records of `Id` around an unknown one. -/
theorem Sample.two_ids : Records [8#8, 3#8, 74#8, 1#8, 5#8, 8#8, 7#8] [(1, 0, [3#8]), (9, 2, [1#8, 5#8]), (1, 0, [7#8])] :=
  .cons [8#8, 3#8] _ _ _ _ _ (Sample.rec_id 3#8 (by decide)) (.cons [74#8, 1#8, 5#8] _ _ _ _ _ (Sample.rec_unknown 5#8)
    (.cons [8#8, 7#8] [] _ _ _ _ (Sample.rec_id 7#8 (by decide)) .nil))

example : ∃ vs', unmarshal Sample.env [8#8, 3#8, 74#8, 1#8, 5#8, 8#8, 7#8] (.msg 0 Sample.emptyNode) =
      .ok ⟨.msg 0 (.struct vs'), none⟩ ∧ vs'[0]? = some (.w32 7#32) ∧
    payloadsFor 1 [(1, 0, [3#8]), (9, 2, [1#8, 5#8]), (1, 0, [7#8])] = [[3#8]] ++ [[7#8]] ∧
    Latest (.normal .int32) [7#8] (.w32 7#32) :=
  ⟨_, rfl, rfl, rfl, .normal _ _ _ (.int32 [7#8] 7 ⟨.last 7#8 (by decide), by decide, by decide⟩)⟩

/-! ### C17, C34 -/

/-- C17. One record of a repeated field of scalars, strings, byte slices or pointers to scalars, after any accepted part
and whatever follows: one element is appended, holding what the payload denotes; the elements present stay as they are.
Missing: bool payloads of more than one byte, for which it is false (`C17_false_for_bool`). -/
theorem C17_record_appends_partial {L : Layout} {env : Env} (hwf : WFEnv L env) (hr : ReadsOK env) (t : TypeId)
    (a u r data : Bytes) (num : Nat) (f : Field) (z : Val) (c : Codec) (vs vs1 : List Val) (n : Bool) (es sp : List Val)
    (hv : FitsMsg L t (.struct vs1))
    (ha : unmarshal env a (.msg t (.struct vs)) = .ok ⟨.msg t (.struct vs1), none⟩)
    (hf : Declared (env t).fields num f) (hc : f.codec = .slice z c) (hs : c.isSingular)
    (ho : vs1[f.offset]? = some (.slice n es sp))
    (hu : Record u num (keyType f.tag.wiretag) data) (hb : c.isBool → data.length = 1) :
    ∃ new n' sp', Latest c data new ∧ unmarshal env (a ++ (u ++ r)) (.msg t (.struct vs)) =
      unmarshal env r (.msg t (.struct (vs1.set f.offset (.slice n' (es ++ [new]) sp')))) := by
  have hfit : Fits L f.codec.shape (.slice n es sp) := (fitsL_of_msg hv).2 _ _ _ (hwf.slot t f hf.mem) ho
  have hcw := hwf.codec t f hf.mem
  have hcr := hr t f hf.mem
  rw [hc] at hfit hcw hcr
  obtain ⟨slot, sp', hg, hs'⟩ := growIfFull_cons z es sp
  have hsf : Fits L c.shape slot := by
    simp only [Codec.shape] at hfit
    cases hfit with
    | slice _ _ _ _ _ _ hsp =>
      rcases hs' with ⟨_, rfl, _⟩ | rfl
      · rw [hcw.1]; exact fits_zero _ _
      · exact hsp _ (by simp)
  obtain ⟨p, _, hp, _⟩ := id hu
  obtain ⟨new, h1, h2⟩ := dec_singular (env := env) hs hcw.2 hcr hp hb hsf
  obtain ⟨n', h3⟩ := dec_slice_ok (n := n) hg h1
  exact ⟨new, n', sp', h2, unmarshal_known ha hf hu ho (by rw [hc]; exact h3)⟩

/-- C17. The same for a repeated message field: the appended element is what Unmarshal makes of the record's body in the
slot after the last element (nil for a new slot, otherwise what the spare capacity held, see C34). If that fails, so does
the outer Unmarshal, and no element is appended. -/
theorem C17_record_appends_message {L : Layout} {env : Env} (hwf : WFEnv L env) (t : TypeId)
    (a u r data body : Bytes) (num : Nat) (f : Field) (z : Val) (t' : TypeId) (vs vs1 : List Val) (n : Bool)
    (es sp : List Val) (hv : FitsMsg L t (.struct vs1))
    (ha : unmarshal env a (.msg t (.struct vs)) = .ok ⟨.msg t (.struct vs1), none⟩)
    (hf : Declared (env t).fields num f) (hc : f.codec = .slice z (.msg t'))
    (ho : vs1[f.offset]? = some (.slice n es sp))
    (hu : Record u num (keyType f.tag.wiretag) data) (hb : BytesAs data body) :
    ∃ v0 n' sp', (v0 = (env t').zero ∨ sp.head? = some (.ptr v0)) ∧ (sp = [] ∨ sp.head? = some .nilp → v0 = (env t').zero) ∧
      ((∃ v, unmarshal env body (.msg t' v0) = .ok ⟨.msg t' v, none⟩ ∧
        unmarshal env (a ++ (u ++ r)) (.msg t (.struct vs)) =
          unmarshal env r (.msg t (.struct (vs1.set f.offset (.slice n' (es ++ [.ptr v]) sp'))))) ∨
      (∃ v e, unmarshal env body (.msg t' v0) = .ok ⟨.msg t' v, some (.decode e)⟩ ∧
        unmarshal env (a ++ (u ++ r)) (.msg t (.struct vs)) =
          .ok ⟨.msg t (.struct (vs1.set f.offset (.slice n' es (.ptr v :: sp')))),
            some (.decode (.field num (keyType f.tag.wiretag) e))⟩)) := by
  have hfit : Fits L f.codec.shape (.slice n es sp) := (fitsL_of_msg hv).2 _ _ _ (hwf.slot t f hf.mem) ho
  have hcw := hwf.codec t f hf.mem
  rw [hc] at hfit hcw
  have hz : z = .nilp := hcw.1
  obtain ⟨slot, sp', hg, hs'⟩ := growIfFull_cons z es sp
  have hsf : Fits L (.msg t') slot := by
    simp only [Codec.shape] at hfit
    cases hfit with
    | slice _ _ _ _ _ _ hsp =>
      rcases hs' with ⟨_, rfl, _⟩ | rfl
      · rw [hcw.1]; exact fits_zero _ _
      · exact hsp _ (by simp)
  have hst : ∃ ws, msgTarget (zerosOf env t') slot = .ok (.struct ws) ∧ FitsMsg L t' (.struct ws) ∧
      (.struct ws = (env t').zero ∨ sp.head? = some (.ptr (.struct ws))) ∧
      (sp = [] ∨ sp.head? = some .nilp → .struct ws = (env t').zero) := by
    have hz' := hwf.zero_fits t'
    simp only [zerosOf, hwf.zero t'] at hz'
    rcases hs' with ⟨_, rfl, _⟩ | rfl
    · subst hz
      exact ⟨_, by simp [msgTarget, zerosOf, hwf.zero t'], hz', .inl (hwf.zero t').symm, fun _ => (hwf.zero t').symm⟩
    · cases hsf with
      | msgNil => exact ⟨_, by simp [msgTarget, zerosOf, hwf.zero t'], hz', .inl (hwf.zero t').symm, fun _ => (hwf.zero t').symm⟩
      | msg _ ws h1 h2 => exact ⟨ws, rfl, .msg _ ws h1 h2, .inr rfl, by simp⟩
  obtain ⟨ws, ht, hfv, h0, h0'⟩ := hst
  have hd := dec_msg_unmarshal (env := env) hb ht
  obtain ⟨ws', o, hrun, _⟩ := runM_safe hwf t' body ws (fitsL_of_msg hfv)
  cases o with
  | none =>
    have hu' := unmarshal_ok_iff.mpr hrun
    rw [hu'] at hd
    obtain ⟨n', h3⟩ := dec_slice_ok (n := n) hg hd
    exact ⟨.struct ws, n', sp', h0, h0', .inl ⟨_, hu', unmarshal_known ha hf hu ho (by rw [hc]; exact h3)⟩⟩
  | some e =>
    have hu' := unmarshal_err_iff.mpr hrun
    rw [hu'] at hd
    obtain ⟨n', h3⟩ := dec_slice_err (n := n) hg hd
    exact ⟨.struct ws, n', sp', h0, h0', .inr ⟨_, e, hu', unmarshal_known_err ha hf hu ho (by rw [hc]; exact h3)⟩⟩

/-- C17. After an accepted input, a repeated field holds its old elements, unchanged and in front, and then exactly one
element per record, in input order. Elements that are scalars, strings, byte slices or pointers to them hold what their
record's payload denotes, whatever the slice's spare capacity held.
Missing: inputs with bool payloads of more than one byte. -/
theorem C17_appends_partial {L : Layout} {env : Env} (hwf : WFEnv L env) (hr : ReadsOK env) (t : TypeId) (b : Bytes)
    (rs : List (Nat × Nat × Bytes)) (vs vs' : List Val) (num : Nat) (f : Field) (z : Val) (c : Codec) (n : Bool)
    (es sp : List Val) (hv : FitsMsg L t (.struct vs)) (hd : DistinctSlots (env t).fields)
    (hb : BoolsShort (env t).fields b) (hrs : Records b rs)
    (h : unmarshal env b (.msg t (.struct vs)) = .ok ⟨.msg t (.struct vs'), none⟩)
    (hf : Declared (env t).fields num f) (hc : f.codec = .slice z c) (ho : vs[f.offset]? = some (.slice n es sp)) :
    ∃ n' news sp', vs'[f.offset]? = some (.slice n' (es ++ news) sp') ∧ news.length = (payloadsFor num rs).length ∧
      (c.isSingular → ∀ (i : Nat) d new, (payloadsFor num rs)[i]? = some d → news[i]? = some new → Latest c d new) := by
  obtain ⟨v', h1, h2⟩ := slot_of_accepted hr hb hd hrs h hf ho
  have hwt := payloadsFor_wt hr hb hrs h hf
  have hcw := hwf.codec t f hf.mem
  have hcr := hr t f hf.mem
  have hfit : Fits L f.codec.shape (.slice n es sp) := (fitsL_of_msg hv).2 _ _ _ (hwf.slot t f hf.mem) ho
  rw [hc] at h2 hcw hcr hwt hfit
  obtain ⟨n', news, sp', rfl, hl, _, hel⟩ := decAll_slice h2
  refine ⟨n', news, sp', h1, hl, fun hs i d new hi hn => ?_⟩
  obtain ⟨slot, m, hdec, hslot⟩ := hel i d new hi hn
  obtain ⟨hpay, hbool⟩ := hwt d (List.mem_of_getElem? hi)
  have hsf : Fits L c.shape slot := by
    simp only [Codec.shape] at hfit
    cases hfit with
    | slice _ _ _ _ _ _ hsp =>
      rcases hslot with rfl | hm
      · rw [hcw.1]; exact fits_zero _ _
      · exact hsp _ hm
  obtain ⟨new', h5, h6⟩ := dec_singular (env := env) hs hcw.2 hcr hpay hbool hsf
  rw [hdec] at h5
  simp at h5
  exact h5.1 ▸ h6

-- the third element of `Vals` of `Flat`, appended where the spare capacity held something else
example : ∃ vs', unmarshal Sample.env [25#8, 0#8, 0#8, 0#8, 0#8, 0#8, 0#8, 0#8, 64#8] (.msg 1 (.struct [.b8 true, .w32 0#32,
      .slice false [.w64 1#64, .w64 2#64] [.w64 9#64], .nilp])) = .ok ⟨.msg 1 (.struct vs'), none⟩ ∧
    vs'[2]? = some (.slice false [.w64 1#64, .w64 2#64, .w64 0x4000000000000000#64] []) := ⟨_, rfl, rfl⟩

/-- A type with a repeated bool field. -/
def Sample.bools : Env := fun _ => ⟨[⟨0, Sample.mkTag 1 0, .slice (.b8 false) (.normal .bool)⟩], .struct [.slice true [] []]⟩

/-- C17 is false for bool payloads of more than one byte: `08 80 00` is one record of the field, with value 0; it appends
`true`, and the rest of the payload is taken for a record. -/
theorem C17_false_for_bool :
    Record [8#8, 128#8, 0#8] 1 0 [128#8, 0#8] ∧ Varint64 [128#8, 0#8] 0 ∧
      ∃ sp, unmarshal Sample.bools [8#8, 128#8, 0#8] (.msg 0 (.struct [.slice true [] []])) =
        .ok ⟨.msg 0 (.struct [.slice false [.b8 true] sp]), some (.decode (.field 0 0 .unexpectedEOF))⟩ := by
  have h : Varint64 [128#8, 0#8] 0 := ⟨.cont 128#8 [0#8] 0 (by decide) (.last 0#8 (by decide)), by decide, by decide⟩
  exact ⟨⟨[8#8], ⟨by decide, .last 8#8 (by decide), by decide, by decide⟩, .varint _ _ h, rfl⟩, h, _, rfl⟩

/-- C34 for slices whose spare slots, if any, are nil (in particular for slices that never were truncated and no earlier
Unmarshal failed on): an element appended to a repeated message field is exactly what Unmarshal makes of its record's
body in a new message. Missing: slices with other spare contents, for which it is false, see
`C34_false_with_stale_spare`. -/
theorem C34_fresh_elements_partial {L : Layout} {env : Env} (hwf : WFEnv L env) (hr : ReadsOK env) (t : TypeId) (b : Bytes)
    (rs : List (Nat × Nat × Bytes)) (vs vs' : List Val) (num : Nat) (f : Field) (z : Val) (t' : TypeId) (n : Bool)
    (es sp : List Val) (hd : DistinctSlots (env t).fields)
    (hb : BoolsShort (env t).fields b) (hrs : Records b rs)
    (h : unmarshal env b (.msg t (.struct vs)) = .ok ⟨.msg t (.struct vs'), none⟩)
    (hf : Declared (env t).fields num f) (hc : f.codec = .slice z (.msg t'))
    (ho : vs[f.offset]? = some (.slice n es sp)) (hsp : ∀ x ∈ sp, x = .nilp) :
    ∃ n' news sp', vs'[f.offset]? = some (.slice n' (es ++ news) sp') ∧ news.length = (payloadsFor num rs).length ∧
      (∀ x ∈ sp', x = .nilp) ∧
      ∀ (i : Nat) d new, (payloadsFor num rs)[i]? = some d → news[i]? = some new →
        ∃ body ws, BytesAs d body ∧ new = .ptr (.struct ws) ∧
          unmarshal env body (.msg t' (env t').zero) = .ok ⟨.msg t' (.struct ws), none⟩ := by
  obtain ⟨v', h1, h2⟩ := slot_of_accepted hr hb hd hrs h hf ho
  have hwt := payloadsFor_wt hr hb hrs h hf
  have hcw := hwf.codec t f hf.mem
  have hcr := hr t f hf.mem
  rw [hc] at h2 hcw hcr hwt
  have hz : z = .nilp := hcw.1
  obtain ⟨n', news, sp', rfl, hl, hsp', hel⟩ := decAll_slice h2
  refine ⟨n', news, sp', h1, hl, fun x hx => ?_, fun i d new hi hn => ?_⟩
  · rcases hsp' x hx with rfl | hx
    · exact hz
    · exact hsp x hx
  · obtain ⟨slot, m, hdec, hslot⟩ := hel i d new hi hn
    obtain ⟨hpay, _⟩ := hwt d (List.mem_of_getElem? hi)
    rw [show keyType f.tag.wiretag = 2 from hcr] at hpay
    obtain ⟨body, hbody, _⟩ := payload_varlen hpay
    have hs : slot = .nilp := by
      rcases hslot with rfl | hm
      · exact hz
      · exact hsp _ hm
    subst hs
    obtain ⟨ws, ws', h3, rfl, h4⟩ := dec_msg_inv hwf hbody (.msgNil t') hdec
    have : Val.struct ws = (env t').zero := by simpa using h3
    rw [this] at h4
    exact ⟨body, ws', hbody, rfl, h4⟩

-- a `Node` with two `Kids`
example : ∃ vs', unmarshal Sample.env [26#8, 2#8, 8#8, 3#8, 26#8, 0#8] (.msg 0 Sample.emptyNode) =
      .ok ⟨.msg 0 (.struct vs'), none⟩ ∧
    (vs'[2]?).map Val.obs = some (.slice false [.ptr (.struct [.w32 3#32, .str [], .slice true [] [], .opt false (.w64 0#64),
      .map true [], .opaque 0, .bytes none, .nilp]), .ptr Sample.emptyNode] []) := ⟨_, rfl, rfl⟩

/-- A `Node` whose `Kids` were truncated with `m.Kids = m.Kids[:0]`: the backing array still holds a node named "A". -/
def Sample.truncated : List Val :=
  [.w32 0#32, .str [], .slice false [] [.ptr (.struct [.w32 1#32, .str [65#8], .slice true [] [], .opt false (.w64 0#64),
    .map true [], .opaque 0, .bytes none, .nilp])], .opt false (.w64 0#64), .map true [], .opaque 0, .bytes none, .nilp]

/-- C34 is false for slices with stale spare slots: after `m.Kids = m.Kids[:0]`, Unmarshal of one `Kids` record that only
sets the `Id` yields a node that still has the name of the node dropped earlier. -/
theorem C34_false_with_stale_spare :
    ∃ vs', unmarshal Sample.env [26#8, 2#8, 8#8, 5#8] (.msg 0 (.struct Sample.truncated)) = .ok ⟨.msg 0 (.struct vs'), none⟩ ∧
      vs'[2]? = some (.slice false [.ptr (.struct [.w32 5#32, .str [65#8], .slice true [] [], .opt false (.w64 0#64),
        .map true [], .opaque 0, .bytes none, .nilp])] []) ∧
      ¬ ∃ ws, unmarshal Sample.env [8#8, 5#8] (.msg 0 Sample.emptyNode) = .ok ⟨.msg 0 (.struct ws), none⟩ ∧
        ws[1]? = some (.str [65#8]) := by
  refine ⟨_, rfl, rfl, ?_⟩
  rintro ⟨ws, h1, h2⟩
  have h3 : unmarshal Sample.env [8#8, 5#8] (.msg 0 Sample.emptyNode) = .ok ⟨.msg 0 (.struct [.w32 5#32, .str [],
    .slice true [] [], .opt false (.w64 0#64), .map true [], .opaque 0, .bytes none, .nilp]), none⟩ := rfl
  rw [h3] at h1
  simp at h1
  subst h1
  simp at h2

/-! ### C18 -/

/-- C18. One record of a nested message field, after any accepted part and whatever follows: if Unmarshal of the record's
body into the existing nested message, or into a new zero message if there is none, succeeds, its result is the new
nested message and decoding goes on after the record; if it fails, so does the outer Unmarshal, with the same error
wrapped, and the nested message as the inner call left it. -/
theorem C18_record_merges {L : Layout} {env : Env} (hwf : WFEnv L env) (t : TypeId)
    (a u r data body : Bytes) (num : Nat) (f : Field) (t' : TypeId) (vs vs1 : List Val) (old v0 : Val)
    (hv : FitsMsg L t (.struct vs1))
    (ha : unmarshal env a (.msg t (.struct vs)) = .ok ⟨.msg t (.struct vs1), none⟩)
    (hf : Declared (env t).fields num f) (hc : f.codec = .msg t') (hu : Record u num (keyType f.tag.wiretag) data)
    (hb : BytesAs data body) (ho : vs1[f.offset]? = some old)
    (h0 : old = .nilp ∧ v0 = (env t').zero ∨ old = .ptr v0) :
    (∃ v, unmarshal env body (.msg t' v0) = .ok ⟨.msg t' v, none⟩ ∧
      unmarshal env (a ++ (u ++ r)) (.msg t (.struct vs)) = unmarshal env r (.msg t (.struct (vs1.set f.offset (.ptr v))))) ∨
    (∃ v e, unmarshal env body (.msg t' v0) = .ok ⟨.msg t' v, some (.decode e)⟩ ∧
      unmarshal env (a ++ (u ++ r)) (.msg t (.struct vs)) =
        .ok ⟨.msg t (.struct (vs1.set f.offset (.ptr v))), some (.decode (.field num (keyType f.tag.wiretag) e))⟩) := by
  have hfit : Fits L (.msg t') old := by
    have := (fitsL_of_msg hv).2 _ _ _ (hwf.slot t f hf.mem) ho
    rwa [hc] at this
  have hst : ∃ ws, v0 = .struct ws ∧ msgTarget (zerosOf env t') old = .ok (.struct ws) := by
    rcases h0 with ⟨rfl, rfl⟩ | rfl
    · exact ⟨_, hwf.zero t', by simp [msgTarget, zerosOf, hwf.zero t']⟩
    · cases hfit with
      | msg _ ws _ _ => exact ⟨ws, rfl, rfl⟩
  obtain ⟨ws, rfl, ht⟩ := hst
  have hd := dec_msg_unmarshal (env := env) hb ht
  have hfv0 : FitsMsg L t' (.struct ws) := by
    rcases h0 with ⟨rfl, h0⟩ | rfl
    · have := hwf.zero_fits t'
      rw [h0]; exact this
    · exact hfit
  obtain ⟨ws', o, hrun, _⟩ := runM_safe hwf t' body ws (fitsL_of_msg hfv0)
  cases o with
  | none =>
    have hu' := unmarshal_ok_iff.mpr hrun
    rw [hu'] at hd
    exact .inl ⟨_, hu', unmarshal_known ha hf hu ho (by rw [hc]; exact hd)⟩
  | some e =>
    have hu' := unmarshal_err_iff.mpr hrun
    rw [hu'] at hd
    exact .inr ⟨_, e, hu', unmarshal_known_err ha hf hu ho (by rw [hc]; exact hd)⟩

/-- C18. After an accepted input with records for a nested message field, the field holds what Unmarshal makes of the
concatenation of their bodies, starting from the existing nested message or a new zero message (inputs in which
bool fields of the outer message have payloads of more than one byte are excluded, see C28; `C18_record_merges` has no
such restriction). -/
theorem C18_bodies_merge {L : Layout} {env : Env} (hwf : WFEnv L env) (hr : ReadsOK env) (t : TypeId) (b : Bytes)
    (rs : List (Nat × Nat × Bytes)) (vs vs' : List Val) (num : Nat) (f : Field) (t' : TypeId) (old v0 : Val)
    (bodies : List Bytes) (hv : FitsMsg L t (.struct vs)) (hd : DistinctSlots (env t).fields)
    (hb : BoolsShort (env t).fields b) (hrs : Records b rs)
    (h : unmarshal env b (.msg t (.struct vs)) = .ok ⟨.msg t (.struct vs'), none⟩)
    (hf : Declared (env t).fields num f) (hc : f.codec = .msg t') (ho : vs[f.offset]? = some old)
    (h0 : old = .nilp ∧ v0 = (env t').zero ∨ old = .ptr v0)
    (hbs : Bodies (payloadsFor num rs) bodies) (hne : bodies ≠ []) :
    ∃ v, vs'[f.offset]? = some (.ptr v) ∧ unmarshal env bodies.flatten (.msg t' v0) = .ok ⟨.msg t' v, none⟩ := by
  obtain ⟨new, h1, h2⟩ := slot_of_accepted hr hb hd hrs h hf ho
  have hfit : Fits L (.msg t') old := by
    have := (fitsL_of_msg hv).2 _ _ _ (hwf.slot t f hf.mem) ho
    rwa [hc] at this
  rw [hc] at h2
  generalize payloadsFor num rs = ds at hbs h2
  cases hbs with
  | nil => exact absurd rfl hne
  | cons d ds body bs hd' hbs =>
    cases h2 with
    | cons _ _ _ w _ m h3 h4 =>
      have hw : Fits L (.msg t') w := dec_fits hwf (c := .msg t') trivial hfit h3
      obtain ⟨ws, ws', h5, rfl, h6⟩ := dec_msg_inv hwf hd' hfit h3
      have : v0 = .struct ws := by
        rcases h0 with ⟨rfl, rfl⟩ | rfl
        · simpa [eq_comm] using h5
        · simpa using h5
      subst this
      obtain ⟨vs2, rfl, h7⟩ := decAll_msg hwf hbs hw h4
      exact ⟨_, h1, by rw [List.flatten_cons, C07_concat_is_merge t' _ _ _ _ h6, h7]⟩

-- two records of `Next`: `Id` from the first, `Name` from the second
example : ∃ vs', unmarshal Sample.env [58#8, 2#8, 8#8, 3#8, 58#8, 3#8, 18#8, 1#8, 65#8] (.msg 0 Sample.emptyNode) =
      .ok ⟨.msg 0 (.struct vs'), none⟩ ∧
    vs'[7]? = some (.ptr (.struct [.w32 3#32, .str [65#8], .slice true [] [], .opt false (.w64 0#64),
      .map true [], .opaque 0, .bytes none, .nilp])) ∧
    Bodies [[2#8, 8#8, 3#8], [3#8, 18#8, 1#8, 65#8]] [[8#8, 3#8], [18#8, 1#8, 65#8]] :=
  ⟨_, rfl, rfl, .cons _ _ _ _ ⟨[2#8], ⟨.last 2#8 (by decide), by decide, by decide⟩, rfl⟩
    (.cons _ _ _ _ ⟨[3#8], ⟨.last 3#8 (by decide), by decide, by decide⟩, rfl⟩ .nil)⟩

/-! ### C24 -/

/-- C24. One record of a map field, after any accepted part and whatever follows: its body is read as an entry, into a new
zero entry. If that succeeds the value is assigned to the key: it is found under the key afterwards, and what is found
under other keys is unchanged. If it fails, so does the outer Unmarshal, and the entries are as before. -/
theorem C24_record_assigns {L : Layout} {env : Env} (hwf : WFEnv L env) (t e : TypeId)
    (a u r data body : Bytes) (num : Nat) (f : Field) (i : MapInfo) (kc vc kd vd : Codec) (vs vs1 : List Val) (n : Bool)
    (m : List (Key × Val)) (hv : FitsMsg L t (.struct vs1))
    (ha : unmarshal env a (.msg t (.struct vs)) = .ok ⟨.msg t (.struct vs1), none⟩)
    (hf : Declared (env t).fields num f) (hc : f.codec = .map i kc vc kd vd)
    (ho : vs1[f.offset]? = some (.map n m)) (he : (env e).fields = entryFields i kd vd)
    (hu : Record u num (keyType f.tag.wiretag) data) (hb : BytesAs data body) :
    (∃ k v m', unmarshal env body (.msg e (.struct [i.kzero, i.vzero])) = .ok ⟨.msg e (.struct [k.toVal, v]), none⟩ ∧
      (m'.map Prod.fst).Nodup ∧ m'.lookup k = some v ∧ (∀ k', k' ≠ k → m'.lookup k' = m.lookup k') ∧
      unmarshal env (a ++ (u ++ r)) (.msg t (.struct vs)) =
        unmarshal env r (.msg t (.struct (vs1.set f.offset (.map false m'))))) ∨
    (∃ w er, unmarshal env body (.msg e (.struct [i.kzero, i.vzero])) = .ok ⟨.msg e w, some (.decode er)⟩ ∧
      unmarshal env (a ++ (u ++ r)) (.msg t (.struct vs)) =
        .ok ⟨.msg t (.struct (vs1.set f.offset (.map false m))), some (.decode (.field num (keyType f.tag.wiretag) er))⟩) := by
  have hfit : Fits L f.codec.shape (.map n m) := (fitsL_of_msg hv).2 _ _ _ (hwf.slot t f hf.mem) ho
  have hcw := hwf.codec t f hf.mem
  rw [hc] at hfit hcw
  rcases codec_safe hwf _ hcw data _ hfit with ⟨v', l, hd, hf'⟩ | ⟨v', er, hd, _⟩
  · left
    obtain ⟨kv, k, v, m', h1, h2, h3, rfl⟩ := dec_map_inv he hb hd
    have hkv : k.toVal = kv := by
      cases kv <;> simp [Val.toKey?] at h2 <;> subst h2 <;> rfl
    have hl := dec_map_len he hb hd
    subst hl
    refine ⟨k, v, m', by rw [hkv]; exact h1, ?_, ?_, ?_, unmarshal_known ha hf hu ho (by rw [hc]; exact hd)⟩
    · simp only [Codec.shape] at hf'
      cases hf' with
      | map _ _ _ _ _ h _ _ => exact h
    · rw [lookup_assign h3]; simp
    · intro k' hk'; rw [lookup_assign h3, List.lookup_cons, beq_false_of_ne hk']
  · right
    obtain ⟨w, h1, rfl⟩ := dec_map_err_inv he hb hd
    exact ⟨w, er, h1, unmarshal_known_err ha hf hu ho (by rw [hc]; exact hd)⟩

/-- C24. After an accepted input, a map field holds its old entries updated by one assignment per record, in input order:
a key has the value of the last record with that key, or its old value if there is none. The keys and values are what
Unmarshal finds in the record bodies, each read into a new zero entry (`Entries`); `e` is a message type with the two
fields of a map entry. -/
theorem C24_assignments {L : Layout} {env : Env} (hwf : WFEnv L env) (hr : ReadsOK env) (t e : TypeId) (b : Bytes)
    (rs : List (Nat × Nat × Bytes)) (vs vs' : List Val) (num : Nat) (f : Field) (i : MapInfo) (kc vc kd vd : Codec)
    (n : Bool) (m : List (Key × Val)) (bodies : List Bytes)
    (hv : FitsMsg L t (.struct vs)) (hd : DistinctSlots (env t).fields)
    (hb : BoolsShort (env t).fields b) (hrs : Records b rs)
    (h : unmarshal env b (.msg t (.struct vs)) = .ok ⟨.msg t (.struct vs'), none⟩)
    (hf : Declared (env t).fields num f) (hc : f.codec = .map i kc vc kd vd) (ho : vs[f.offset]? = some (.map n m))
    (he : (env e).fields = entryFields i kd vd) (hbs : Bodies (payloadsFor num rs) bodies) :
    ∃ n' m' kvs, vs'[f.offset]? = some (.map n' m') ∧ (bodies ≠ [] → n' = false) ∧ Entries env e i bodies kvs ∧
      (m'.map Prod.fst).Nodup ∧ ∀ k, m'.lookup k = (kvs.reverse ++ m).lookup k := by
  obtain ⟨new, h1, h2⟩ := slot_of_accepted hr hb hd hrs h hf ho
  have hfit : Fits L f.codec.shape (.map n m) := (fitsL_of_msg hv).2 _ _ _ (hwf.slot t f hf.mem) ho
  have hfit' := decAll_fits hwf (hwf.codec t f hf.mem) h2 hfit
  rw [hc] at h2 hfit'
  obtain ⟨n', m', kvs, rfl, hn, hkv, hl⟩ := decAll_map he hbs h2
  refine ⟨n', m', kvs, h1, fun hne => hn (fun e => ?_), hkv, ?_, hl⟩
  · rw [e] at hbs; cases hbs; exact hne rfl
  · simp only [Codec.shape] at hfit'
    cases hfit' with
    | map _ _ _ _ _ h _ _ => exact h

/-- C24. A record without contents assigns the zero value to the zero key. -/
theorem C24_missing_parts (env : Env) (e : TypeId) (i : MapInfo) :
    unmarshal env [] (.msg e (.struct [i.kzero, i.vzero])) = .ok ⟨.msg e (.struct [i.kzero, i.vzero]), none⟩ := rfl

/-- C24. A key or value that has no record in the entry body is zero; one that has is what its last record denotes
(entries of scalars, strings and byte slices; entry bodies with multi-byte bools excluded). -/
theorem C24_entry_parts {L : Layout} {env : Env} (hwf : WFEnv L env) (hr : ReadsOK env) (e : TypeId) (i : MapInfo)
    (kd vd : Codec) (body : Bytes) (rs : List (Nat × Nat × Bytes)) (kv v : Val)
    (he : (env e).fields = entryFields i kd vd) (hz : (env e).zero = .struct [i.kzero, i.vzero])
    (hne : keyNumber i.eKey ≠ keyNumber i.eVal) (hb : BoolsShort (env e).fields body) (hrs : Records body rs)
    (h : unmarshal env body (.msg e (.struct [i.kzero, i.vzero])) = .ok ⟨.msg e (.struct [kv, v]), none⟩) :
    (payloadsFor (keyNumber i.eKey) rs = [] → kv = i.kzero) ∧ (payloadsFor (keyNumber i.eVal) rs = [] → v = i.vzero) ∧
    (kd.isSingular → ∀ ds d, payloadsFor (keyNumber i.eKey) rs = ds ++ [d] → Latest kd d kv) ∧
    (vd.isSingular → ∀ ds d, payloadsFor (keyNumber i.eVal) rs = ds ++ [d] → Latest vd d v) := by
  have hds : DistinctSlots (env e).fields := by
    rw [he]
    intro f hf g hg
    simp only [entryFields, List.mem_cons, List.not_mem_nil, or_false] at hf hg
    rcases hf with rfl | rfl <;> rcases hg with rfl | rfl <;> simp
  have hk : Declared (env e).fields (keyNumber i.eKey) ⟨0, ⟨i.eKey, 0⟩, kd⟩ :=
    ⟨[], _, he, rfl, by simpa using fun h => hne h.symm⟩
  have hvl : Declared (env e).fields (keyNumber i.eVal) ⟨1, ⟨i.eVal, 0⟩, vd⟩ := ⟨[_], [], he, rfl, by simp⟩
  have hfit : FitsMsg L e (.struct [i.kzero, i.vzero]) := by
    have := hwf.zero_fits e
    simp only [zerosOf, hz] at this
    exact this
  refine ⟨fun hp => ?_, fun hp => ?_, fun hs ds d hp => ?_, fun hs ds d hp => ?_⟩
  · have := C16_absent_kept hr e body rs _ _ _ _ i.kzero hds hb hrs h hk rfl hp
    simpa using this
  · have := C16_absent_kept hr e body rs _ _ _ _ i.vzero hds hb hrs h hvl rfl hp
    simpa using this
  · obtain ⟨new, h1, h2⟩ := C16_last_wins_partial hwf hr e body rs _ _ _ _ ds d hfit hds hb hrs h hk hs hp
    have : kv = new := by simpa using h1
    rw [this]; exact h2
  · obtain ⟨new, h1, h2⟩ := C16_last_wins_partial hwf hr e body rs _ _ _ _ ds d hfit hds hb hrs h hvl hs hp
    have : v = new := by simpa using h1
    rw [this]; exact h2

-- `Attr` of `Node`, with "A" set twice and an entry without value
example : ∃ vs', unmarshal Sample.env [42#8, 6#8, 10#8, 1#8, 65#8, 18#8, 1#8, 66#8, 42#8, 3#8, 10#8, 1#8, 65#8]
      (.msg 0 Sample.emptyNode) = .ok ⟨.msg 0 (.struct vs'), none⟩ ∧
    vs'[4]? = some (.map false [(.str [65#8], .str [])]) := ⟨_, rfl, rfl⟩

/-! ### C28 -/

/-- C28 for payloads of one byte: the field is (value ≠ 0) and decoding goes on after the record. Missing: longer
payloads, for which it is false, see `C28_multi_byte_bool_desyncs`. -/
theorem C28_one_byte_partial {L : Layout} {env : Env} (hwf : WFEnv L env) (t : TypeId) (a u r : Bytes) (c : Byte) (num : Nat)
    (f : Field) (vs vs1 : List Val) (hv : FitsMsg L t (.struct vs1))
    (ha : unmarshal env a (.msg t (.struct vs)) = .ok ⟨.msg t (.struct vs1), none⟩)
    (hf : Declared (env t).fields num f) (hc : f.codec = .normal .bool)
    (hu : Record u num (keyType f.tag.wiretag) [c]) :
    unmarshal env (a ++ (u ++ r)) (.msg t (.struct vs)) =
      unmarshal env r (.msg t (.struct (vs1.set f.offset (.b8 (c.toNat ≠ 0))))) := by
  obtain ⟨old, _, ho, hfit⟩ := slotOf_fits (fitsL_of_msg hv) (hwf.slot t f hf.mem)
  refine unmarshal_known ha hf hu ho ?_
  rw [hc] at hfit ⊢
  simp only [Codec.shape, Scalar.shape] at hfit
  cases hfit with
  | b8 x =>
    have : decide (c ≠ 0#8) = decide (c.toNat ≠ 0) := by
      rw [decide_eq_decide]
      exact not_congr ⟨by rintro rfl; rfl, fun h => BitVec.eq_of_toNat_eq (by simpa using h)⟩
    show decodeScalar .bool [c] (.b8 x) = _
    simp only [decodeScalar, writeB8, bind, Except.bind, pure, Except.pure, ← this]
    rfl

/-- C28 is false for payloads of more than one byte, for every message type with a plain bool field and every such
payload: the field becomes true whatever the value (also 0), and decoding goes on in the middle of the payload. -/
theorem C28_multi_byte_bool_desyncs {L : Layout} {env : Env} (hwf : WFEnv L env) (t : TypeId) (a p r : Bytes) (c c' : Byte)
    (cs : Bytes) (n num : Nat) (f : Field) (vs vs1 : List Val) (hv : FitsMsg L t (.struct vs1))
    (ha : unmarshal env a (.msg t (.struct vs)) = .ok ⟨.msg t (.struct vs1), none⟩)
    (hf : Declared (env t).fields num f) (hc : f.codec = .normal .bool) (hw : keyType f.tag.wiretag = 0)
    (hp : TagBytes p num 0) (hd : Varint64 (c :: c' :: cs) n) :
    unmarshal env (a ++ (p ++ (c :: c' :: cs ++ r))) (.msg t (.struct vs)) =
      unmarshal env (c' :: cs ++ r) (.msg t (.struct (vs1.set f.offset (.b8 true)))) := by
  obtain ⟨old, _, ho, hfit⟩ := slotOf_fits (fitsL_of_msg hv) (hwf.slot t f hf.mem)
  rw [hc] at hfit
  simp only [Codec.shape, Scalar.shape] at hfit
  have hne : c ≠ 0#8 := by
    rintro rfl
    cases hd.1 with
    | cont _ _ m h _ => simp at h
  have hrec : Record (p ++ (c :: c' :: cs)) num 0 (c :: c' :: cs) := ⟨p, hp, .varint _ n hd, rfl⟩
  rw [C07_concat_is_merge t _ _ _ _ ha, ← List.append_assoc, unmarshal_eq, unmarshal_eq,
    run_cons _ _ _ (record_ne_nil hrec)]
  have hst := stepS_known (idx := idxM env t) (f := toD (zerosOf env) (decM env) f) (u := p ++ (c :: c' :: cs))
    (num := num) (data := c :: c' :: cs) (by show Record _ _ (keyType f.tag.wiretag) _; rw [hw]; exact hrec)
    (idxM_declared hf) r vs1
  rw [hst]
  have h2 : vs1[(toD (zerosOf env) (decM env) f).offset]? = some old := ho
  cases hfit with
  | b8 x =>
    have h3 : (toD (zerosOf env) (decM env) f).dec (c :: c' :: cs) (.b8 x) = .ok (.ok (.b8 true) 1) := by
      show codecDecode _ _ f.codec _ _ = _
      rw [hc]
      simp [codecDecode, decodeScalar, writeB8, bind, Except.bind, pure, Except.pure, hne]
    simp only [slotOf, h2, h3]
    rfl

/-- C28, concretely: `08 80 00` is one record of a bool field with value 0; the field becomes true, and the rest of the
payload is taken for a record. -/
theorem C28_false_for_two_bytes :
    Record [8#8, 128#8, 0#8] 1 0 [128#8, 0#8] ∧ Varint64 [128#8, 0#8] 0 ∧
      unmarshal Sample.env [8#8, 128#8, 0#8] (.msg 2 (Sample.env 2).zero) =
        .ok ⟨.msg 2 (.struct [.b8 true, .w32 0#32]), some (.decode (.field 0 0 .unexpectedEOF))⟩ := by
  have h : Varint64 [128#8, 0#8] 0 := ⟨.cont 128#8 [0#8] 0 (by decide) (.last 0#8 (by decide)), by decide, by decide⟩
  exact ⟨⟨[8#8], ⟨by decide, .last 8#8 (by decide), by decide, by decide⟩, .varint _ _ h, rfl⟩, h, rfl⟩

example : unmarshal Sample.env [8#8, 1#8, 16#8, 7#8] (.msg 2 (Sample.env 2).zero) =
    .ok ⟨.msg 2 (.struct [.b8 true, .w32 7#32]), none⟩ := rfl

/-! ### C29 -/

theorem readsAs_int {s : Scalar} (hs : isInt s) {data : Bytes} {n : Nat} (h : Varint64 data n) :
    ReadsAs s data (ofInteger s n) := by
  cases s <;> simp only [isInt] at hs <;> simp only [ofInteger, BitVec.ofInt_natCast]
  · exact .int32 _ _ h
  · exact .int64 _ _ h
  · exact .uint32 _ _ h
  · exact .uint64 _ _ h

/-- C29. A varint record for a field of type `int32`, `uint32`, `int64` or `uint64` sets it to the low bits of the varint,
after any accepted part and whatever follows. -/
theorem C29_low_bits {L : Layout} {env : Env} (hwf : WFEnv L env) (hr : ReadsOK env) (t : TypeId)
    (a u r data : Bytes) (n num : Nat) (f : Field) (s : Scalar) (vs vs1 : List Val) (hv : FitsMsg L t (.struct vs1))
    (ha : unmarshal env a (.msg t (.struct vs)) = .ok ⟨.msg t (.struct vs1), none⟩)
    (hf : Declared (env t).fields num f) (hc : f.codec = .normal s) (hs : isInt s) (hu : Record u num 0 data)
    (hd : Varint64 data n) :
    unmarshal env (a ++ (u ++ r)) (.msg t (.struct vs)) =
      unmarshal env r (.msg t (.struct (vs1.set f.offset (ofInteger s n)))) := by
  have hw : keyType f.tag.wiretag = 0 := by
    have := hr t f hf.mem
    rw [hc] at this
    simp only [Codec.Reads] at this
    rw [this]
    cases s <;> simp only [isInt] at hs <;> rfl
  have hnb : ¬ f.codec.isBool := by
    rw [hc]; rintro rfl; exact hs
  obtain ⟨new, h1, h2⟩ := C16_record_replaces_partial hwf hr t a u r data num f vs vs1 hv ha hf (by rw [hc]; trivial)
    (by rw [hw]; exact hu) (fun h => absurd h hnb)
  rw [h2]
  rw [hc] at h1
  cases h1 with
  | normal _ _ _ h1 => rw [readsAs_unique h1 (readsAs_int hs hd)]

/-- C29. Changing the type of a field among `int32`, `uint32`, `int64` and `uint64` converts the number as Go does: if a
message of type `t` is marshalled and the bytes are read as a message of type `t'` in which the field number belongs to a
field of another integer type, that field holds the original number modulo its width. In particular negative `int32`
values arrive as the same negative number in an `int64` field, and `int64` values in the range of `int32` survive the
narrowing. -/
theorem C29_schema_change {L : Layout} {env : Env} (hg : Good L env) (hr : ReadsOK env) (t t' : TypeId) (vs ws : List Val)
    (b : Bytes) (f f' : Field) (s s' : Scalar) (v : Val)
    (hv : FitsMsg L t (.struct vs)) (hok : EncOKMsg env t (.struct vs)) (hl : b.length < 2 ^ 64)
    (hm : marshal env (.msg t (.struct vs)) = .ok (.ok b))
    (hf : f ∈ (env t).fields) (hc : f.codec = .normal s) (hs : isInt s) (hvo : vs[f.offset]? = some v)
    (hd' : DistinctSlots (env t').fields) (hb' : BoolsShort (env t').fields b)
    (hf' : Declared (env t').fields (keyNumber f.tag.wiretag) f') (hc' : f'.codec = .normal s') (hs' : isInt s')
    (hu : unmarshal env b (.msg t' (env t').zero) = .ok ⟨.msg t' (.struct ws), none⟩) :
    ws[f'.offset]? = some (ofInteger s' (intValue s v)) := by
  have hwf := hg.wf
  have hfl := fitsL_of_msg hv
  have he := C11_marshal_encodes_partial hg t vs b hv hok hm hl
  obtain ⟨rs, hrs, _, hrec⟩ := fieldRecords hg he t (fun f hf => hf) ((hg.distinct t).imp fun h => h.2) hfl hl
  obtain ⟨v', ds, hv', hen, hp⟩ := hrec f hf
  rw [hvo] at hv'; cases hv'
  have hz := hwf.zero t'
  rw [hz] at hu
  have hfz : FitsMsg L t' (.struct ((L t').map Shape.zero)) := by
    have := hwf.zero_fits t'
    simp only [zerosOf, hz] at this
    exact this
  rw [hc] at hen
  have hfit : Fits L s.shape v := by
    have := hfl.2 _ _ _ (hwf.slot t f hf) hvo
    rwa [hc] at this
  cases hen with
  | zero =>
    have := C16_absent_kept hr t' b rs _ ws _ f' s'.shape.zero hd' hb' hrs hu hf'
      (by have := hwf.slot t' f' hf'.mem; rw [hc'] at this; simp [this, Codec.shape]) hp
    rw [this]
    cases s <;> simp only [isInt] at hs <;> cases s' <;> simp only [isInt] at hs' <;> rfl
  | nonzero _ _ hne =>
    obtain ⟨new, h1, h2⟩ := C16_last_wins_partial hwf hr t' b rs _ ws _ f' [] (payload s v) hfz hd' hb' hrs hu hf'
      (by rw [hc']; trivial) hp
    rw [h1]
    rw [hc'] at h2
    cases h2 with
    | normal _ _ _ h2 =>
      have key : ∃ n : Nat, Varint64 (payload s v) n ∧ ofInteger s' n = ofInteger s' (intValue s v) := by
        have red : ∀ i : Int, ofInteger s' ((i % 2 ^ 64).toNat : Nat) = ofInteger s' i := by
          intro i
          have hnn : ((i % 2 ^ 64).toNat : Int) = i % 2 ^ 64 := Int.toNat_of_nonneg (Int.emod_nonneg _ (by decide))
          rw [hnn]
          cases s' <;> simp only [isInt] at hs' <;> simp only [ofInteger, Val.w32.injEq, Val.w64.injEq] <;>
            apply BitVec.eq_of_toInt_eq <;> rw [BitVec.toInt_ofInt, BitVec.toInt_ofInt] <;>
            simp only [Int.bmod_def] <;> omega
        cases s <;> simp only [isInt] at hs <;> simp only [Scalar.shape] at hfit <;> cases hfit <;> rename_i x <;>
          simp only [payload, intValue]
        · exact ⟨_, varint64_leb128 (by omega), red _⟩
        · exact ⟨_, varint64_leb128 (by omega), red _⟩
        · exact ⟨_, varint64_leb128 (by have := x.isLt; omega), rfl⟩
        · exact ⟨_, varint64_leb128 x.isLt, rfl⟩
      obtain ⟨n, hn, e⟩ := key
      rw [readsAs_unique h2 (readsAs_int hs' hn), e]

-- -2 as an `int32`, read as an `int64` and as a `uint32`
example : ofInteger .int64 (intValue .int32 (.w32 0xfffffffe#32)) = .w64 0xfffffffffffffffe#64 ∧
    ofInteger .uint32 (intValue .int32 (.w32 0xfffffffe#32)) = .w32 0xfffffffe#32 := ⟨rfl, rfl⟩
/-- Two versions of a message type: field 1 is an `int32`, then an `int64`. -/
def Sample.versions : Env
  | 0 => ⟨[⟨0, Sample.mkTag 1 0, .normal .int32⟩], .struct [.w32 0#32]⟩
  | _ => ⟨[⟨0, Sample.mkTag 1 0, .normal .int64⟩], .struct [.w64 0#64]⟩

example : ∃ b, marshal Sample.versions (.msg 0 (.struct [.w32 0xfffffffe#32])) = .ok (.ok b) ∧
    unmarshal Sample.versions b (.msg 1 (Sample.versions 1).zero) = .ok ⟨.msg 1 (.struct [.w64 0xfffffffffffffffe#64]), none⟩ ∧
    Declared (Sample.versions 1).fields 1 ⟨0, Sample.mkTag 1 0, .normal .int64⟩ :=
  ⟨_, rfl, rfl, ⟨[], [], rfl, by decide, by simp⟩⟩

/-! ### C49 -/

/-- C49, input: if several fields declare the same number, Unmarshal never writes to any but the last of them, for every
input and also on failure. (That the last one is filled is what `Declared` means in the theorems above.) -/
theorem C49_only_last_filled {env : Env} (t : TypeId) (b : Bytes) (vs : List Val) (m : Arg) (o) (num : Nat) (f g : Field)
    (hd : DistinctSlots (env t).fields)
    (hf : Declared (env t).fields num f) (hg : g ∈ (env t).fields) (hn : keyNumber g.tag.wiretag = num) (hne : g ≠ f)
    (h : unmarshal env b (.msg t (.struct vs)) = .ok ⟨m, o⟩) :
    ∃ vs', m = .msg t (.struct vs') ∧ vs'[g.offset]? = vs[g.offset]? := by
  obtain ⟨vs', o', rfl, rfl, hr⟩ := unmarshal_inv h
  refine ⟨vs', rfl, ?_⟩
  clear h
  have off : ∀ num' f', Declared (env t).fields num' f' → f'.offset ≠ g.offset := by
    intro num' f' hf' he
    have := hd _ hf'.mem _ hg he
    subst this
    have hnum := hf'.num
    rw [hn] at hnum
    subst hnum
    have h1 := idxM_declared hf'
    -- two fields carry the number
    have e1 := lookup_declared.mpr hf'
    have e2 := lookup_declared.mpr hf
    rw [e1] at e2
    exact hne (by simpa using e2)
  induction hl : b.length using Nat.strongRecOn generalizing b vs with
  | ind k ih =>
    by_cases h0 : b = []
    · subst h0; rw [run_nil] at hr; cases hr; rfl
    rw [run_cons _ _ _ h0] at hr
    rcases hs : stepS (idxM env t) b vs with er | ⟨vs1, er⟩ | ⟨rest, vs1⟩ <;> simp only [hs] at hr
    · simp at hr
    · cases hr
      exact (stepS_other (.inr ⟨er, hs⟩) fun _ _ _ _ f' _ _ h => off _ f' h).1
    · have h1 := stepS_other (.inl ⟨rest, hs⟩) fun _ _ _ _ f' _ _ h => off _ f' h
      exact (ih rest.length (by have := stepS_lt hs; omega) rest vs1 hr rfl).trans h1.1

/-- C49, output: Marshal writes all fields, also those with equal numbers: the output for a type whose fields are those of
`t₁` followed by those of `t₂` is the concatenation of the outputs for `t₁` and `t₂`. -/
theorem C49_marshal_writes_all {env : Env} (t t₁ t₂ : TypeId) (v : Val) (b₁ b₂ : Bytes)
    (h : (env t).fields = (env t₁).fields ++ (env t₂).fields)
    (h₁ : marshal env (.msg t₁ v) = .ok (.ok b₁)) (h₂ : marshal env (.msg t₂ v) = .ok (.ok b₂)) :
    marshal env (.msg t v) = .ok (.ok (b₁ ++ b₂)) := by
  have size_of : ∀ {t' b}, marshal env (.msg t' v) = .ok (.ok b) → ∃ n, sizeM env t' v = .ok n := by
    intro t' b h
    rw [marshal_msg] at h
    cases h1 : sizeM env t' v with
    | error e => simp [h1] at h
    | ok n => exact ⟨n, rfl⟩
  obtain ⟨n₁, hs₁⟩ := size_of h₁
  obtain ⟨n₂, hs₂⟩ := size_of h₂
  have e₁ := marshal_inv h₁
  have e₂ := marshal_inv h₂
  rw [sizeM_eq] at hs₁ hs₂
  rw [encM_eq] at e₁ e₂
  unfold sizeFields at hs₁ hs₂
  unfold encFields at e₁ e₂
  have hs : ∃ n, sizeM env t v = .ok n := by
    rw [sizeM_eq, h]
    unfold sizeFields
    generalize (env t₁).fields = xs at hs₁
    clear h e₁ h₁
    induction xs generalizing n₁ with
    | nil => exact ⟨n₂, hs₂⟩
    | cons x xs ih =>
      simp only [List.cons_append, sumAll] at hs₁ ⊢
      split at hs₁
      · simp at hs₁
      · split at hs₁
        · simp at hs₁
        · rename_i b heq
          obtain ⟨n, hn⟩ := ih _ heq
          rw [hn]
          exact ⟨_, rfl⟩
  obtain ⟨n, hn⟩ := hs
  rw [marshal_msg, hn, encM_eq, h]
  unfold encFields
  simp only [catAll_append, e₁, e₂]

/-- A type with two fields numbered 1. -/
def Sample.dupEnv : Env
  | 0 => ⟨[⟨0, Sample.mkTag 1 0, .normal .int32⟩, ⟨1, Sample.mkTag 1 0, .normal .int32⟩], .struct [.w32 0#32, .w32 0#32]⟩
  | 1 => ⟨[⟨0, Sample.mkTag 1 0, .normal .int32⟩], .struct [.w32 0#32]⟩
  | 2 => ⟨[⟨1, Sample.mkTag 1 0, .normal .int32⟩], .struct [.w32 0#32, .w32 0#32]⟩
  | _ => ⟨[], .struct []⟩

example : marshal Sample.dupEnv (.msg 0 (.struct [.w32 3#32, .w32 4#32])) = .ok (.ok [8#8, 3#8, 8#8, 4#8]) ∧
    unmarshal Sample.dupEnv [8#8, 3#8, 8#8, 4#8] (.msg 0 (.struct [.w32 0#32, .w32 0#32])) =
      .ok ⟨.msg 0 (.struct [.w32 0#32, .w32 4#32]), none⟩ ∧
    Declared (Sample.dupEnv 0).fields 1 ⟨1, Sample.mkTag 1 0, .normal .int32⟩ ∧
    (Sample.dupEnv 0).fields = (Sample.dupEnv 1).fields ++ (Sample.dupEnv 2).fields :=
  ⟨rfl, rfl, ⟨[_], [], rfl, by decide, by simp⟩, rfl⟩

end Pb.Props
