import Verif.Proofs.Stable
import Verif.Props.Program
/-
C45: marshalling what was decoded, and decoding that again.
-/
namespace Pb.Props
open Spec

/-- C45, bytes. Take any message without empty maps, for instance a decoded one; marshal it, unmarshal the bytes into a new
message, marshal that: the bytes are the same. Missing: empty maps, for which it is false, `C45_false_for_empty_maps`, and
maps that are measured wrong. -/
theorem C45_bytes_stable_partial {L : Layout} {env : Env} (hg : Good L env) (t : TypeId) (vs : List Val) (b : Bytes)
    (hv : FitsMsg L t (.struct vs)) (ho : EncOKMsg env t (.struct vs)) (hm : NoEmptyMaps env (.msg t) (.ptr (.struct vs)))
    (h : marshal env (.msg t (.struct vs)) = .ok (.ok b)) (hl : b.length < 2 ^ 64) :
    ∃ w, unmarshal env b (.msg t (env t).zero) = .ok ⟨.msg t w, none⟩ ∧ marshal env (.msg t w) = .ok (.ok b) := by
  obtain ⟨ws, h1, h2⟩ := C01_reads_back hg t vs b hv ho h hl
  exact ⟨_, h1, by rw [marshal_back hg h2 hv hm, h]⟩

/-- C45, message. If Unmarshal accepts an input into a new message and the result has neither empty maps nor pointers to
unwritten values, then marshalling it and unmarshalling again yields the same message, and marshalling that the same bytes.
Missing: results with empty maps or pointers to zero, for which it is false (`C45_false_for_empty_maps`,
`C45_false_for_zero_pointers`), and maps that are measured wrong. -/
theorem C45_reencode_partial {L : Layout} {env : Env} (hg : Good L env) (hp : PlainLists env) (t : TypeId) (b0 : Bytes) (v : Val)
    (h0 : unmarshal env b0 (.msg t (env t).zero) = .ok ⟨.msg t v, none⟩) (ho : EncOKMsg env t v)
    (hm : NoEmptyMaps env (.msg t) (.ptr v)) (hz : NoZeroPtrs env (.msg t) (.ptr v)) :
    ∃ b, marshal env (.msg t v) = .ok (.ok b) ∧ (b.length < 2 ^ 64 →
      ∃ w, unmarshal env b (.msg t (env t).zero) = .ok ⟨.msg t w, none⟩ ∧ w.obs = v.obs ∧
        marshal env (.msg t w) = .ok (.ok b)) := by
  have hzf := hg.wf.zero_fits t
  obtain ⟨v', err, h1, hv, _⟩ := C03_unmarshal_safe hg.wf b0 t _ hzf
  have h1' : unmarshal env b0 (.msg t (env t).zero) = .ok ⟨.msg t v', err⟩ := h1
  rw [h0] at h1'
  simp at h1'
  obtain ⟨rfl, rfl⟩ := h1'
  obtain ⟨b, hb, _⟩ := C02_size_is_length_partial hg t v hv ho
  refine ⟨b, hb, fun hl => ?_⟩
  obtain ⟨vs, rfl, _⟩ := fitsMsg_iff.mp hv
  have hc := canon_of_built (unmarshal_builds hg hp h0) hm hz
  obtain ⟨w, h2, h3⟩ := C01_round_trip_partial hg t vs b hv ho hc hb hl
  obtain ⟨w', h4, h5⟩ := C45_bytes_stable_partial hg t vs b hv ho hm hb hl
  rw [h2] at h4
  simp at h4
  subst h4
  exact ⟨w, h2, h3, h5⟩

/-- C45 after one round trip, for all messages, also those with empty maps, nil elements and pointers to zero: what comes
back the first time comes back the same ever after, and so do its bytes. -/
theorem C45_stable_after_one_trip_partial {L : Layout} {env : Env} (hg : Good L env)
    (hs : ∀ t, ∀ f ∈ (env t).fields, f.codec.MapsSized) (t : TypeId) (vs : List Val) (b : Bytes)
    (hv : FitsMsg L t (.struct vs)) (h : marshal env (.msg t (.struct vs)) = .ok (.ok b)) (hl : b.length < 2 ^ 64) :
    ∃ w b', unmarshal env b (.msg t (env t).zero) = .ok ⟨.msg t w, none⟩ ∧ marshal env (.msg t w) = .ok (.ok b') ∧
      (b'.length < 2 ^ 64 → ∃ w', unmarshal env b' (.msg t (env t).zero) = .ok ⟨.msg t w', none⟩ ∧ w'.obs = w.obs ∧
        marshal env (.msg t w') = .ok (.ok b')) := by
  obtain ⟨ws, h1, h2⟩ := C01_reads_back hg t vs b hv (encOK_of_types hg hs t _ hv) h hl
  obtain ⟨v', err, h3, hw, _⟩ := C03_unmarshal_safe hg.wf b t _ (hg.wf.zero_fits t)
  have h3' : unmarshal env b (.msg t (env t).zero) = .ok ⟨.msg t v', err⟩ := h3
  rw [h1] at h3'
  simp at h3'
  obtain ⟨rfl, rfl⟩ := h3'
  have how := encOK_of_types hg hs t _ hw
  obtain ⟨b', hb', _⟩ := C02_size_is_length_partial hg t _ hw how
  refine ⟨_, b', h1, hb', fun hl' => ?_⟩
  have hc := canon_of_back hg h2 trivial
  obtain ⟨w, h4, h5⟩ := C01_round_trip_partial hg t ws b' hw how hc hb' hl'
  obtain ⟨w', h6, h7⟩ := C45_bytes_stable_partial hg t ws b' hw how (noEmpty_of_canon hc) hb' hl'
  rw [h4] at h6
  simp at h6
  subst h6
  exact ⟨w, h4, h5, h7⟩

/-! ### programs -/

theorem plainLists_of_program {D : Decls} (h : ProgramOK D) : PlainLists (envOf D) := by
  intro t g hg z c0 hc0
  obtain ⟨i, hi⟩ := walkStruct_ok (h t)
  have he : envOf D t = i := by simp only [envOf, hi]
  rw [he] at hg
  obtain ⟨j, f, hj, hE⟩ := (walkFields_spec _ _ _ (walkStruct_fields hi).1).1 g hg
  have hmem : f ∈ D t := List.mem_of_getElem? hj
  have hact : f.Active := by
    obtain ⟨_, h5, s, t', h6, _⟩ := hE
    exact ⟨h5, by simp [h6]⟩
  obtain ⟨s, e, n, c, z, k1, k2, k3, k4⟩ := entry_codecF hE ((h t).fields f hmem hact)
  have hv : ∀ {e z r T c}, CodecV e z r T c → r = true → c.Plain := by
    intro e z r T c hc
    induction hc with
    | ptr r T zero c _ _ ih => exact ih
    | _ => intro hr; first | trivial | cases hr
  have hns : ∀ {e z r T c}, CodecV e z r T c → ∀ z' c', c ≠ .slice z' c' := by
    intro e z r T c hc z' c' h
    cases hc <;> cases h
  rw [hc0] at k4
  generalize f.ty = T at k4
  generalize f.keyTag = kt at k4
  generalize f.valTag = vt at k4
  generalize hcc : Codec.slice _ c0 = cc at k4
  cases k4 with
  | value T c hcv => exact absurd hcc.symm (hns hcv _ _)
  | option => cases hcc
  | slice T zero c hcv => cases hcc; exact hv hcv rfl
  | map => cases hcc

/-- C45 from the declarations: for a supported program whose maps are measured alike, whatever Unmarshal accepts. -/
theorem C45_program_partial (D : Decls) (h : ProgramOK D) (hm : MapsAlike D) (t : TypeId) (b0 : Bytes) (v : Val)
    (h0 : unmarshal (envOf D) b0 (.msg t (zeroStruct (D t))) = .ok ⟨.msg t v, none⟩)
    (he : NoEmptyMaps (envOf D) (.msg t) (.ptr v)) (hz : NoZeroPtrs (envOf D) (.msg t) (.ptr v)) :
    ∃ b, marshal (envOf D) (.msg t v) = .ok (.ok b) ∧ (b.length < 2 ^ 64 →
      ∃ w, unmarshal (envOf D) b (.msg t (zeroStruct (D t))) = .ok ⟨.msg t w, none⟩ ∧ w.obs = v.obs ∧
        marshal (envOf D) (.msg t w) = .ok (.ok b)) := by
  have hg := good_of_program h
  obtain ⟨i, hi⟩ := walkStruct_ok (h t)
  have hzero : (envOf D t).zero = zeroStruct (D t) := by simp only [envOf, hi, (walkStruct_fields hi).2]
  obtain ⟨v', err, h3, hw, _⟩ := C03_unmarshal_safe hg.wf b0 t _ (hg.wf.zero_fits t)
  have h3' : unmarshal (envOf D) b0 (.msg t (envOf D t).zero) = .ok ⟨.msg t v', err⟩ := h3
  rw [hzero, h0] at h3'
  simp at h3'
  obtain ⟨rfl, rfl⟩ := h3'
  rw [← hzero] at h0 ⊢
  exact C45_reencode_partial hg (plainLists_of_program h) t b0 v h0
    (encOK_of_types hg (mapsSized_of_alike h hm) t v hw) he hz

/-! ### a case, and where it fails -/

-- non-minimal varint, unknown field, an attribute, fields out of order
example : ∃ v, unmarshal Sample.env [42#8, 2#8, 10#8, 0#8, 72#8, 1#8, 8#8, 0x81#8, 0x00#8] (.msg 0 (Sample.env 0).zero) =
    .ok ⟨.msg 0 v, none⟩ ∧ marshal Sample.env (.msg 0 v) = .ok (.ok [8#8, 1#8, 42#8, 4#8, 10#8, 0#8, 18#8, 0#8]) ∧
    NoEmptyMaps Sample.env (.msg 0) (.ptr v) ∧ NoZeroPtrs Sample.env (.msg 0) (.ptr v) := by
  refine ⟨.struct [.w32 1#32, .str [], .slice true [] [], .opt false (.w64 0#64), .map false [(.str [], .str [])], .opaque 0,
    .bytes none, .nilp], rfl, rfl, .msg _ _ fun f h w hw => ?_, .msg _ _ fun f h w hw => ?_⟩
  all_goals
    simp only [Sample.env, Sample.fields, List.mem_cons, List.not_mem_nil, or_false] at h
    rcases h with rfl | rfl | rfl | rfl | rfl | rfl | rfl <;> simp at hw <;> subst hw
  · exact .normal _ _
  · exact .normal _ _
  · exact .slice _ _ _ _ _ (by simp)
  · exact .option _ _
  · exact .map _ _ _ _ _ _ _ (by simp) (by intro e he; exact .required _ _)
  · exact .bytes _
  · exact .msgNil _
  · exact .normal _ _
  · exact .normal _ _
  · exact .slice _ _ _ _ _ (by simp)
  · exact .option _ _
  · exact .map _ _ _ _ _ _ _ (by intro e he; exact .required _ _)
  · exact .bytes _
  · exact .msgNil _

example : PlainLists Sample.env := by
  rw [← Sample.envOf_decls]; exact plainLists_of_program Sample.programOK

/-- C45 is false with empty maps: the empty input is accepted, the result is marshalled as `2a 00`,
and what that is decoded to as a map entry. -/
theorem C45_false_for_empty_maps : ∃ v w, unmarshal Sample.env [] (.msg 0 (Sample.env 0).zero) = .ok ⟨.msg 0 v, none⟩ ∧
    marshal Sample.env (.msg 0 v) = .ok (.ok [42#8, 0#8]) ∧
    unmarshal Sample.env [42#8, 0#8] (.msg 0 (Sample.env 0).zero) = .ok ⟨.msg 0 w, none⟩ ∧
    marshal Sample.env (.msg 0 w) = .ok (.ok [42#8, 4#8, 10#8, 0#8, 18#8, 0#8]) := ⟨_, _, rfl, rfl, rfl, rfl⟩

/-- A program with a pointer to a number. -/
def intPtr : Decls
  | 0 => [Sample.tagged "varint,1,opt" (.ptr .int32)]
  | _ => []

theorem intPtr_env : envOf intPtr = fun
    | 0 => ⟨[⟨0, ⟨8#64, 1⟩, .ptr (.w32 0#32) (.normal .int32)⟩], .struct [.nilp]⟩
    | _ => ⟨[], .struct []⟩ := by
  funext t
  match t with
  | 0 => rfl
  | _ + 1 => rfl

/-- C45 is false with pointers to zero: `08 00` is decoded to a pointer to 0, which is marshalled as nothing. -/
theorem C45_false_for_zero_pointers :
    unmarshal (envOf intPtr) [8#8, 0#8] (.msg 0 (zeroStruct (intPtr 0))) = .ok ⟨.msg 0 (.struct [.ptr (.w32 0#32)]), none⟩ ∧
    marshal (envOf intPtr) (.msg 0 (.struct [.ptr (.w32 0#32)])) = .ok (.ok []) ∧
    unmarshal (envOf intPtr) [] (.msg 0 (zeroStruct (intPtr 0))) = .ok ⟨.msg 0 (.struct [.nilp]), none⟩ := by
  rw [intPtr_env]
  exact ⟨rfl, rfl, rfl⟩

end Pb.Props
