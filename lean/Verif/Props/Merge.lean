import Verif.Proofs.Merge
import Verif.Props.Decode
/-
C55: Unmarshal implements the declarative merge semantics of `Spec/Merge.lean`.
-/
namespace Pb.Props
open Spec

/-- C55, completeness: an input whose records have a meaning is accepted, with that meaning as the result. Bool payloads
in the meaning are restricted to one byte. -/
theorem C55_meaning_accepted {L : Layout} {env : Env} (hwf : WFEnv L env) (t : TypeId) (b : Bytes)
    (rs : List (Nat × Nat × Bytes)) (vs vs' : List Val) (hv : FitsMsg L t (.struct vs)) (hb : Records b rs)
    (hm : MergeRecs env t vs rs vs') :
    unmarshal env b (.msg t (.struct vs)) = .ok ⟨.msg t (.struct vs'), none⟩ :=
  unmarshal_ok_iff.mpr (run_of_mergeRecs hwf hm (fitsL_of_msg hv) b hb)

/-- C55 as a characterisation of Unmarshal, for message types without bool fields and maps of bool: Unmarshal accepts
an input exactly when its records have a meaning, and the result is that meaning. Missing: bool, where multi-byte
payloads break the equivalence (`C05_false_for_bool`). -/
theorem C55_refinement_partial {L : Layout} {env : Env} (hwf : WFEnv L env) (hr : ReadsOK env)
    (hb : ∀ t, ∀ f ∈ (env t).fields, f.codec.noBool) (t : TypeId) (b : Bytes) (vs vs' : List Val)
    (hv : FitsMsg L t (.struct vs)) :
    unmarshal env b (.msg t (.struct vs)) = .ok ⟨.msg t (.struct vs'), none⟩ ↔
      ∃ rs, Records b rs ∧ MergeRecs env t vs rs vs' := by
  constructor
  · intro h
    exact mergeRecs_of_run hwf hr hb b t vs vs' (fitsL_of_msg hv) (unmarshal_ok_iff.mp h)
  · rintro ⟨rs, h1, h2⟩
    exact C55_meaning_accepted hwf t b rs vs vs' hv h1 h2

/-- C55. The meaning of an input is unique: `MergeRecs` is a function of the records (for values that fit). -/
theorem C55_meaning_unique {L : Layout} {env : Env} (hwf : WFEnv L env) (t : TypeId) (b : Bytes)
    (rs : List (Nat × Nat × Bytes)) (vs vs₁ vs₂ : List Val) (hv : FitsMsg L t (.struct vs)) (hb : Records b rs)
    (h₁ : MergeRecs env t vs rs vs₁) (h₂ : MergeRecs env t vs rs vs₂) : vs₁ = vs₂ := by
  have e₁ := run_of_mergeRecs hwf h₁ (fitsL_of_msg hv) b hb
  have e₂ := run_of_mergeRecs hwf h₂ (fitsL_of_msg hv) b hb
  rw [e₁] at e₂
  simpa using e₂

/-- `Node` meets the hypotheses of the characterisation. -/
example : WFEnv (fun _ => Sample.layout 0) Sample.nodeEnv ∧ ReadsOK Sample.nodeEnv ∧
    (∀ t, ∀ f ∈ (Sample.nodeEnv t).fields, f.codec.noBool) ∧ FitsMsg (fun _ => Sample.layout 0) 0 Sample.emptyNode := by
  refine ⟨Sample.nodeEnv_wf, fun _ => Sample.readsOK 0, ?_, Sample.nodeEnv_wf.zero_fits 0⟩
  intro t f h
  simp only [Sample.nodeEnv, Sample.env, Sample.fields, List.mem_cons, List.not_mem_nil, or_false] at h
  rcases h with rfl | rfl | rfl | rfl | rfl | rfl | rfl <;> simp [Codec.noBool, Sample.attrCodec]

/-- The input `08 03 3a 02 08 05 4a 01 01` into an empty `Node`: `Id`, a nested `Next` with its own `Id`, and an unknown
field. Its meaning is a derivation that mentions neither the model's loop nor its codecs' decode functions. -/
example : ∃ rs vs, Records [8#8, 3#8, 58#8, 2#8, 8#8, 5#8, 74#8, 1#8, 1#8] rs ∧
    MergeRecs Sample.env 0 [.w32 0#32, .str [], .slice true [] [], .opt false (.w64 0#64), .map true [], .opaque 0,
      .bytes none, .nilp] rs vs ∧ vs[0]? = some (.w32 3#32) ∧
    vs[7]? = some (.ptr (.struct [.w32 5#32, .str [], .slice true [] [], .opt false (.w64 0#64), .map true [], .opaque 0,
      .bytes none, .nilp])) := by
  have h1 : Varint64 [3#8] 3 := ⟨.last 3#8 (by decide), by decide, by decide⟩
  have h2 : Varint64 [5#8] 5 := ⟨.last 5#8 (by decide), by decide, by decide⟩
  have hn : Record [58#8, 2#8, 8#8, 5#8] 7 2 [2#8, 8#8, 5#8] :=
    ⟨[58#8], ⟨by decide, .last 58#8 (by decide), by decide, by decide⟩,
      .varlen [2#8] [8#8, 5#8] ⟨.last 2#8 (by decide), by decide, by decide⟩, rfl⟩
  refine ⟨[(1, 0, [3#8]), (7, 2, [2#8, 8#8, 5#8]), (9, 2, [1#8, 1#8])], _,
    .cons [8#8, 3#8] _ _ _ _ _ (Sample.rec_id 3#8 (by decide)) (.cons [58#8, 2#8, 8#8, 5#8] _ _ _ _ _ hn
      (.cons [74#8, 1#8, 1#8] [] _ _ _ _ (Sample.rec_unknown 1#8) .nil)),
    .known (f := ⟨0, Sample.mkTag 1 0, .normal .int32⟩) _ _ _ _ _ _ _ _ ⟨[], _, rfl, rfl, by
        simp [Sample.mkTag, keyNumber]⟩ rfl
      (.normal _ _ _ _ (.int32 _ 3 h1) (by simp))
      (.known (f := ⟨7, Sample.mkTag 7 2, .msg 0⟩) _ _ _ _ _ _ _ _ ⟨(Sample.fields 0).take 6, [], rfl, rfl, by simp⟩ rfl
        (.msgNew _ _ [8#8, 5#8] [(1, 0, [5#8])] _ _ rfl ⟨[2#8], ⟨.last 2#8 (by decide), by decide, by decide⟩, rfl⟩
          (.cons [8#8, 5#8] [] _ _ _ _ (Sample.rec_id 5#8 (by decide)) .nil)
          (.known (f := ⟨0, Sample.mkTag 1 0, .normal .int32⟩) _ _ _ _ _ _ _ _ ⟨[], _, rfl, rfl, by
              simp [Sample.mkTag, keyNumber]⟩ rfl (.normal _ _ _ _ (.int32 _ 5 h2) (by simp)) (.nil _ _)))
        (.unknown _ _ _ _ _ _ _ (by simp [Undeclared, Sample.env, Sample.fields, Sample.mkTag, keyNumber]) (.nil _ _))),
    rfl, rfl⟩

end Pb.Props
