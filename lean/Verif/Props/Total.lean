import Verif.Proofs.Total
import Verif.Props.Flat
/-
C62: Size and Marshal return.
-/
namespace Pb.Props
open Spec Flat

/-- C62. Size returns a number for every message that its Go type allows: with nil elements, nil pointers in maps and slices,
repeated and mixed maps included. Nothing is asked of tags. -/
theorem C62_size_total {L : Layout} {env : Env} (hwf : WFEnv L env) (t : TypeId) (v : Val) (hv : FitsMsg L t v) :
    ∃ n, size env (.msg t v) = .ok n := by
  rw [size_msg]
  exact size_total hwf v t hv

/-- C62. Marshal returns bytes and no error. Partial: keys and values of each map must have the same memory; false without, see
`C62_false_for_mixed_maps`. C02 and C22 are about more special messages: there values of maps must also be measured like the
keys, and then the bytes are the specified ones. -/
theorem C62_marshal_total_partial {L : Layout} {env : Env} (hwf : WFEnv L env)
    (hm : ∀ t, ∀ f ∈ (env t).fields, f.codec.MapsShaped) (t : TypeId) (v : Val) (hv : FitsMsg L t v) :
    ∃ b, marshal env (.msg t v) = .ok (.ok b) := by
  obtain ⟨n, h1⟩ := size_total hwf v t hv
  obtain ⟨b, h2⟩ := encode_total hwf hm v t hv
  exact ⟨b, by rw [marshal_msg, h1, h2]⟩

/-- C62 for programs: Size. Partial: it needs `ProgramSane` (see `C03_program_safe_partial`). -/
theorem C62_program_size_partial (D : Decls) (h : ProgramSane D) (t : TypeId) (v : Val) (hv : FitsMsg (layoutOf D) t v) :
    ∃ n, size (envOf D) (.msg t v) = .ok n := C62_size_total (wf_of_sane h).2.1 t v hv

/-- C62: whatever Unmarshal leaves behind, even when it reports an error, can be measured and written again. -/
theorem C62_after_unmarshal_partial {L : Layout} {env : Env} (hwf : WFEnv L env)
    (hm : ∀ t, ∀ f ∈ (env t).fields, f.codec.MapsShaped) (t : TypeId) (v : Val) (hv : FitsMsg L t v) (b : Bytes) :
    ∃ v' err n b', unmarshal env b (.msg t v) = .ok ⟨.msg t v', err⟩ ∧ size env (.msg t v') = .ok n ∧
      marshal env (.msg t v') = .ok (.ok b') := by
  obtain ⟨v', err, h1, h2, _⟩ := C03_unmarshal_safe hwf b t v hv
  obtain ⟨n, h3⟩ := C62_size_total hwf t v' h2
  obtain ⟨b', h4⟩ := C62_marshal_total_partial hwf hm t v' h2
  exact ⟨v', err, n, b', h1, h3, h4⟩

/-- The types of one message with a map, with any scalar key and value. -/
theorem mapEnv_wf (kw vw : U64) (k v : Scalar) :
    WFEnv (fun t => if t = 0 then [.map k.shape v.shape] else []) (mapEnv kw vw k v k v) where
  zero t := by
    match t with
    | 0 | _ + 1 => rfl
  slot t f hf := by
    match t with
    | 0 =>
      simp only [mapEnv, List.mem_cons, List.not_mem_nil, or_false] at hf
      subst hf; rfl
    | _ + 1 => simp [mapEnv] at hf
  codec t f hf := by
    match t with
    | 0 =>
      simp only [mapEnv, List.mem_cons, List.not_mem_nil, or_false] at hf
      subst hf
      simp only [Codec.WF, Codec.shape]
      cases k <;> cases v <;> simp [Shape.isKey, Scalar.shape, Shape.zero]
    | _ + 1 => simp [mapEnv] at hf

theorem sample_shaped : ∀ t, ∀ f ∈ (Sample.env t).fields, f.codec.MapsShaped := by
  intro t f h
  match t with
  | 0 =>
    simp only [Sample.env, Sample.fields, List.mem_cons, List.not_mem_nil, or_false] at h
    rcases h with rfl | rfl | rfl | rfl | rfl | rfl | rfl <;> simp [Codec.MapsShaped, Sample.attrCodec, Codec.shape]
  | 1 =>
    simp only [Sample.env, Sample.fields, List.mem_cons, List.not_mem_nil, or_false] at h
    rcases h with rfl | rfl | rfl | rfl <;> simp [Codec.MapsShaped]
  | 2 =>
    simp only [Sample.env, Sample.fields, List.mem_cons, List.not_mem_nil, or_false] at h
    rcases h with rfl | rfl <;> simp [Codec.MapsShaped]
  | _ + 3 => simp [Sample.env, Sample.fields] at h

example : WFEnv Sample.layout Sample.env ∧ (∀ t, ∀ f ∈ (Sample.env t).fields, f.codec.MapsShaped) ∧
    FitsMsg Sample.layout 0 Sample.node := ⟨Sample.wf, sample_shaped, Sample.node_fits⟩

-- a nil element and a nil pointer: C02 and C01 say nothing of the bytes, but they are there
example : marshal Sample.env (.msg 0 (.struct [.w32 0, .str [], .slice false [.nilp, .nilp] [], .opt true (.w64 0), .map true [],
    .opaque 0, .bytes none, .nilp])) = .ok (.ok [32, 0, 42, 0]) := by rfl

-- `map[int32]uint32`: C02 is false of it, but Marshal returns
example : (∀ t, ∀ f ∈ (mapEnv 8 16 .int32 .uint32 .int32 .uint32 t).fields, f.codec.MapsShaped) ∧
    ¬ (∀ t, ∀ f ∈ (mapEnv 8 16 .int32 .uint32 .int32 .uint32 t).fields, f.codec.MapsSized) := by
  refine ⟨fun t f hf => ?_, fun h => ?_⟩
  · match t with
    | 0 =>
      simp only [mapEnv, List.mem_cons, List.not_mem_nil, or_false] at hf
      subst hf; rfl
    | _ + 1 => simp [mapEnv] at hf
  · have := h 0 _ (List.mem_singleton.mpr rfl)
    simp only [Codec.MapsSized] at this
    cases this

/-- C62 is false for Marshal of `map[string]bool`: map.go:80 reads a string header where there is a bool. Size returns. -/
theorem C62_false_for_mixed_maps :
    let v := Val.struct [.map false [(.str [97], .b8 true)]]
    ProgramOK flagMap ∧ FitsMsg (layoutOf flagMap) 0 v ∧ size (envOf flagMap) (.msg 0 v) = .ok 7 ∧
      marshal (envOf flagMap) (.msg 0 v) = .error .confused := by
  refine ⟨?_, ?_, by rw [flagMap_env]; rfl, by rw [flagMap_env]; rfl⟩
  · intro t
    match t with
    | 0 =>
      refine ⟨fun f hf ha => ?_, by simp [flagMap, single]⟩
      simp only [flagMap, single, List.mem_singleton] at hf
      subst hf
      exact Sample.declOK (n := 1) rfl (by decide) rfl (.map _ _ 2 1 false 0 2 false rfl
        (Sample.says_of (n := 1) (by decide) rfl) (Sample.says_of (n := 2) (by decide) rfl) (by decide) (by decide) (by decide)
        (by decide) (by decide) (.scalar _ .string .string (by decide) (by decide) (by decide) (by decide))
        (.scalar _ .bool .bool (by decide) (by decide)))
    | _ + 1 => exact ⟨by simp [flagMap, single], by simp [flagMap, single]⟩
  · refine fitsMsg_iff.mpr ⟨_, rfl, rfl, ?_⟩
    intro i s v hs hv
    match i with
    | 0 =>
      cases hs; cases hv
      exact .map _ _ _ _ (by simp) (by simp) (by intro e he; simp only [List.mem_singleton] at he; subst he; exact .str _)
        (by intro e he; simp only [List.mem_singleton] at he; subst he; exact .b8 _)
    | _ + 1 => simp [layoutOf, flagMap, single] at hs

end Pb.Props
