import Verif.Spec.SharedRun
import Verif.Proofs.SourceApi
import Verif.Proofs.SourceRoom
import Verif.Proofs.CacheUse
import Verif.Props.SourceMsg
import Verif.Props.SourceApi
/-
Runs of the functions of proto.go with the type infos in the shared state.
-/
namespace Pb.Go
open Tree Cache

set_option maxRecDepth 100000

variable {D : Decls} {s : Cache.State} {t : TypeId} {i : Nat} {hit : List V → Val → Bool} {d j k : Nat} {m : Val}

/-- Start the run of an exported function. -/
macro "shared_call" f:ident t:ident : tactic =>
  `(tactic| (rw [runShared, apiProgram_eq]; obtain ⟨k, hk⟩ : ∃ k, 2 = k + 2 := ⟨0, rfl⟩; rw [hk]; go_call $f $t))

theorem shared_cached :
    invoke apiLibrary (sharedCalls D s t i hit d j) d (k + 1) none t!"cachedStructInfoOf" [.gotype (some (.struct t))] m =
      .ok ([.info (infoEnv D s i).fields], m) := by
  rw [invoke]
  simp only [Option.map, find_cached]
  show sharedCalls D s t i hit d j none t!"cachedStructInfoOf" [.gotype (some (.struct t))] m = _
  simp only [sharedCalls, if_true]

theorem shared_info_size {fs : List Field} {args : List V} :
    invoke apiLibrary (sharedCalls D s t i hit d j) d (k + 1) (some (.info fs)) t!"size" args m =
      invoke program (codecs (infoEnv D s) hit d j) d 6 (some (.info fs)) t!"size" args m := by
  rw [invoke]
  simp only [Option.map, V.typeName, find_info_size]
  rfl

theorem shared_info_encode {fs : List Field} {args : List V} :
    invoke apiLibrary (sharedCalls D s t i hit d j) d (k + 1) (some (.info fs)) t!"encode" args m =
      invoke program (codecs (infoEnv D s) hit d j) d 6 (some (.info fs)) t!"encode" args m := by
  rw [invoke]
  simp only [Option.map, V.typeName, find_info_encode]
  rfl

theorem shared_info_decode {fs : List Field} {args : List V} :
    invoke apiLibrary (sharedCalls D s t i hit d j) d (k + 1) (some (.info fs)) t!"decode" args m =
      invoke program (codecs (infoEnv D s) hit d j) d 6 (some (.info fs)) t!"decode" args m := by
  rw [invoke]
  simp only [Option.map, V.typeName, find_info_decode]
  rfl

theorem shared_size {p : List Step} {n : BitVec 64} (h : runInfo (infoEnv D s) hit d j i t!"size" [.ptr p .uptr] m = .ok ([.int n], m)) :
    runShared D s t i hit d j t!"Size" [.iface (some (.ptr (.struct t))) (.ptr p .uptr)] m = .ok ([.int n], m) := by
  rw [runInfo] at h
  shared_call find_Size api_Size
  go_run [run_inspect, run_inspect_null, RType.kind, shared_cached, shared_info_size, h]

theorem shared_marshal {p : List Step} {n : BitVec 64} {b : Bytes}
    (h : runInfo (infoEnv D s) hit d j i t!"size" [.ptr p .uptr] m = .ok ([.int n], m))
    (h' : runInfo (infoEnv D s) hit d j i t!"encode" [.bytes (some []), .ptr p .uptr] m = .ok ([.bytes (some b)], m)) :
    runShared D s t i hit d j t!"Marshal" [.iface (some (.ptr (.struct t))) (.ptr p .uptr)] m = .ok ([.bytes (some b), .err none], m) := by
  rw [runInfo] at h h'
  shared_call find_Marshal api_Marshal
  go_run [run_inspect, run_inspect_null, RType.kind, shared_cached, shared_info_size, shared_info_encode, h, h']

theorem shared_unmarshal_empty {b : Option Bytes} {t' : Option RType} {w : V} (h : b.getD [] = []) :
    runShared D s t i hit d j t!"Unmarshal" [.bytes b, .iface t' w] m = .ok ([.err none], m) := by
  shared_call find_Unmarshal api_Unmarshal
  go_run [h]

theorem shared_unmarshal_err {b : Bytes} {p : List Step} {n : BitVec 64} {e : Err} {m' : Val} (hb : ¬ BitVec.ofNat 64 b.length = 0#64)
    (h : runInfo (infoEnv D s) hit d j i t!"decode" [.bytes (some b), .ptr p .uptr] m = .ok ([.int n, .err (some e)], m')) :
    runShared D s t i hit d j t!"Unmarshal" [.bytes (some b), .iface (some (.ptr (.struct t))) (.ptr p .uptr)] m = .ok ([.err (some e)], m') := by
  rw [runInfo] at h
  shared_call find_Unmarshal api_Unmarshal
  go_run [hb, run_inspect, run_inspect_null, RType.kind, shared_cached, shared_info_decode, h]

theorem shared_unmarshal_ok {b : Bytes} {p : List Step} {m' : Val} (hb : ¬ BitVec.ofNat 64 b.length = 0#64)
    (h : runInfo (infoEnv D s) hit d j i t!"decode" [.bytes (some b), .ptr p .uptr] m = .ok ([.int (BitVec.ofNat 64 b.length), .err none], m')) :
    runShared D s t i hit d j t!"Unmarshal" [.bytes (some b), .iface (some (.ptr (.struct t))) (.ptr p .uptr)] m = .ok ([.err none], m') := by
  rw [runInfo] at h
  shared_call find_Unmarshal api_Unmarshal
  go_run [hb, run_inspect, run_inspect_null, RType.kind, shared_cached, shared_info_decode, h, slt_self]

/-! ### the type infos in the state -/

theorem sim_zeros {R : Nat → TypeId → Prop} {c c' : Codec} (h : CSim R c c') : Zeros c' → Zeros c := by
  induction h with
  | normal | required | option | bytes | msg => exact id
  | ptr z c c' _ ih => exact fun h => ⟨h.1, ih h.2⟩
  | slice z c c' _ ih => exact fun h => ⟨h.1, ih h.2⟩
  | map i kc vc kd vd kc' vc' kd' vd' _ _ _ _ _ _ ih3 ih4 => exact fun ⟨h1, h2, h3, h4, h5, h6⟩ => ⟨h1, h2, h3, h4, ih3 h5, ih4 h6⟩

theorem sim_keys {R : Nat → TypeId → Prop} {c c' : Codec} (h : CSim R c c') : ScalarKeys c' → ScalarKeys c := by
  induction h with
  | normal | required | option | bytes | msg => exact id
  | ptr z c c' _ ih => exact ih
  | slice z c c' _ ih => exact ih
  | map i kc vc kd vd kc' vc' kd' vd' h1 _ _ _ _ ih2 _ _ =>
    rintro ⟨⟨s, h⟩, hv⟩
    refine ⟨⟨s, ?_⟩, ih2 hv⟩
    rcases h with rfl | rfl <;> cases h1
    · exact .inl rfl
    · exact .inr rfl

theorem sim_fields {R : Nat → TypeId → Prop} {P P' : Codec → Prop} (hp : ∀ c c', CSim R c c' → P' c' → P c) {fs fs' : List Field}
    (h : FSim R fs fs') : (∀ f ∈ fs', P' f.codec) → ∀ f ∈ fs, P f.codec := by
  induction h with
  | nil => intro _ f hf; cases hf
  | cons o t c c' fs fs' hc _ ih =>
    intro h f hf
    rcases List.mem_cons.mp hf with rfl | hf
    · exact hp c c' hc (h _ List.mem_cons_self)
    · exact ih (fun f hf => h f (List.mem_cons_of_mem _ hf)) f hf

theorem infoEnv_at {i : Nat} {t : TypeId} (h : At s i t) : infoEnv D s i = s.env D i := by
  obtain ⟨⟨fs, h⟩, _⟩ := h
  unfold infoEnv
  rw [h]

theorem infoEnv_sim {G : Ghost} (hI : Inv D True s G) : ESim (At s) (infoEnv D s) (envOf D) := by
  intro i t h
  rw [infoEnv_at h]
  exact env_sim hI i t h

/-- What holds of the codecs of all fields of all message types holds of those in the state. -/
theorem infoEnv_fields {G : Ghost} (hI : Inv D True s G) {P P' : Codec → Prop} (hp : ∀ c c', CSim (At s) c c' → P' c' → P c)
    (h : ∀ t, ∀ f ∈ (envOf D t).fields, P' f.codec) (i : Nat) : ∀ f ∈ (infoEnv D s i).fields, P f.codec := by
  rcases hi : s.infos[i]? with _ | ⟨⟨t⟩ | _, fs⟩
  · intro f hf; unfold infoEnv at hf; rw [hi] at hf; cases hf
  · cases fs with
    | none =>
      intro f hf
      unfold infoEnv at hf
      rw [hi] at hf
      simp only [State.env, hi, Option.getD, List.map_nil] at hf
      cases hf
    | some fs =>
      exact sim_fields hp (infoEnv_sim hI i t ⟨⟨_, hi⟩, _, _, hi⟩).2 (h t)
  · intro f hf; unfold infoEnv at hf; rw [hi] at hf; cases hf

theorem infoEnv_room {L : Layout} (hw : WFEnv L (envOf D)) (i : Nat) : Room 0 (infoEnv D s i).zero := by
  rcases hi : s.infos[i]? with _ | ⟨⟨t⟩ | _, fs⟩
  · unfold infoEnv; rw [hi]; simp [Room, Rooms]
  · have := zero_room hw t
    unfold infoEnv
    rw [hi]
    have e : (envOf D t).zero = zeroStruct (D t) := by
      unfold envOf walkStruct
      cases walkFields 0 (D t) <;> rfl
    rw [e] at this
    simpa only [State.env, hi, InfoKey.decl] using this
  · unfold infoEnv; rw [hi]; simp [Room, Rooms]

theorem shared_api {G : Ghost} (hI : Inv D True s G) (h : At s i t) :
    (∀ v, size (infoEnv D s) (.msg i v) = size (envOf D) (.msg t v)) ∧
    (∀ v, marshal (infoEnv D s) (.msg i v) = marshal (envOf D) (.msg t v)) ∧
    ∀ b v w e, unmarshal (envOf D) b (.msg t v) = .ok ⟨.msg t w, e⟩ → unmarshal (infoEnv D s) b (.msg i v) = .ok ⟨.msg i w, e⟩ := by
  have hs := infoEnv_sim hI
  refine ⟨fun v => ?_, fun v => ?_, fun b v w e => ?_⟩
  · unfold Pb.size; simp only [sizeMsg_sim hs _ i t h]
  · unfold Pb.marshal; simp only [sizeMsg_sim hs _ i t h, encodeMsg_sim hs _ i t h]
  · unfold Pb.unmarshal
    simp only [decodeMsg_sim hs _ i t h]
    split
    · intro h; cases h; rfl
    · simp only [bind, Except.bind, pure, Except.pure]
      generalize decodeMsg (envOf D) (b.length + 1) t b v = q
      rcases q with e | q
      · intro h; cases h
      · cases q with
        | err v e => intro h; cases h; rfl
        | ok v n =>
          simp only
          split <;> (intro h; cases h; rfl)

end Pb.Go
