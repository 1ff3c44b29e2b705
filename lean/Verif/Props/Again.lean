import Verif.Proofs.Again
import Verif.Props.Reading
import Verif.Props.Errors
import Verif.Props.Reads
import Verif.Spec.Sample
/-
C74: Unmarshal of the same input into the same message again.
-/
namespace Pb.Props
open Spec

/-- C74. For a type without repeated fields, Unmarshal of an accepted input into the result is accepted and changes nothing. -/
theorem C74_twice_partial {L : Layout} {env : Env} (hwf : WFEnv L env) (hr : ReadsOK env) (hd : ∀ t, DistinctSlots (env t).fields)
    (t : TypeId) (hn : NoRepeated env t) (b : Bytes) (v v' : Val) (hv : FitsMsg L t v)
    (h : unmarshal env b (.msg t v) = .ok ⟨.msg t v', none⟩) : unmarshal env b (.msg t v') = .ok ⟨.msg t v', none⟩ := by
  obtain ⟨vs, rfl, hfl⟩ := fitsMsg_iff.mp hv
  obtain ⟨vs', o, hm, _, hrun⟩ := unmarshal_inv h
  cases hm
  obtain ⟨rs, hc, hrd⟩ := (C55_exact hwf hr t b vs vs' hv).mp h
  have hfl' := recs_fits hwf hrd hfl
  have hv' : FitsMsg L t (.struct vs') := fitsMsg_iff.mpr ⟨vs', rfl, hfl'⟩
  obtain ⟨a, w, o', h1, h2⟩ := C48_outcome_by_input hwf hr t b (.struct vs) (.struct vs') hv hv'
  rw [h] at h1
  cases h1
  obtain ⟨ws, _, hm, _, _⟩ := unmarshal_inv h2
  cases hm
  obtain ⟨rs', hc', hrd'⟩ := (C55_exact hwf hr t b vs' ws hv').mp h2
  rw [← cuts_unique hc hc'] at hrd'
  rw [h2, recs_again hwf hd _ t rs vs vs' ws (Nat.lt_succ_self _) hn hfl hrd hrd']

/-- C74. For a type without repeated fields, Unmarshal of the front part of an accepted input, whether it reports an error or
not, leaves the message such that Unmarshal of the whole input gives what it would have given at first. -/
theorem C74_retry_partial {L : Layout} {env : Env} (hwf : WFEnv L env) (hr : ReadsOK env) (hd : ∀ t, DistinctSlots (env t).fields)
    (t : TypeId) (hn : NoRepeated env t) (p q : Bytes) (v v' : Val) (hv : FitsMsg L t v)
    (h : unmarshal env (p ++ q) (.msg t v) = .ok ⟨.msg t v', none⟩) :
    ∃ v1 o, unmarshal env p (.msg t v) = .ok ⟨.msg t v1, o⟩ ∧ unmarshal env (p ++ q) (.msg t v1) = .ok ⟨.msg t v', none⟩ := by
  obtain ⟨vs, rfl, hfl⟩ := fitsMsg_iff.mp hv
  obtain ⟨vs', o, hm, _, hrun⟩ := unmarshal_inv h
  cases hm
  obtain ⟨rs, hc, hrd⟩ := (C55_exact hwf hr t _ vs vs' hv).mp h
  obtain ⟨rs1, rs2, vs1, o1, rfl, h1, h2⟩ := run_front hwf hfl hc hrd
  obtain ⟨vs1', h1', h3⟩ := recs_split hrd
  obtain rfl := recs_unique hwf hfl h1 h1'
  have hfl1 := recs_fits hwf h1 hfl
  have hv1 : FitsMsg L t (.struct vs1) := fitsMsg_iff.mpr ⟨vs1, rfl, hfl1⟩
  refine ⟨.struct vs1, o1.map .decode, ?_, ?_⟩
  · cases o1 with
    | none => exact unmarshal_ok_iff.mpr h2
    | some e => exact unmarshal_err_iff.mpr h2
  · obtain ⟨a, w, o', ha, hw⟩ := C48_outcome_by_input hwf hr t (p ++ q) (.struct vs) (.struct vs1) hv hv1
    rw [h] at ha
    cases ha
    obtain ⟨ws, _, hm, _, _⟩ := unmarshal_inv hw
    cases hm
    obtain ⟨rs', hc', hrd'⟩ := (C55_exact hwf hr t _ vs1 ws hv1).mp hw
    rw [← cuts_unique hc hc'] at hrd'
    obtain ⟨us, h4, h5⟩ := recs_split hrd'
    obtain rfl := recs_again hwf hd _ t rs1 vs vs1 us (Nat.lt_succ_self _) hn hfl h1 h4
    rw [hw, recs_unique hwf hfl1 h3 h5]

/-- C74 for programs, from the declarations on. -/
theorem C74_program_partial (D : Decls) (hp : ProgramOK D) (t : TypeId) (hn : NoRepeated (envOf D) t) (p q : Bytes) (v v' : Val)
    (hv : FitsMsg (layoutOf D) t v) (h : unmarshal (envOf D) (p ++ q) (.msg t v) = .ok ⟨.msg t v', none⟩) :
    unmarshal (envOf D) (p ++ q) (.msg t v') = .ok ⟨.msg t v', none⟩ ∧
    ∃ v1 o, unmarshal (envOf D) p (.msg t v) = .ok ⟨.msg t v1, o⟩ ∧
      unmarshal (envOf D) (p ++ q) (.msg t v1) = .ok ⟨.msg t v', none⟩ :=
  have ⟨h1, h2, h3⟩ := program_reads hp
  ⟨C74_twice_partial h1 h2 h3 t hn _ v v' hv h, C74_retry_partial h1 h2 h3 t hn p q v v' hv h⟩

/-- `type Tree struct { Id int32 (1); Attr map[string]string (5); Ref *uint64 (4); Next *Tree (7) }`. -/
def treeFields : TypeId → List Field
  | 0 => [⟨0, Sample.mkTag 1 0, .normal .int32⟩, ⟨1, Sample.mkTag 5 2, Sample.attrCodec⟩,
          ⟨2, Sample.mkTag 4 0, .ptr (.w64 0#64) (.normal .uint64)⟩, ⟨3, Sample.mkTag 7 2, .msg 0⟩]
  | _ => []

/-- Its layout. -/
def treeLayout : Layout
  | 0 => [.w32, .map .str .str, .ptr .w64, .msg 0]
  | _ => []

/-- Its type info. -/
def treeEnv : Env := fun t => { fields := treeFields t, zero := .struct ((treeLayout t).map Shape.zero) }

theorem treeEnv_ok : WFEnv treeLayout treeEnv ∧ ReadsOK treeEnv ∧ (∀ t, DistinctSlots (treeEnv t).fields) ∧ NoRepeated treeEnv 0 := by
  refine ⟨⟨fun _ => rfl, fun t f h => ?_, fun t f h => ?_⟩, fun t f h => ?_, fun t f hf g hg => ?_, fun t _ f h => ?_⟩
  · match t with
    | 0 =>
      simp only [treeEnv, treeFields, List.mem_cons, List.not_mem_nil, or_false] at h
      rcases h with rfl | rfl | rfl | rfl <;> rfl
    | _ + 1 => simp [treeEnv, treeFields] at h
  · match t with
    | 0 =>
      simp only [treeEnv, treeFields, List.mem_cons, List.not_mem_nil, or_false] at h
      rcases h with rfl | rfl | rfl | rfl <;> simp [Codec.WF, Codec.shape, Shape.zero, Sample.attrCodec, Scalar.shape, Shape.isKey]
    | _ + 1 => simp [treeEnv, treeFields] at h
  · match t with
    | 0 =>
      simp only [treeEnv, treeFields, List.mem_cons, List.not_mem_nil, or_false] at h
      rcases h with rfl | rfl | rfl | rfl <;> simp [Codec.Reads, Scalar.wire, Sample.attrCodec, Sample.mkTag, keyType]
    | _ + 1 => simp [treeEnv, treeFields] at h
  · match t with
    | 0 =>
      simp only [treeEnv, treeFields, List.mem_cons, List.not_mem_nil, or_false] at hf hg
      rcases hf with rfl | rfl | rfl | rfl <;> rcases hg with rfl | rfl | rfl | rfl <;> simp
    | _ + 1 => simp [treeEnv, treeFields] at hf
  · match t with
    | 0 =>
      simp only [treeEnv, treeFields, List.mem_cons, List.not_mem_nil, or_false] at h
      rcases h with rfl | rfl | rfl | rfl <;> trivial
    | _ + 1 => simp [treeEnv, treeFields] at h

-- `Id`, two entries of `Attr` with the same key, `Next` with an `Id`; cut within `Next`, then whole
example : ∃ v v' v1, FitsMsg treeLayout 0 v ∧
    unmarshal treeEnv ([8#8, 5#8, 42#8, 3#8, 10#8, 1#8, 97#8, 42#8, 6#8, 10#8, 1#8, 97#8, 18#8, 1#8, 98#8, 58#8] ++ [2#8, 8#8, 1#8]) (.msg 0 v) =
      .ok ⟨.msg 0 v', none⟩ ∧
    unmarshal treeEnv [8#8, 5#8, 42#8, 3#8, 10#8, 1#8, 97#8, 42#8, 6#8, 10#8, 1#8, 97#8, 18#8, 1#8, 98#8, 58#8] (.msg 0 v) =
      .ok ⟨.msg 0 v1, some (.decode (.field 7 2 .unexpectedEOF))⟩ ∧ v1 ≠ v ∧ v1 ≠ v' :=
  ⟨.struct ((treeLayout 0).map Shape.zero), _, _, treeEnv_ok.1.zero_fits 0, rfl, rfl, by simp [treeLayout, Shape.zero], by simp [treeLayout, Shape.zero]⟩

/-- C74 is false with repeated fields: their elements are there twice. -/
theorem C74_false_repeated : ∃ b v vs vs' x s s', FitsMsg Sample.layout 1 v ∧
    unmarshal Sample.env b (.msg 1 v) = .ok ⟨.msg 1 (.struct vs), none⟩ ∧ vs[2]? = some (.slice false [x] s) ∧
    unmarshal Sample.env b (.msg 1 (.struct vs)) = .ok ⟨.msg 1 (.struct vs'), none⟩ ∧ vs'[2]? = some (.slice false [x, x] s') :=
  ⟨[25#8, 0#8, 0#8, 0#8, 0#8, 0#8, 0#8, 0#8, 1#8], .struct ((Sample.layout 1).map Shape.zero), _, _, _, _, _, Sample.wf.zero_fits 1,
    rfl, rfl, rfl, rfl⟩

/-- C74 is false for the front part too: the elements in it are there twice. -/
theorem C74_false_retry : ∃ p q v vs v1 vs' x s s', FitsMsg Sample.layout 1 v ∧
    unmarshal Sample.env (p ++ q) (.msg 1 v) = .ok ⟨.msg 1 (.struct vs), none⟩ ∧ vs[2]? = some (.slice false [x] s) ∧
    unmarshal Sample.env p (.msg 1 v) = .ok ⟨.msg 1 v1, some (.decode (.field 4 0 .unexpectedEOF))⟩ ∧
    unmarshal Sample.env (p ++ q) (.msg 1 v1) = .ok ⟨.msg 1 (.struct vs'), none⟩ ∧ vs'[2]? = some (.slice false [x, x] s') :=
  ⟨[25#8, 0#8, 0#8, 0#8, 0#8, 0#8, 0#8, 0#8, 1#8, 32#8], [1#8], .struct ((Sample.layout 1).map Shape.zero), _, _, _, _, _, _,
    Sample.wf.zero_fits 1, rfl, rfl, rfl, rfl, rfl⟩

end Pb.Props
