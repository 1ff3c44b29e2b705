import Verif.Proofs.Reads
import Verif.Proofs.Program
import Verif.Props.Merge
import Verif.Props.Errors
import Verif.Props.Fields
/-
The conditions under which Unmarshal is understood hold for every program of supported declarations.
-/
namespace Pb.Props
open Spec

/-- Type analysis of supported declarations yields fields that read the wire type they announce and have places of their own. -/
theorem program_reads {D : Decls} (h : ProgramOK D) :
    WFEnv (layoutOf D) (envOf D) ∧ ReadsOK (envOf D) ∧ ∀ t, DistinctSlots (envOf D t).fields := by
  have hg := good_of_program h
  refine ⟨hg.wf, readsOK_of_good hg, fun t f hf g hg' e => ?_⟩
  have hp := hg.distinct t
  obtain ⟨i, hi, rfl⟩ := List.getElem_of_mem hf
  obtain ⟨j, hj, rfl⟩ := List.getElem_of_mem hg'
  rw [List.pairwise_iff_getElem] at hp
  rcases Nat.lt_trichotomy i j with h | h | h
  · exact absurd e (hp i j hi hj h).1
  · subst h; rfl
  · exact absurd e.symm (hp j i hj hi h).1

/-- C48 for programs, from the declarations on: Unmarshal fails with an error exactly when the specification has a fault in the
input with that error. -/
theorem C48_program (D : Decls) (h : ProgramOK D) (t : TypeId) (b : Bytes) (v : Val) (hv : FitsMsg (layoutOf D) t v) (e : Err) :
    (∃ v', unmarshal (envOf D) b (.msg t v) = .ok ⟨.msg t v', some (.decode e)⟩) ↔ Rejected (envOf D) (envOf D t).fields b e :=
  C48_error_iff (program_reads h).1 (program_reads h).2.1 t b v hv e

/-- C55 for programs without bools. -/
theorem C55_program_partial (D : Decls) (h : ProgramOK D) (hb : ∀ t, ∀ f ∈ (envOf D t).fields, f.codec.noBool) (t : TypeId) (b : Bytes)
    (vs vs' : List Val) (hv : FitsMsg (layoutOf D) t (.struct vs)) :
    unmarshal (envOf D) b (.msg t (.struct vs)) = .ok ⟨.msg t (.struct vs'), none⟩ ↔
      ∃ rs, Records b rs ∧ MergeRecs (envOf D) t vs rs vs' :=
  C55_refinement_partial (program_reads h).1 (program_reads h).2.1 hb t b vs vs' hv

/-- C16 for programs. -/
theorem C16_program_partial (D : Decls) (h : ProgramOK D) (t : TypeId) (b : Bytes) (rs : List (Nat × Nat × Bytes)) (vs vs' : List Val)
    (num : Nat) (f : Field) (ds : List Bytes) (d : Bytes) (hv : FitsMsg (layoutOf D) t (.struct vs))
    (hb : BoolsShort (envOf D t).fields b) (hrs : Records b rs)
    (hu : unmarshal (envOf D) b (.msg t (.struct vs)) = .ok ⟨.msg t (.struct vs'), none⟩)
    (hf : Declared (envOf D t).fields num f) (hs : f.codec.isSingular) (hp : payloadsFor num rs = ds ++ [d]) :
    ∃ new, vs'[f.offset]? = some new ∧ Latest f.codec d new :=
  C16_last_wins_partial (program_reads h).1 (program_reads h).2.1 t b rs vs vs' num f ds d hv ((program_reads h).2.2 t) hb hrs hu hf hs hp

end Pb.Props
