import Verif.Proofs.Reading
import Verif.Proofs.Reads
import Verif.Props.Merge
import Verif.Props.Reads
import Verif.Props.Evolve
/-
C55 without restriction: everything that Unmarshal accepts, and what it makes of it.
-/
namespace Pb.Props
open Spec

/-- C55 as a characterisation of Unmarshal for all message types: it accepts an input exactly if the input can be divided into
records (bools taking one byte each) that can be read one after the other into the message, and this is the result. -/
theorem C55_exact {L : Layout} {env : Env} (hwf : WFEnv L env) (hr : ReadsOK env) (t : TypeId) (b : Bytes) (vs vs' : List Val)
    (hv : FitsMsg L t (.struct vs)) :
    unmarshal env b (.msg t (.struct vs)) = .ok ⟨.msg t (.struct vs'), none⟩ ↔
      ∃ rs, Cuts (BoolNumber (env t).fields) b rs ∧ ReadingRecs env t vs rs vs' := by
  constructor
  · intro h
    exact readingRecs_of_run hwf hr b t vs vs' (fitsL_of_msg hv) (unmarshal_ok_iff.mp h)
  · rintro ⟨rs, h1, h2⟩
    exact unmarshal_ok_iff.mpr (run_of_readingRecs hwf h2 (fitsL_of_msg hv) b h1)

/-- C55 for programs, from the declarations on. -/
theorem C55_program_exact (D : Decls) (h : ProgramOK D) (t : TypeId) (b : Bytes) (vs vs' : List Val)
    (hv : FitsMsg (layoutOf D) t (.struct vs)) :
    unmarshal (envOf D) b (.msg t (.struct vs)) = .ok ⟨.msg t (.struct vs'), none⟩ ↔
      ∃ rs, Cuts (BoolNumber (envOf D t).fields) b rs ∧ ReadingRecs (envOf D) t vs rs vs' :=
  C55_exact (program_reads h).1 (program_reads h).2.1 t b vs vs' hv

/-- C55. There is one way to divide an input. -/
theorem C55_division_unique {isb : Nat → Prop} {b : Bytes} {rs rs' : List (Nat × Nat × Bytes)} (h : Cuts isb b rs) (h' : Cuts isb b rs') :
    rs = rs' := cuts_unique h h'

/-- C55. Where all bools have one byte, this is the division of the protobuf specification. -/
theorem C55_division_of_records {isb : Nat → Prop} {b : Bytes} {rs : List (Nat × Nat × Bytes)} (h : Records b rs)
    (hb : ∀ r ∈ rs, isb r.1 → r.2.2.length = 1) : Cuts isb b rs := by
  induction h with
  | nil => exact .nil
  | cons u r num wt data rs hu hr ih =>
    have ih := ih fun r hr => hb r (by simp [hr])
    by_cases hn : isb num
    · obtain ⟨p, ht, hp, rfl⟩ := hu
      have hl := hb (num, wt, data) (by simp) hn
      cases data with
      | nil => simp at hl
      | cons x q =>
        simp at hl
        subst hl
        rw [List.append_assoc]
        exact .bool p r num wt x [] rs hn ht hp ih
    · exact .whole _ _ _ _ _ _ hn hu ih

/-- A message with one bool and the input `08 80 08 01`: the first record has the payload `80 08`, but the library goes on in
the middle of it and finds the record `08 01`. To protobuf this input is malformed: it ends within a record. -/
example : Cuts (BoolNumber [⟨0, Sample.mkTag 1 0, .normal .bool⟩]) [8#8, 128#8, 8#8, 1#8] [(1, 0, [128#8]), (1, 0, [1#8])] ∧
    ∀ rs, ¬ Records [8#8, 128#8, 8#8, 1#8] rs := by
  have hb : BoolNumber [⟨0, Sample.mkTag 1 0, .normal .bool⟩] 1 := ⟨_, ⟨[], [], rfl, rfl, by simp⟩, rfl⟩
  have ht : TagBytes [8#8] 1 0 := ⟨by decide, .last 8#8 (by decide), by decide, by decide⟩
  have hp : Payload 0 [128#8, 8#8] := .varint _ 1024 ⟨.cont 128#8 [8#8] 8 (by decide) (.last 8#8 (by decide)), by decide, by decide⟩
  constructor
  · exact .bool [8#8] [1#8] 1 0 128#8 [8#8] _ hb ht hp
      (.bool [8#8] [] 1 0 1#8 [] _ hb ht (.varint _ 1 ⟨.last 1#8 (by decide), by decide, by decide⟩) .nil)
  · intro rs h
    cases rs with
    | nil => exact absurd (records_nil_inv h) (by simp)
    | cons r rs =>
      obtain ⟨num, wt, data⟩ := r
      obtain ⟨u, r, e, ⟨p', ht', hp', rfl⟩, hr⟩ := records_cons_inv h
      rw [List.append_assoc] at e
      obtain ⟨rfl, rfl, rfl, e1⟩ := tag_unique (r := [128#8, 8#8, 1#8]) ht ht' e
      obtain ⟨rfl, rfl⟩ := payload_unique (r := [1#8]) hp hp' e1
      cases rs with
      | nil => exact absurd (records_nil_inv hr) (by simp)
      | cons r rs =>
        obtain ⟨num, wt, data⟩ := r
        obtain ⟨u, r, e, ⟨p', ht', hp', rfl⟩, hr⟩ := records_cons_inv hr
        rw [List.append_assoc] at e
        have ht2 : TagBytes [1#8] 0 1 := ⟨by decide, .last 1#8 (by decide), by decide, by decide⟩
        obtain ⟨rfl, rfl, rfl, e1⟩ := tag_unique (r := []) ht2 ht' e
        have := takePayload_pos hp'
        cases data with
        | nil => simp at this
        | cons => simp at e1

end Pb.Props
