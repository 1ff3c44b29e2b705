import Verif.Spec.Encode
/-
Supported codecs read the wire type they write.
-/
namespace Pb
open Spec

theorem elem_reads {c : Codec} {w : Nat} : c.IsElem → c.Writes w → c.Reads w := by
  induction c with
  | ptr z c ih => exact ih
  | slice z c ih => exact fun h => absurd h id
  | map => exact fun h => absurd h id
  | _ => exact fun _ h => h

theorem sameReader_reads {c d : Codec} (h : SameReader c d) {w : Nat} : c.Reads w → d.Reads w := by
  induction h with
  | refl => exact id
  | normal s => exact id
  | ptr z c d _ ih => exact ih

theorem supported_reads {c : Codec} {w : U64} {n : Nat} (h : c.Supported w) (hw : c.Writes n) : c.Reads n := by
  cases c with
  | slice z c => exact (elem_reads h hw : c.Reads n)
  | map i kc vc kd vd =>
    obtain ⟨_, e1, e2, _, k1, k2, r1, r2⟩ := h
    obtain ⟨rfl, w1, w2⟩ := hw
    refine ⟨rfl, ?_, ?_⟩
    · rw [e1]; exact sameReader_reads r1 (elem_reads k1 w1)
    · rw [e2]; exact sameReader_reads r2 (elem_reads k2 w2)
  | _ => exact elem_reads h hw

theorem readsOK_of_good {L : Layout} {env : Env} (h : Good L env) : ReadsOK env :=
  fun t f hf => supported_reads (h.supported t f hf) (h.writes t f hf)

end Pb
