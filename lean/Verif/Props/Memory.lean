import Verif.Proofs.Memory
import Verif.Proofs.Analyse
/-
C35: what Unmarshal adds to a message is bounded by the length of the input, whether it succeeds or fails.
-/
namespace Pb.Props
open Spec

/-- C35. Whatever the input and the outcome, and whatever the message held before: string bytes plus twice the number of
elements and entries grow by at most the length of the input, and so do string bytes plus twice the number of messages.
(A record of a repeated, map or message field takes at least two bytes.) -/
theorem C35_growth {L : Layout} {env : Env} (hwf : WFEnv L env) (hf : FlatEnv env) (t : TypeId) (b : Bytes) (v v' : Val)
    (err : Option ApiErr) (h : unmarshal env b (.msg t v) = .ok ⟨.msg t v', err⟩) :
    v'.chars + 2 * v'.elements ≤ v.chars + 2 * v.elements + b.length ∧
    v'.chars + 2 * v'.messages ≤ v.chars + 2 * v.messages + b.length := by
  have key : ∀ ce cm, ce + cm ≤ 2 → v'.total ce cm ≤ v.total ce cm + b.length := by
    intro ce cm hc
    by_cases hb : b = []
    · subst hb
      simp [unmarshal] at h
      rw [h.1]; simp
    · have hl : ¬ b.length = 0 := by simpa using hb
      cases v with
      | struct vs =>
        rw [unmarshal_eq] at h
        rcases hr : run (idxM env t) b vs with e | ⟨vs', _ | e⟩ <;> simp [hr] at h
        all_goals
          have := runM_grows hwf hf ce cm hc t b vs vs' _ hr
          rw [← h.1]; simp only [Val.total]; omega
      | _ => simp [unmarshal, hl, decodeMsg, structDecode, bind, Except.bind] at h
  have h1 := key 2 0 (by omega)
  have h2 := key 0 2 (by omega)
  simp only [total_eq] at h1 h2
  omega

/-- C35. Decoding into a fresh message: at most half as many elements and entries as input bytes, at most half as many
nested messages, and no string longer than the input. -/
theorem C35_fresh {L : Layout} {env : Env} (hwf : WFEnv L env) (hf : FlatEnv env) (t : TypeId) (b : Bytes) (v' : Val)
    (err : Option ApiErr) (h : unmarshal env b (.msg t (env t).zero) = .ok ⟨.msg t v', err⟩) :
    2 * v'.elements ≤ b.length ∧ 2 * (v'.messages - 1) ≤ b.length ∧ v'.chars ≤ b.length ∧
    ∀ s, HoldsText v' s → s.length ≤ b.length := by
  obtain ⟨h1, h2⟩ := C35_growth hwf hf t b _ v' err h
  have z1 := zeros_total hwf 1 0 t
  have z2 := zeros_total hwf 0 1 t
  have z0 := zeros_total hwf 0 0 t
  simp only [total_eq, zerosOf] at z0 z1 z2
  refine ⟨by omega, by omega, by omega, fun s hs => ?_⟩
  have h3 := holds_total 0 0 hs
  rw [total_eq] at h3
  omega

/-- C35. The capacity of every slice stays within ten or twice its length, if it was so before. -/
theorem C35_capacity {L : Layout} {env : Env} (hwf : WFEnv L env) (t : TypeId) (b : Bytes) (v v' : Val)
    (err : Option ApiErr) (hv : v.capOK) (h : unmarshal env b (.msg t v) = .ok ⟨.msg t v', err⟩) : v'.capOK := by
  by_cases hb : b = []
  · subst hb
    simp [unmarshal] at h
    rw [← h.1]; exact hv
  · have hl : ¬ b.length = 0 := by simpa using hb
    cases v with
    | struct vs =>
      rw [unmarshal_eq] at h
      rcases hr : run (idxM env t) b vs with e | ⟨vs', _ | e⟩ <;> simp [hr] at h
      all_goals
        have := runM_cap hwf t b vs vs' _ hv hr
        rw [← h.1]; exact this
    | _ => simp [unmarshal, hl, decodeMsg, structDecode, bind, Except.bind] at h

/-- C35. A fresh message meets the hypothesis of `C35_capacity`. -/
theorem C35_fresh_capacity {L : Layout} {env : Env} (hwf : WFEnv L env) (t : TypeId) (b : Bytes) (v' : Val)
    (err : Option ApiErr) (h : unmarshal env b (.msg t (env t).zero) = .ok ⟨.msg t v', err⟩) : v'.capOK :=
  C35_capacity hwf t b _ v' err (zeros_cap hwf t) h

/-- C35 for programs: every program that type analysis accepts and whose memory it gets right. -/
theorem C35_program (D : Decls) (hD : ProgramSane D) (t : TypeId) (b : Bytes) (v' : Val) (err : Option ApiErr)
    (h : unmarshal (envOf D) b (.msg t (zeroStruct (D t))) = .ok ⟨.msg t v', err⟩) :
    2 * v'.elements ≤ b.length ∧ 2 * (v'.messages - 1) ≤ b.length ∧ v'.chars ≤ b.length ∧
    (∀ s, HoldsText v' s → s.length ≤ b.length) ∧ v'.capOK := by
  obtain ⟨_, hwf, _⟩ := wf_of_sane hD
  have hz : zeroStruct (D t) = (envOf D t).zero := by rw [hwf.zero, zeroStruct_layout]
  rw [hz] at h
  obtain ⟨h1, h2, h3, h4⟩ := C35_fresh hwf (flat_of_sane hD) t b v' err h
  exact ⟨h1, h2, h3, h4, C35_fresh_capacity hwf t b v' err h⟩

/-- The sample program meets the hypotheses, and `1a 00 1a 00` (two empty elements of `Kids`) attains the bounds: four
bytes, two elements, two nested messages, capacity ten. -/
example : ∃ v', unmarshal Sample.env [26#8, 0#8, 26#8, 0#8] (.msg 0 (Sample.env 0).zero) = .ok ⟨.msg 0 v', none⟩ ∧
    v'.elements = 2 ∧ v'.messages - 1 = 2 ∧ 2 * v'.elements ≤ 4 ∧ v'.capOK := by
  have hf : FlatEnv Sample.env := Sample.envOf_decls ▸ flat_of_sane (sane_of_ok Sample.programOK)
  refine ⟨_, rfl, by decide, by decide, (C35_fresh Sample.wf hf 0 [26#8, 0#8, 26#8, 0#8] _ none rfl).1,
    C35_fresh_capacity Sample.wf 0 [26#8, 0#8, 26#8, 0#8] _ none rfl⟩

/-- A failing decode: `1a 02 0a` has a body that is too long. The slice got ten slots, no element. -/
example : ∃ v' e, unmarshal Sample.env [26#8, 2#8, 10#8] (.msg 0 (Sample.env 0).zero) = .ok ⟨.msg 0 v', some e⟩ ∧
    v'.elements = 0 := ⟨_, _, rfl, by decide⟩

end Pb.Props
