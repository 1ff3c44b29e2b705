import Verif.Proofs.GraphSize
/-
What a program may do to memory between calls of the library.
-/
namespace Pb.Flat
open Spec

variable {lay : Lay} {T : Types} {m : Mem}

/-- Assignment to a slot: unlike what decode functions do, slices may become shorter. -/
theorem graph_assign (h : Graph lay T m) {a : Addr} {s : Shape} (hs : SlotAt T a s) {new : List Cell} (hsound : Sound lay T s new) :
    ∃ m', store m a new s.align = .ok m' ∧ Graph lay T m' ∧ cellsAt m' a.blk a.off s.size = new ∧
      ∀ b o n, b ≠ a.blk ∨ o + n ≤ a.off ∨ a.off + s.size ≤ o → cellsAt m' b o n = cellsAt m b o n := by
  obtain ⟨N, sl, h1, h2⟩ := hs
  obtain ⟨cs, g1, g2, g3, g4⟩ := h.mem h1
  have hl := sound_length hsound
  have hin := (g2.1 _ h2).2
  have hal := (g2.1 _ h2).1
  simp only at hin hal
  have hlt := lt_of_get g1
  have hlen : (splice cs a.off new).length = cs.length := splice_length (by omega)
  have hw : ((splice cs a.off new).drop a.off).take s.size = new := by
    have := splice_window (cs := cs) (new := new) (o := a.off) (k := 0) (n := s.size) (by omega) (by omega)
    rw [Nat.add_zero] at this
    rw [this, splice_whole (by simp; omega)]
  have hother : ∀ o n, o + n ≤ a.off ∨ a.off + s.size ≤ o →
      ((splice cs a.off new).drop o).take n = (cs.drop o).take n := by
    intro o n hd
    refine cells_apart (P := region a.off new.length) (fun i hi => ?_) (fun i hi1 hi2 => ?_)
    · unfold region at hi
      rw [splice_get (by omega), if_neg hi]
    · unfold region; omega
  have hin2 : a.off + new.length ≤ cs.length := by omega
  refine ⟨m.set a.blk (.mem (splice cs a.off new)), by simp [store, hal, g1, hin2], ⟨by simpa using h.1, ?_⟩, ?_, ?_⟩
  · intro c κ o hc ho
    by_cases e : a.blk = c
    · subst e
      rw [List.getElem?_set_self hlt] at ho
      cases ho
      rw [h1] at hc
      cases hc
      refine ⟨g2, by omega, fun q hq => ?_⟩
      by_cases e : q = (a.off, s)
      · subst e; simp only [hw]; exact hsound
      · rw [hother q.1 q.2.size]
        · exact g4 q hq
        · rcases g2.2 q hq _ h2 with e' | e' | e'
          · exact absurd e' e
          · exact .inl e'
          · exact .inr e'
    · rw [List.getElem?_set_ne e] at ho
      exact h.2 c κ o hc ho
  · simp only [cellsAt, List.getElem?_set_self hlt]; exact hw
  · intro b o n hd
    by_cases e : a.blk = b
    · subst e
      simp only [cellsAt, List.getElem?_set_self hlt, g1]
      exact hother o n (by rcases hd with hd | hd; exact absurd rfl hd; exact hd)
    · simp only [cellsAt, List.getElem?_set_ne e]

end Pb.Flat
