import Verif.Spec.ErrText
import Verif.Spec.Errors
import Verif.Proofs.Tag
import Verif.Proofs.Width
/-
For C73: reading the texts of errors.
-/
namespace Pb
open Spec

/-- No blank in a numeral. -/
theorem numeral_noBlank {s : Text} {n : Nat} (h : Numeral s n) : ' ' ∉ s ∧ ':' ∉ s := by
  have k : ∀ {c d}, Digit c d → ¬ (' ' = c) ∧ ¬ (':' = c) := fun h => by cases h <;> decide
  induction h with
  | one c d hc => simpa using k hc
  | more s n c d _ hc ih => simpa [ih.1, ih.2] using k hc

theorem integer_noBlank {s : Text} {n : Int} (h : Integer s n) : ' ' ∉ s ∧ ':' ∉ s := by
  cases h with
  | nat _ _ h => exact numeral_noBlank h
  | pos s n h => simpa using numeral_noBlank h
  | neg s n h => simpa using numeral_noBlank h

theorem integer_unique {s : Text} {m n : Int} (h : Integer s m) (h' : Integer s n) : m = n := by
  rw [integer_iff] at h h'
  rw [h] at h'
  exact Option.some.inj h'

theorem numeral_unique {s : Text} {m n : Nat} (h : Numeral s m) (h' : Numeral s n) : m = n := by
  rw [numeral_iff] at h h'
  rw [h.2] at h'
  exact Option.some.inj h'.2

/-- Two texts split at the first occurrence of a character. -/
theorem split_at_char {c : Char} : ∀ {p q x y : Text}, c ∉ p → c ∉ q → p ++ c :: x = q ++ c :: y → p = q ∧ x = y
  | [], [], _, _, _, _, h => ⟨rfl, (List.cons.inj h).2⟩
  | [], d :: q, _, _, _, hq, h => absurd (List.cons.inj h).1 (fun e => hq (by simp [e]))
  | d :: p, [], _, _, hp, _, h => absurd (List.cons.inj h).1.symm (fun e => hp (by simp [e]))
  | d :: p, e :: q, x, y, hp, hq, h => by
    obtain ⟨h1, h2⟩ := List.cons.inj h
    obtain ⟨h3, h4⟩ := split_at_char (fun h => hp (List.mem_cons_of_mem _ h)) (fun h => hq (List.mem_cons_of_mem _ h)) h2
    exact ⟨by rw [h1, h3], h4⟩

/-- A text says one thing only. -/
theorem saysError_unique {s : Text} {p p' : List (Int × Int)} {c c' : Cause} (h : SaysError s p c) (h' : SaysError s p' c') :
    p = p' ∧ c = c' := by
  induction h generalizing p' with
  | truncated =>
    generalize hs : t!"unexpected EOF" = s at h'
    cases h' with
    | truncated => exact ⟨rfl, rfl⟩
    | _ => simp at hs
  | overflow =>
    generalize hs : t!"varint overflowed 64 bits integer" = s at h'
    cases h' with
    | overflow => exact ⟨rfl, rfl⟩
    | _ => simp at hs
  | unknownType =>
    generalize hs : t!"unknown wire type" = s at h'
    cases h' with
    | unknownType => exact ⟨rfl, rfl⟩
    | _ => simp at hs
  | expected q t hq =>
    generalize hs : t!"expected wire type " ++ q = s at h'
    cases h' with
    | expected q' t' hq' =>
      have := List.append_cancel_left hs
      subst this
      exact ⟨rfl, by rw [numeral_unique hq hq']⟩
    | _ => simp at hs
  | field q n r t s path c hq hr _ ih =>
    generalize hs : t!"field number " ++ (q ++ (t!" with wire type " ++ (r ++ (t!": " ++ s)))) = u at h'
    cases h' with
    | field q' n' r' t' s' path' c' hq' hr' h' =>
      have e1 := List.append_cancel_left hs
      obtain ⟨rfl, e2⟩ := split_at_char (integer_noBlank hq).1 (integer_noBlank hq').1 e1
      have e3 : r ++ (t!": " ++ s) = r' ++ (t!": " ++ s') := List.append_cancel_left (as := t!"with wire type ") e2
      obtain ⟨rfl, e4⟩ := split_at_char (integer_noBlank hr).2 (integer_noBlank hr').2 e3
      obtain rfl := (List.cons.inj e4).2
      obtain ⟨rfl, rfl⟩ := ih h'
      rw [integer_unique hq hq', integer_unique hr hr']
      exact ⟨rfl, rfl⟩
    | _ => simp at hs

/-- `strconv.Itoa` of an `int`. -/
theorem integer_intText {n : Int} (h : -2 ^ 63 ≤ n) (h' : n < 2 ^ 63) : Integer (intText n) n := by
  unfold intText
  split
  · have := Integer.neg _ _ (numeral_decimal n.natAbs) (by omega)
    rwa [show -(n.natAbs : Int) = n by omega] at this
  · have := Integer.nat _ _ (numeral_decimal n.natAbs) (by omega)
    rwa [show (n.natAbs : Int) = n by omega] at this

theorem integer_wrapInt {w : Nat} (hw : w ≤ 64) (hw0 : 0 < w) (x : Int) : Integer (intText (wrapInt w x)) (wrapInt w x) := by
  have h1 := BitVec.le_toInt (BitVec.ofInt w x)
  have h2 := BitVec.toInt_lt (x := BitVec.ofInt w x)
  have h3 : (2 : Int) ^ (w - 1) ≤ 2 ^ 63 := by
    have := Nat.pow_le_pow_right (n := 2) (by omega) (show w - 1 ≤ 63 by omega)
    exact_mod_cast this
  refine integer_intText ?_ ?_
  · unfold wrapInt; omega
  · unfold wrapInt; omega

/-- What the text of an error says. -/
theorem err_text_says {w : Nat} (hw : w ≤ 64) (hw0 : 0 < w) (e : Err) :
    SaysError (e.text w) ((errPath e).map fun p => (wrapInt w p.1, wrapInt w p.2)) (errCause e) := by
  induction e with
  | unexpectedEOF => exact .truncated
  | varintOverflow => exact .overflow
  | wireTypeUnknown => exact .unknownType
  | expectedWireType t => exact .expected _ _ (numeral_decimal t)
  | field n t e ih => exact .field _ _ _ _ _ _ _ (integer_wrapInt hw hw0 _) (integer_wrapInt hw hw0 _) ih

/-- An error is its path and its cause. -/
theorem err_ext : ∀ {e e' : Err}, errPath e = errPath e' → errCause e = errCause e' → e = e' := by
  intro e
  induction e with
  | field n t e ih =>
    intro e' h1 h2
    cases e' with
    | field n' t' e' =>
      simp only [errPath, List.cons.injEq, Prod.mk.injEq] at h1
      rw [h1.1.1, h1.1.2, ih h1.2 h2]
    | _ => simp [errPath] at h1
  | _ =>
    intro e' h1 h2
    cases e' <;> simp_all [errPath, errCause]

/-- Field numbers and wire types that a 64-bit tag can hold. -/
def TagSized (e : Err) : Prop := ∀ p ∈ errPath e, p.1 < 2 ^ 61 ∧ p.2 < 8

theorem tagBytes_sized {p : Bytes} {num wt : Nat} (h : TagBytes p num wt) : num < 2 ^ 61 ∧ wt < 8 := by
  have := h.2.small
  have := h.1
  exact ⟨by omega, this⟩

theorem tagSized_field {n t : Nat} {e : Err} (h : n < 2 ^ 61 ∧ t < 8) (he : TagSized e) : TagSized (.field n t e) := by
  intro p hp
  simp only [errPath, List.mem_cons] at hp
  rcases hp with rfl | hp
  · exact h
  · exact he p hp

theorem noVarint_sized {s : Bytes} {e : Err} (h : NoVarint s e) : TagSized e := by cases h <;> (intro p hp; cases hp)

theorem noPayload_sized {wt : Nat} {s : Bytes} {e : Err} (h : NoPayload wt s e) : TagSized e := by
  cases h with
  | varint _ _ h => exact noVarint_sized h
  | length _ _ h => exact noVarint_sized h
  | _ => intro p hp; cases hp

mutual
theorem rejected_sized {env : Env} : ∀ {fs : List Field} {b : Bytes} {e : Err}, Rejected env fs b e → TagSized e
  | _, _, _, .later _ _ _ _ _ h => rejected_sized h
  | _, _, _, .tag _ _ _ _ h => noVarint_sized h
  | _, _, _, .skip _ _ _ _ _ _ ht _ h => tagSized_field (tagBytes_sized ht) (noPayload_sized h)
  | _, _, _, .wire _ _ _ _ _ _ ht _ _ => tagSized_field (tagBytes_sized ht) (by intro p hp; cases hp)
  | _, _, _, .short _ _ _ _ _ _ ht _ h => tagSized_field (tagBytes_sized ht) (noPayload_sized h)
  | _, _, _, .nested _ _ _ _ _ _ _ hr _ h => by
    obtain ⟨p, ht, _⟩ := hr
    exact tagSized_field (tagBytes_sized ht) (bad_sized h)

theorem bad_sized {env : Env} : ∀ {c : Codec} {data : Bytes} {e : Err}, Bad env c data e → TagSized e
  | _, _, _, .ptr _ _ _ _ h => bad_sized h
  | _, _, _, .slice _ _ _ _ h => bad_sized h
  | _, _, _, .msg _ _ _ _ _ h => rejected_sized h
  | _, _, _, .map _ _ _ _ _ _ _ _ _ h => rejected_sized h
end

/-- With 64-bit integers the numbers in the text are those of the error. -/
theorem sized_path {e : Err} (h : TagSized e) :
    ((errPath e).map fun p => (wrapInt 64 p.1, wrapInt 64 p.2)) = (errPath e).map fun p => ((p.1 : Int), (p.2 : Int)) := by
  refine List.map_congr_left fun p hp => ?_
  have := h p hp
  rw [wrapInt_small (by omega) (x := p.1) (by omega), wrapInt_small (by omega) (x := p.2) (by omega)]

end Pb
