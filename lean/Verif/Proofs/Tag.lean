import Verif.Spec.Tag
import Verif.Proofs.Wire
/-
Lemmas about the struct tag parser.
-/
namespace Pb
open Spec

theorem digit_iff (c : Char) (d : Nat) : Digit c d ↔ digitVal c = some d := by
  constructor
  · intro h; cases h <;> rfl
  · intro h
    simp only [digitVal] at h
    split at h
    · rename_i hc
      obtain ⟨h1, h2⟩ := hc
      have e1 : 48 ≤ c.toNat := h1
      have e2 : c.toNat ≤ 57 := h2
      have e3 : c = Char.ofNat c.toNat := by simp
      have e4 : d = c.toNat - 48 := by
        have := Option.some.inj h
        rw [← this]; rfl
      generalize c.toNat = n at e1 e2 e3 e4
      subst e3
      have : n = 48 ∨ n = 49 ∨ n = 50 ∨ n = 51 ∨ n = 52 ∨ n = 53 ∨ n = 54 ∨ n = 55 ∨ n = 56 ∨ n = 57 := by omega
      rcases this with rfl | rfl | rfl | rfl | rfl | rfl | rfl | rfl | rfl | rfl <;> subst e4
      · exact .d0
      · exact .d1
      · exact .d2
      · exact .d3
      · exact .d4
      · exact .d5
      · exact .d6
      · exact .d7
      · exact .d8
      · exact .d9
    · cases h

theorem parseDigits_append (s t : Text) : ∀ n, parseDigits n (s ++ t) = (parseDigits n s).bind fun m => parseDigits m t := by
  induction s with
  | nil => intro n; rfl
  | cons c s ih =>
    intro n
    simp only [List.cons_append, parseDigits]
    cases digitVal c with
    | none => rfl
    | some d => exact ih _

theorem numeral_iff (s : Text) (n : Nat) : Numeral s n ↔ s ≠ [] ∧ parseDigits 0 s = some n := by
  constructor
  · intro h
    induction h with
    | one c d h => rw [digit_iff] at h; simp [parseDigits, h]
    | more s n c d _ h ih => rw [digit_iff] at h; simp [parseDigits_append, ih.2, parseDigits, h]
  · rintro ⟨h1, h2⟩
    induction hl : s.length generalizing s n with
    | zero => exact absurd (List.length_eq_zero_iff.mp hl) h1
    | succ k ih =>
      obtain ⟨t, c, rfl⟩ : ∃ t c, s = t ++ [c] := ⟨s.dropLast, s.getLast h1, (List.dropLast_concat_getLast h1).symm⟩
      rw [parseDigits_append] at h2
      cases hm : parseDigits 0 t with
      | none => simp [hm] at h2
      | some m =>
        simp only [hm, Option.bind_some, parseDigits] at h2
        cases hd : digitVal c with
        | none => simp [hd] at h2
        | some d =>
          simp only [hd, Option.some.injEq] at h2
          subst h2
          rw [← digit_iff] at hd
          by_cases ht : t = []
          · subst ht
            simp only [parseDigits, Option.some.injEq] at hm
            subst hm
            simpa using Numeral.one c d hd
          · exact .more t m c d (ih t m ht hm (by simp at hl; exact hl)) hd

theorem numeral_head {s : Text} {n : Nat} (h : Numeral s n) : ∃ c cs, s = c :: cs ∧ c ≠ '-' ∧ c ≠ '+' := by
  induction h with
  | one c d h => exact ⟨c, [], rfl, by cases h <;> decide⟩
  | more s n c d _ _ ih =>
    obtain ⟨c', cs, rfl, h⟩ := ih
    exact ⟨c', cs ++ [c], rfl, h⟩

theorem integer_iff (s : Text) (n : Int) : Integer s n ↔ atoi s = some n := by
  constructor
  · intro h
    cases h with
    | nat s n h1 h2 =>
      obtain ⟨c, cs, rfl, h3, h4⟩ := numeral_head h1
      rw [numeral_iff] at h1
      simp [atoi, h3, h4, h1.2, h2]
    | pos s n h1 h2 =>
      rw [numeral_iff] at h1
      simp [atoi, h1.1, h1.2, h2]
    | neg s n h1 h2 =>
      rw [numeral_iff] at h1
      simp [atoi, h1.1, h1.2, h2]
  · intro h
    cases s with
    | nil => simp [atoi] at h
    | cons c cs =>
      simp only [atoi] at h
      by_cases h1 : c = '-'
      · subst h1
        simp only [if_true] at h
        by_cases h2 : cs = []
        · simp [h2] at h
        · simp only [h2, if_false] at h
          cases hp : parseDigits 0 cs with
          | none => simp [hp] at h
          | some m =>
            simp only [hp] at h
            by_cases h3 : m ≤ 2 ^ 63
            · simp only [h3, if_true, Option.some.injEq] at h
              subst h
              exact .neg _ _ ((numeral_iff _ _).mpr ⟨h2, hp⟩) h3
            · simp only [h3, if_false] at h; cases h
      · by_cases h1' : c = '+'
        · subst h1'
          simp only [h1, if_true, if_false, Bool.false_eq_true] at h
          by_cases h2 : cs = []
          · simp [h2] at h
          · simp only [h2, if_false] at h
            cases hp : parseDigits 0 cs with
            | none => simp [hp] at h
            | some m =>
              simp only [hp] at h
              by_cases h3 : m < 2 ^ 63
              · simp only [h3, if_true, Option.some.injEq] at h
                subst h
                exact .pos _ _ ((numeral_iff _ _).mpr ⟨h2, hp⟩) h3
              · simp only [h3, if_false] at h; cases h
        · simp only [h1, h1', if_false, Bool.false_eq_true, reduceCtorEq] at h
          cases hp : parseDigits 0 (c :: cs) with
          | none => simp [hp] at h
          | some m =>
            simp only [hp] at h
            by_cases h3 : m < 2 ^ 63
            · simp only [h3, if_true, Option.some.injEq] at h
              subst h
              exact .nat _ _ ((numeral_iff _ _).mpr ⟨by simp, hp⟩) h3
            · simp only [h3, if_false] at h; cases h

/-! ### pieces -/

theorem splitFields_piece {p : Text} (h : Piece p) : splitFields p = [p] := by
  induction p with
  | nil => rfl
  | cons c p ih =>
    simp only [Piece, List.mem_cons, not_or] at h
    simp [splitFields, Ne.symm h.1, ih h.2]

theorem splitFields_comma {p : Text} (h : Piece p) (s : Text) : splitFields (p ++ ',' :: s) = p :: splitFields s := by
  induction p with
  | nil => simp [splitFields]
  | cons c p ih =>
    simp only [Piece, List.mem_cons, not_or] at h
    simp [splitFields, Ne.symm h.1, ih h.2]

/-- Every text is its first piece, or its first piece, a comma and the rest. -/
theorem split_first (s : Text) : Piece s ∨ ∃ p t, Piece p ∧ s = p ++ ',' :: t := by
  induction s with
  | nil => exact .inl (by simp [Piece])
  | cons c s ih =>
    by_cases hc : c = ','
    · exact .inr ⟨[], s, by simp [Piece], by simp [hc]⟩
    · rcases ih with h | ⟨p, t, hp, rfl⟩
      · exact .inl (by simp [Piece]; exact ⟨Ne.symm hc, h⟩)
      · exact .inr ⟨c :: p, t, by simp [Piece]; exact ⟨Ne.symm hc, hp⟩, rfl⟩

theorem parseWireType_iff (p : Text) (t : StructTag) :
    parseWireType {} p = some t ↔ ∃ e z, Encoding p e z ∧ t = { wireType := e, zigzag := z } := by
  constructor
  · intro h
    simp only [parseWireType] at h
    split at h
    · rename_i h'; subst h'; exact ⟨_, _, .varint, (Option.some.inj h).symm⟩
    split at h
    · rename_i h'; subst h'; exact ⟨_, _, .bytes, (Option.some.inj h).symm⟩
    split at h
    · rename_i h'; subst h'; exact ⟨_, _, .fixed32, (Option.some.inj h).symm⟩
    split at h
    · rename_i h'; subst h'; exact ⟨_, _, .fixed64, (Option.some.inj h).symm⟩
    split at h
    · rename_i h'; subst h'; exact ⟨_, _, .zigzag32, (Option.some.inj h).symm⟩
    split at h
    · rename_i h'; subst h'; exact ⟨_, _, .zigzag64, (Option.some.inj h).symm⟩
    · cases h
  · rintro ⟨e, z, h, rfl⟩
    cases h <;> rfl

theorem parseOption_iff (p : Text) (t t' : StructTag) (hr : t.repeated = false) :
    parseOption t p = some t' ↔ ∃ c, Cardinality p c ∧ t' = { t with repeated := c } := by
  constructor
  · intro h
    simp only [parseOption] at h
    split at h
    · rename_i h'; subst h'
      refine ⟨_, .opt, ?_⟩
      rw [← Option.some.inj h, ← hr]
    split at h
    · rename_i h'; subst h'; exact ⟨_, .rep, (Option.some.inj h).symm⟩
    · cases h
  · rintro ⟨c, h, rfl⟩
    cases h
    · simp [parseOption, ← hr]
    · simp [parseOption]

theorem encoding_piece {p : Text} {e : Nat} {z : Bool} (h : Encoding p e z) : Piece p := by
  cases h <;> simp [Piece]

theorem cardinality_piece {p : Text} {c : Bool} (h : Cardinality p c) : Piece p := by
  cases h <;> simp [Piece]

theorem numeral_piece {s : Text} {n : Nat} (h : Numeral s n) : Piece s := by
  induction h with
  | one c d h => cases h <;> simp [Piece]
  | more s n c d _ h ih =>
    simp only [Piece, List.mem_append, List.mem_singleton, not_or]
    exact ⟨ih, by cases h <;> decide⟩

theorem integer_piece {s : Text} {n : Int} (h : Integer s n) : Piece s := by
  cases h with
  | nat s n h _ => exact numeral_piece h
  | pos s n h _ => simpa [Piece] using numeral_piece h
  | neg s n h _ => simpa [Piece] using numeral_piece h

theorem parseFields_rest (i : Nat) (hi : 3 ≤ i) (t : StructTag) (ps : List Text) : parseFields i t ps = (t, false) := by
  induction ps generalizing i with
  | nil => rfl
  | cons p ps ih =>
    match i, hi with
    | i + 3, _ => simp only [parseFields]; exact ih _ (by omega)

theorem parseStructTag_of_says {s : Text} {e : Nat} {n : Int} {c z : Bool} (h : SaysTag s e n c z) :
    parseStructTag s = ({ wireType := e, fieldNumber := BitVec.ofInt 64 n, repeated := c, zigzag := z }, false) := by
  cases h with
  | one _ _ _ h1 =>
    simp [parseStructTag, splitFields_piece (encoding_piece h1), parseFields, (parseWireType_iff _ _).mpr ⟨_, _, h1, rfl⟩]
  | two p _ _ q _ h1 h2 =>
    simp [parseStructTag, splitFields_comma (encoding_piece h1), splitFields_piece (integer_piece h2), parseFields,
      (parseWireType_iff _ _).mpr ⟨_, _, h1, rfl⟩, (integer_iff _ _).mp h2]
  | three p _ _ q _ r _ h1 h2 h3 =>
    simp [parseStructTag, splitFields_comma (encoding_piece h1), splitFields_comma (integer_piece h2),
      splitFields_piece (cardinality_piece h3), parseFields,
      (parseWireType_iff _ _).mpr ⟨_, _, h1, rfl⟩, (integer_iff _ _).mp h2, (parseOption_iff r { wireType := _, fieldNumber := _, zigzag := _ } _ rfl).mpr ⟨_, h3, rfl⟩]
  | more p _ _ q _ r _ rest h1 h2 h3 =>
    simp [parseStructTag, splitFields_comma (encoding_piece h1), splitFields_comma (integer_piece h2),
      splitFields_comma (cardinality_piece h3), parseFields,
      (parseWireType_iff _ _).mpr ⟨_, _, h1, rfl⟩, (integer_iff _ _).mp h2, (parseOption_iff r { wireType := _, fieldNumber := _, zigzag := _ } _ rfl).mpr ⟨_, h3, rfl⟩,
      parseFields_rest]

theorem says_of_parseStructTag {s : Text} {t : StructTag} (h : parseStructTag s = (t, false)) :
    ∃ e n c z, SaysTag s e n c z := by
  simp only [parseStructTag] at h
  have step0 : ∀ p rest, parseFields 0 {} (p :: rest) = (t, false) → ∃ e z, Encoding p e z ∧
      parseFields 1 { wireType := e, zigzag := z } rest = (t, false) := by
    intro p rest h
    simp only [parseFields] at h
    cases hw : parseWireType {} p with
    | none => simp [hw] at h
    | some t' =>
      obtain ⟨e, z, h1, rfl⟩ := (parseWireType_iff _ _).mp hw
      exact ⟨e, z, h1, by simpa [hw] using h⟩
  have step1 : ∀ t' p rest, parseFields 1 t' (p :: rest) = (t, false) → ∃ n, Integer p n ∧
      parseFields 2 { t' with fieldNumber := BitVec.ofInt 64 n } rest = (t, false) := by
    intro t' p rest h
    simp only [parseFields] at h
    cases hw : atoi p with
    | none => simp [hw] at h
    | some n => exact ⟨n, (integer_iff _ _).mpr hw, by simpa [hw] using h⟩
  have step2 : ∀ (t' : StructTag) p rest, t'.repeated = false → parseFields 2 t' (p :: rest) = (t, false) → ∃ c, Cardinality p c := by
    intro t' p rest hr h
    simp only [parseFields] at h
    cases hw : parseOption t' p with
    | none => simp [hw] at h
    | some t'' =>
      obtain ⟨c, h1, _⟩ := (parseOption_iff _ _ _ hr).mp hw
      exact ⟨c, h1⟩
  rcases split_first s with hp | ⟨p, s1, hp, rfl⟩
  · rw [splitFields_piece hp] at h
    obtain ⟨e, z, h1, _⟩ := step0 _ _ h
    exact ⟨_, _, _, _, .one _ _ _ h1⟩
  rw [splitFields_comma hp] at h
  obtain ⟨e, z, h1, h⟩ := step0 _ _ h
  rcases split_first s1 with hq | ⟨q, s2, hq, rfl⟩
  · rw [splitFields_piece hq] at h
    obtain ⟨n, h2, _⟩ := step1 _ _ _ h
    exact ⟨_, _, _, _, .two _ _ _ _ _ h1 h2⟩
  rw [splitFields_comma hq] at h
  obtain ⟨n, h2, h⟩ := step1 _ _ _ h
  rcases split_first s2 with hr | ⟨r, s3, hr, rfl⟩
  · rw [splitFields_piece hr] at h
    obtain ⟨c, h3⟩ := step2 _ _ _ rfl h
    exact ⟨_, _, _, _, .three _ _ _ _ _ _ _ h1 h2 h3⟩
  rw [splitFields_comma hr] at h
  obtain ⟨c, h3⟩ := step2 _ _ _ rfl h
  exact ⟨_, _, _, _, .more _ _ _ _ _ _ _ _ h1 h2 h3⟩

/-! ### decimal notation -/

theorem digit_digitChar {d : Nat} (h : d < 10) : Digit (digitChar d) d := by
  have : d = 0 ∨ d = 1 ∨ d = 2 ∨ d = 3 ∨ d = 4 ∨ d = 5 ∨ d = 6 ∨ d = 7 ∨ d = 8 ∨ d = 9 := by omega
  rcases this with rfl | rfl | rfl | rfl | rfl | rfl | rfl | rfl | rfl | rfl
  · exact .d0
  · exact .d1
  · exact .d2
  · exact .d3
  · exact .d4
  · exact .d5
  · exact .d6
  · exact .d7
  · exact .d8
  · exact .d9

theorem numeral_decimalUpTo (k n : Nat) (h : n < k) : Numeral (decimalUpTo k n) n := by
  induction k generalizing n with
  | zero => omega
  | succ k ih =>
    rw [decimalUpTo]
    split
    · rename_i h; exact .one _ _ (digit_digitChar h)
    · rename_i h
      have := Numeral.more _ _ _ _ (ih (n / 10) (by omega)) (digit_digitChar (Nat.mod_lt n (by omega)))
      rwa [Nat.div_add_mod] at this

theorem numeral_decimal (n : Nat) : Numeral (decimal n) n := numeral_decimalUpTo _ _ (by omega)

end Pb
