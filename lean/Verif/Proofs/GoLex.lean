import Verif.Spec.GenSource
/-
Reading tokens piece by piece.
-/
namespace Pb
open Spec

theorem lexRun_append (s : LexState) (a b : Text) :
    lexRun s (a ++ b) = (lexRun s a).bind fun r => (lexRun r.2 b).map fun r' => (r.1 ++ r'.1, r'.2) := by
  induction a generalizing s with
  | nil => simp only [List.nil_append, lexRun, Option.bind_some]; cases lexRun s b <;> rfl
  | cons c cs ih =>
    simp only [List.cons_append, lexRun]
    cases h : lexStep s c with
    | none => rfl
    | some r =>
      obtain ⟨ts, s'⟩ := r
      simp only [ih s']
      cases h1 : lexRun s' cs with
      | none => rfl
      | some r =>
        simp only [Option.bind_some, Option.map_some]
        cases lexRun r.2 b with
        | none => rfl
        | some r' => simp only [Option.map_some, List.append_assoc]

/-- Text that ends between tokens. -/
def Lx (e : Bool) (txt : Text) (ts : List Tok) (e' : Bool) : Prop := lexRun (.start e) txt = some (ts, .start e')

/-- Text whose last token may go on, if the text goes on with a letter; a semicolon would be inserted behind. -/
def Reads (txt : Text) (ts : List Tok) : Prop :=
  ∀ e c k, isWordChar c = false → lexRun (.start e) (txt ++ c :: k) = (lexRun (.start true) (c :: k)).map fun r => (ts ++ r.1, r.2)

theorem Lx.nil (e : Bool) : Lx e [] [] e := rfl

theorem Lx.append {e e' e'' : Bool} {a b : Text} {ts us : List Tok} (h : Lx e a ts e') (h' : Lx e' b us e'') :
    Lx e (a ++ b) (ts ++ us) e'' := by
  unfold Lx at *
  rw [lexRun_append, h]
  simp only [Option.bind_some, h', Option.map_some]

theorem Lx.word {e e' : Bool} {a b : Text} {c : Char} {ts us : List Tok} (h : Reads a ts) (hc : isWordChar c = false)
    (h' : Lx true (c :: b) us e') : Lx e (a ++ c :: b) (ts ++ us) e' := by
  unfold Lx at *
  rw [h e c b hc, h']; rfl

theorem Lx.reads {a b : Text} {ts us : List Tok} {e' : Bool} (h : ∀ e, Lx e a ts e') (h' : Reads b us) : Reads (a ++ b) (ts ++ us) := by
  intro e c k hc
  rw [List.append_assoc, lexRun_append, h e]
  simp only [Option.bind_some, h' e' c k hc]
  cases lexRun (.start true) (c :: k) with
  | none => rfl
  | some r => simp only [Option.map_some, List.append_assoc]

/-- A piece that ends with a closing bracket. -/
theorem Lx.toReads {a : Text} {ts : List Tok} (h : ∀ e, Lx e a ts true) : Reads a ts := by
  intro e c k hc
  rw [lexRun_append, h e]; rfl

theorem Reads.append {a b : Text} {c : Char} {ts us : List Tok} (h : Reads a ts) (hc : isWordChar c = false)
    (h' : Reads (c :: b) us) : Reads (a ++ c :: b) (ts ++ us) := by
  intro e d k hd
  rw [List.append_assoc, List.cons_append, h e c _ hc, ← List.cons_append, h' true d k hd]
  cases lexRun (.start true) (d :: k) with
  | none => rfl
  | some r => simp only [Option.map_some, List.append_assoc]

/-! ### words -/

theorem wordChar_ne {c d : Char} (h : isWordChar c = true) (hd : isWordChar d = false) : c ≠ d := by
  rintro rfl; rw [h] at hd; cases hd

theorem stepStart_word (e : Bool) {c : Char} (h : isWordChar c = true) : stepStart e c = some ([], .word [c]) := by
  unfold stepStart
  rw [if_neg (wordChar_ne h (by decide)), if_neg (by
    rintro (h' | h' | h') <;> exact wordChar_ne h (by decide) h'), if_pos h]

theorem lexRun_word (w x : Text) (h : ∀ c ∈ x, isWordChar c = true) : lexRun (.word w) x = some ([], .word (w ++ x)) := by
  induction x generalizing w with
  | nil => simp only [lexRun, List.append_nil]
  | cons c cs ih =>
    simp only [lexRun, lexStep, h c (List.mem_cons_self ..), if_true, ih _ (fun d hd => h d (List.mem_cons_of_mem _ hd)),
      Option.map_some, List.append_assoc, List.singleton_append, List.nil_append]

/-- A word that is no keyword. -/
def IsPlainWord (w : Text) : Prop := w ≠ [] ∧ (∀ c ∈ w, isWordChar c = true) ∧ w ∉ keywords

theorem _root_.Pb.Spec.IsIdent.plain {w : Text} (h : IsIdent w) : IsPlainWord w := ⟨h.1, h.2.1, h.2.2.1⟩

theorem IsPlainWord.ends {w : Text} (h : IsPlainWord w) : endsAfterWord w = true := by
  unfold endsAfterWord
  simp only [h.2.2, not_false_eq_true, decide_true, Bool.true_or]

theorem reads_word {w : Text} (h : IsPlainWord w) : Reads w [.word w] := by
  intro e c k hc
  obtain ⟨h1, h2, h3⟩ := h
  rw [lexRun_append]
  cases w with
  | nil => exact absurd rfl h1
  | cons d ds =>
    have hrun : lexRun (.start e) (d :: ds) = some ([], .word (d :: ds)) := by
      simp only [lexRun, lexStep, stepStart_word e (h2 d (List.mem_cons_self ..)),
        lexRun_word [d] ds (fun x hx => h2 x (List.mem_cons_of_mem _ hx)), Option.map_some, List.nil_append, List.singleton_append]
    rw [hrun]
    simp only [Option.bind_some, lexRun, lexStep, hc, Bool.false_eq_true, if_false, IsPlainWord.ends ⟨h1, h2, h3⟩]
    cases stepStart true c with
    | none => rfl
    | some r =>
      simp only [Option.map_some]
      cases lexRun r.2 k with
      | none => rfl
      | some r' => rfl

/-! ### comments -/



theorem lexRun_comment (e : Bool) (l : Text) (hl : Legal l) (hn : '\n' ∉ l) : lexRun (.comment e) l = some ([], .comment e) := by
  induction l with
  | nil => rfl
  | cons c cs ih =>
    have hc : c ≠ '\n' := fun h => hn (by rw [h]; exact List.mem_cons_self ..)
    simp only [lexRun, lexStep, hc, if_false, hl c (List.mem_cons_self ..), Bool.false_eq_true,
      ih (fun x hx => hl x (List.mem_cons_of_mem _ hx)) (fun hx => hn (List.mem_cons_of_mem _ hx)), Option.map_some, List.nil_append]

theorem lx_line (e : Bool) {l : Text} (hl : Legal l) (hn : '\n' ∉ l) : Lx e (t!"//" ++ l ++ t!"\n") (lineEnd e) false := by
  unfold Lx
  rw [List.append_assoc, lexRun_append]
  have h : lexRun (.start e) t!"//" = some ([], .comment e) := rfl
  rw [h]
  simp only [Option.bind_some]
  rw [lexRun_append, lexRun_comment e l hl hn]
  have h2 : lexRun (.comment e) t!"\n" = some (lineEnd e ++ [], .start false) := rfl
  simp only [Option.bind_some, h2, Option.map_some, List.nil_append, List.append_nil]

theorem splitLines_spec (s : Text) (hs : Legal s) : ∀ l ∈ splitLines s, Legal l ∧ '\n' ∉ l := by
  induction s with
  | nil =>
    intro l hl
    simp only [splitLines, List.mem_singleton] at hl
    subst hl
    exact ⟨fun _ h => absurd h List.not_mem_nil, List.not_mem_nil⟩
  | cons c cs ih =>
    intro l hl
    have ih := ih (fun x hx => hs x (List.mem_cons_of_mem _ hx))
    unfold splitLines at hl
    by_cases hc : c = '\n'
    · rw [if_pos hc] at hl
      rcases List.mem_cons.mp hl with rfl | hl
      · exact ⟨fun _ h => absurd h List.not_mem_nil, List.not_mem_nil⟩
      · exact ih l hl
    · rw [if_neg hc] at hl
      cases hsp : splitLines cs with
      | nil =>
        rw [hsp] at hl
        simp only [List.mem_singleton] at hl
        subst hl
        refine ⟨fun x hx => ?_, ?_⟩
        · rw [List.mem_singleton.mp hx]; exact hs c (List.mem_cons_self ..)
        · intro h; exact hc (List.mem_singleton.mp h).symm
      | cons l0 ls =>
        rw [hsp] at hl ih
        rcases List.mem_cons.mp hl with rfl | hl
        · obtain ⟨h1, h2⟩ := ih l0 (List.mem_cons_self ..)
          refine ⟨fun x hx => ?_, fun h => ?_⟩
          · rcases List.mem_cons.mp hx with rfl | hx
            · exact hs _ (List.mem_cons_self ..)
            · exact h1 x hx
          · rcases List.mem_cons.mp h with h | h
            · exact hc h.symm
            · exact h2 h
        · exact ih l (List.mem_cons_of_mem _ hl)

theorem legal_trim {c : Text} (h : Legal c) : Legal (trimNewline c) := by
  unfold trimNewline
  split
  · exact fun x hx => h x (List.dropLast_subset _ hx)
  · exact h

theorem lx_comment {c : Text} (hc : Legal c) : Lx false (commentText c) [] false := by
  unfold commentText
  split
  · rfl
  · have hs := splitLines_spec _ (legal_trim hc)
    generalize splitLines (trimNewline c) = ls at hs
    induction ls with
    | nil => rfl
    | cons l ls ih =>
      obtain ⟨h1, h2⟩ := hs l (List.mem_cons_self ..)
      rw [List.flatMap_cons]
      exact (lx_line false h1 h2).append (ih (fun x hx => hs x (List.mem_cons_of_mem _ hx)))

theorem legal_append {a b : Text} (ha : Legal a) (hb : Legal b) : Legal (a ++ b) := by
  intro x hx
  rcases List.mem_append.mp hx with h | h
  · exact ha x h
  · exact hb x h

theorem legal_suffix {c : Text} (hc : Legal c) (d : Bool) : Legal (appendDeprecationSuffix c d) := by
  unfold appendDeprecationSuffix
  have h1 : Legal t!" Deprecated: Do not use.\n" := by unfold Legal; decide
  have h2 : Legal t!"\n" := by unfold Legal; decide
  split
  · split
    · exact legal_append hc h1
    · exact legal_append (legal_append hc h2) h1
  · exact hc

theorem legal_commentText {c : Text} (hc : Legal c) : Legal (commentText c) := by
  unfold commentText
  split
  · exact fun _ h => absurd h List.not_mem_nil
  · intro x hx
    obtain ⟨l, hl, hx⟩ := List.mem_flatMap.mp hx
    have h := (splitLines_spec _ (legal_trim hc) l hl).1
    have h1 : Legal t!"//" := by unfold Legal; decide
    have h2 : Legal t!"\n" := by unfold Legal; decide
    exact legal_append (legal_append h1 h) h2 x hx

theorem commentText_shape (c : Text) : commentText c = [] ∨ ∃ r, commentText c = '/' :: '/' :: r := by
  unfold commentText
  split
  · exact .inl rfl
  · cases splitLines (trimNewline c) with
    | nil => exact .inl rfl
    | cons l ls => exact .inr ⟨_, rfl⟩

theorem trailing_shape {c : Text} (hc : Legal c) : trailingText c = [] ∨ ∃ l, trailingText c = t!"//" ++ l ∧ Legal l ∧ '\n' ∉ l := by
  unfold trailingText
  simp only
  split
  · exact .inl rfl
  · rename_i hn
    have hlg := legal_trim (legal_commentText hc)
    rcases commentText_shape c with h | ⟨r, h⟩
    · left; rw [h]; rfl
    · right
      have ⟨l, hl⟩ : ∃ l, trimNewline (commentText c) = '/' :: '/' :: l := by
        rw [h]
        unfold trimNewline
        split
        · cases r with
          | nil => rename_i h'; exact absurd h' (by decide)
          | cons x xs => exact ⟨_, rfl⟩
        · exact ⟨_, rfl⟩
      rw [hl] at hn hlg ⊢
      exact ⟨l, rfl, fun x hx => hlg x (List.mem_cons_of_mem _ (List.mem_cons_of_mem _ hx)),
        fun h => hn (List.mem_cons_of_mem _ (List.mem_cons_of_mem _ h))⟩

/-- The end of a line with a comment behind a complete token. -/
theorem trailing_cons {c : Text} (hc : Legal c) (e : Bool) :
    ∃ x r, trailingText c ++ t!"\n" = x :: r ∧ isWordChar x = false ∧ Lx e (x :: r) (lineEnd e) false := by
  rcases trailing_shape hc with h | ⟨l, h, h1, h2⟩
  · refine ⟨'\n', [], by rw [h]; rfl, by decide, ?_⟩
    cases e <;> rfl
  · refine ⟨'/', '/' :: (l ++ t!"\n"), by rw [h]; rfl, by decide, ?_⟩
    exact lx_line e h1 h2

end Pb
