import Verif.Proofs.GoLex
import Verif.Proofs.GoParse
import Verif.Proofs.Tag
/-
The tokens of generated text.
-/
namespace Pb
open Spec

/-! ### names and numbers -/

theorem IsPlainWord.of_prefix {a b : Text} (ha : ∀ c ∈ a, isWordChar c = true) (hne : a ≠ []) (hk : ∀ k ∈ keywords, ¬ a <+: k)
    (hb : ∀ c ∈ b, isWordChar c = true) : IsPlainWord (a ++ b) := by
  refine ⟨?_, ?_, ?_⟩
  · intro h; exact hne (List.append_eq_nil_iff.mp h).1
  · intro c hc
    rcases List.mem_append.mp hc with h | h
    · exact ha c h
    · exact hb c h
  · intro h; exact hk _ h (List.prefix_append a b)

theorem plain_get {n : Text} (h : IsIdent n) : IsPlainWord (t!"Get" ++ n) :=
  .of_prefix (by decide) (by decide) (by decide) h.2.1

theorem plain_is {n : Text} (h : IsIdent n) : IsPlainWord (t!"is" ++ n) :=
  .of_prefix (by decide) (by decide) (by decide) h.2.1

theorem digit_word {c : Char} {d : Nat} (h : Digit c d) : isWordChar c = true ∧ 'a' > c := by
  cases h <;> decide

theorem numeral_word {s : Text} {n : Nat} (h : Numeral s n) : s ≠ [] ∧ ∀ c ∈ s, isWordChar c = true ∧ 'a' > c := by
  induction h with
  | one c d h =>
    refine ⟨by simp, fun x hx => ?_⟩
    rw [List.mem_singleton.mp hx]; exact digit_word h
  | more s n c d _ h ih =>
    refine ⟨by simp, fun x hx => ?_⟩
    rcases List.mem_append.mp hx with h' | h'
    · exact ih.2 x h'
    · rw [List.mem_singleton.mp h']; exact digit_word h

theorem plain_decimal (n : Nat) : IsPlainWord (decimal n) := by
  obtain ⟨h1, h2⟩ := numeral_word (numeral_decimal n)
  refine ⟨h1, fun c hc => (h2 c hc).1, fun h => ?_⟩
  have hk : ∀ k ∈ keywords, ∃ c ∈ k, ¬ ('a' > c) := by decide
  obtain ⟨c, hc, hc'⟩ := hk _ h
  exact hc' (h2 c hc).2

theorem reads_intText (n : Int) : Reads (intText n) (intToks n) := by
  unfold intText intToks
  split
  · exact Lx.reads (a := t!"-") (ts := [.op '-']) (e' := false) (fun e => by cases e <;> rfl) (reads_word (plain_decimal _))
  · exact reads_word (plain_decimal _)

/-! ### types -/

theorem plain_lit {w : Text} (h : IsPlainWord w) : Reads w [.word w] := reads_word h

theorem reads_qname {q : QName} (h : QNameOK q) : Reads q.text (typeToks (QName.expr q)) := by
  obtain ⟨p, n⟩ := q
  cases p with
  | none => exact reads_word h.name.plain
  | some p =>
    have h1 : Reads ('.' :: n) (Tok.op '.' :: [Tok.word n]) :=
      Lx.reads (a := t!".") (ts := [.op '.']) (e' := false) (fun e => by cases e <;> rfl) (reads_word h.name.plain)
    exact (reads_word (h.pkg p rfl).plain).append (by decide) h1

theorem reads_kind {N : TextNames} (hN : TextNamesOK N) {enum : QName} (he : QNameOK enum) (k : Kind) :
    Reads (kindText N enum k) (typeToks (kindExpr N enum k)) := by
  cases k with
  | enum => exact reads_qname he
  | bytes =>
    exact Lx.reads (a := t!"[]") (ts := [.op '[', .op ']']) (e' := true) (fun e => by cases e <;> rfl)
      (reads_word (w := t!"byte") ⟨by decide, by decide, by decide⟩)
  | message t | group t =>
    exact Lx.reads (a := t!"*") (ts := [.op '*']) (e' := false) (fun e => by cases e <;> rfl) (reads_qname (hN.msg t))
  | _ =>
    simp only [kindText, kindExpr, typeToks]
    exact reads_word ⟨by decide, by decide, by decide⟩

theorem reads_goType {N : TextNames} (hN : TextNamesOK N) {f : TextField} (hf : TextFieldOK f) :
    Reads (goTypeText N f) (typeToks (goTypeExpr N f)) := by
  unfold goTypeText goTypeExpr
  cases f.field.label with
  | repeated =>
    exact Lx.reads (a := t!"[]") (ts := [.op '[', .op ']']) (e' := true) (fun e => by cases e <;> rfl) (reads_kind hN hf.enum _)
  | map key =>
    have h1 : Reads (']' :: kindText N f.enum f.field.kind) (.op ']' :: typeToks (kindExpr N f.enum f.field.kind)) :=
      Lx.reads (a := t!"]") (ts := [.op ']']) (e' := true) (fun e => by cases e <;> rfl) (reads_kind hN hf.enum _)
    have h2 := Lx.reads (a := t!"map[") (ts := [.word t!"map", .op '[']) (e' := false) (fun e => by cases e <;> rfl)
      ((reads_kind hN hf.enum key).append (by decide) h1)
    simp only [List.append_assoc]
    exact h2
  | _ => exact reads_kind hN hf.enum _

theorem reads_fieldType {N : TextNames} (hN : TextNamesOK N) {f : TextField} (hf : TextFieldOK f) :
    Reads (fieldTypeText N f) (typeToks (fieldTypeExpr N f)) := by
  unfold fieldTypeText fieldTypeExpr
  split
  · have h1 : Reads (']' :: []) [.op ']'] := Lx.toReads (fun e => by cases e <;> rfl)
    have h2 := (reads_goType hN hf).append (by decide) h1
    have h3 : Reads ('.' :: (t!"Option[" ++ (goTypeText N f ++ t!"]")))
        (.op '.' :: .word t!"Option" :: .op '[' :: (typeToks (goTypeExpr N f) ++ [.op ']'])) :=
      Lx.reads (a := t!".Option[") (ts := [.op '.', .word t!"Option", .op '[']) (e' := false) (fun e => by cases e <;> rfl) h2
    simp only [List.append_assoc]
    exact (reads_word hN.protoPkg.plain).append (by decide) h3
  · exact reads_goType hN hf

/-! ### tags -/

/-- Text that can stand between back quotes. -/
def RawText (s : Text) : Prop := ∀ c ∈ s, c ≠ '`' ∧ isIllegal c = false ∧ c ≠ '\r'

theorem raw_word {s : Text} (h : ∀ c ∈ s, isWordChar c = true) : RawText s := by
  intro c hc
  have := h c hc
  refine ⟨wordChar_ne this (by decide), ?_, wordChar_ne this (by decide)⟩
  unfold isIllegal
  rw [Bool.or_eq_false_iff]
  exact ⟨by simpa using wordChar_ne this (d := '\x00') (by decide), by simpa using wordChar_ne this (d := '﻿') (by decide)⟩

theorem raw_append {a b : Text} (ha : RawText a) (hb : RawText b) : RawText (a ++ b) := by
  intro c hc
  rcases List.mem_append.mp hc with h | h
  · exact ha c h
  · exact hb c h

theorem raw_cons {c : Char} {s : Text} (hc : c ≠ '`' ∧ isIllegal c = false ∧ c ≠ '\r') (h : RawText s) : RawText (c :: s) := by
  intro x hx
  rcases List.mem_cons.mp hx with rfl | hx
  · exact hc
  · exact h x hx

theorem raw_render (tags : List (Text × Text)) (h : ∀ p ∈ tags, RawText p.1 ∧ RawText p.2) : RawText (renderTags tags) := by
  induction tags with
  | nil => exact fun _ h => absurd h List.not_mem_nil
  | cons p rest ih =>
    obtain ⟨k, v⟩ := p
    obtain ⟨hk, hv⟩ := h _ (List.mem_cons_self ..)
    have ih := ih (fun q hq => h q (List.mem_cons_of_mem _ hq))
    have hq : RawText (quote v) := raw_cons (by decide) (raw_append hv (by unfold RawText; decide))
    cases rest with
    | nil => exact raw_append hk (raw_cons (by decide) hq)
    | cons q rest => exact raw_append hk (raw_cons (by decide) (raw_append hq (raw_cons (by decide) ih)))

theorem kindTagName_mem (k : Kind) :
    kindTagName k ∈ [t!"varint", t!"zigzag32", t!"zigzag64", t!"fixed32", t!"fixed64", t!"bytes", t!"group"] := by
  cases k <;> unfold kindTagName <;> simp

theorem kindTagName_word (k : Kind) : ∀ c ∈ kindTagName k, isWordChar c = true := by
  have h : ∀ s ∈ [t!"varint", t!"zigzag32", t!"zigzag64", t!"fixed32", t!"fixed64", t!"bytes", t!"group"],
    ∀ c ∈ s, isWordChar c = true := by decide
  exact h _ (kindTagName_mem k)

theorem raw_tagValue (f : ProtoField) : RawText (fieldTagValue f) := by
  unfold fieldTagValue
  refine raw_append ?_ (raw_cons (by decide) (raw_append (raw_word (plain_decimal _).2.1) (raw_cons (by decide) ?_)))
  · exact raw_word (kindTagName_word _)
  · cases f.card <;> exact raw_word (by decide)

theorem raw_track : RawText "go".toList ∧ RawText "track".toList := ⟨raw_word (by decide), raw_word (by decide)⟩

theorem raw_fieldTags (tracked : Bool) (f : ProtoField) : ∀ p ∈ fieldTags tracked f, RawText p.1 ∧ RawText p.2 := by
  intro p hp
  unfold fieldTags at hp
  rcases List.mem_cons.mp hp with rfl | hp
  · exact ⟨raw_word (by dsimp only; decide), raw_tagValue _⟩
  rcases List.mem_append.mp hp with hp | hp
  · cases hl : f.label with
    | map key =>
      rw [hl] at hp
      rcases List.mem_cons.mp hp with rfl | hp
      · exact ⟨raw_word (by dsimp only; decide), raw_tagValue _⟩
      · rw [List.mem_singleton.mp hp]; exact ⟨raw_word (by dsimp only; decide), raw_tagValue _⟩
    | _ => rw [hl] at hp; exact absurd hp List.not_mem_nil
  · cases tracked with
    | true => rw [List.mem_singleton.mp hp]; exact raw_track
    | false => exact absurd hp List.not_mem_nil

theorem raw_wrapperTags (tracked : Bool) (f : ProtoField) :
    ∀ p ∈ (("protobuf".toList, fieldTagValue f) :: if tracked then [("go".toList, "track".toList)] else []), RawText p.1 ∧ RawText p.2 := by
  intro p hp
  rcases List.mem_cons.mp hp with rfl | hp
  · exact ⟨raw_word (by dsimp only; decide), raw_tagValue _⟩
  · cases tracked with
    | true => rw [List.mem_singleton.mp hp]; exact raw_track
    | false => exact absurd hp List.not_mem_nil

theorem raw_oneofTags (tracked : Bool) {n : Text} (hn : PlainTag n) : ∀ p ∈ oneofTags tracked n, RawText p.1 ∧ RawText p.2 := by
  intro p hp
  unfold oneofTags at hp
  rcases List.mem_cons.mp hp with rfl | hp
  · exact ⟨raw_word (by dsimp only; decide), raw_word hn⟩
  · cases tracked with
    | true => rw [List.mem_singleton.mp hp]; exact raw_track
    | false => exact absurd hp List.not_mem_nil

theorem lexRun_raw (w s : Text) (h : RawText s) : lexRun (.raw w) s = some ([], .raw (w ++ s)) := by
  induction s generalizing w with
  | nil => simp only [lexRun, List.append_nil]
  | cons c cs ih =>
    obtain ⟨h1, h2, h3⟩ := h c (List.mem_cons_self ..)
    simp only [lexRun, lexStep, h1, h2, h3, if_false, Bool.false_eq_true, ih _ (fun d hd => h d (List.mem_cons_of_mem _ hd)),
      Option.map_some, List.append_assoc, List.singleton_append, List.nil_append]

/-- A tag in back quotes. -/
theorem lx_tags (e : Bool) {tags : List (Text × Text)} (hne : tags ≠ []) (h : ∀ p ∈ tags, RawText p.1 ∧ RawText p.2) :
    Lx e (tagsText tags) [.raw (renderTags tags)] true ∧ ∃ r, tagsText tags = '`' :: r := by
  unfold tagsText
  rw [if_neg hne]
  refine ⟨?_, _, rfl⟩
  unfold Lx
  rw [List.append_assoc, lexRun_append]
  have h1 : lexRun (.start e) t!"`" = some ([], .raw []) := by cases e <;> rfl
  rw [h1]
  simp only [Option.bind_some]
  rw [lexRun_append, lexRun_raw [] _ (raw_render tags h), List.nil_append]
  have h2 : lexRun (.raw (renderTags tags)) t!"`" = some ([.raw (renderTags tags)] ++ [], .start true) := rfl
  simp only [Option.bind_some, h2, Option.map_some, List.nil_append, List.append_nil]

/-! ### struct fields -/

/-- A literal piece of text. -/
theorem Lx.lit {e e' : Bool} {s : Text} {ts : List Tok} (h : lexRun (.start e) s = some (ts, .start e')) : Lx e s ts e' := h

/-- A comment, name, type, tags and trailing comment. -/
theorem lx_field {c n ty tr : Text} {t : TypeExpr} {tags : List (Text × Text)} (hc : Legal c) (hn : IsIdent n)
    (ht : Reads ty (typeToks t)) (hne : tags ≠ []) (htags : ∀ p ∈ tags, RawText p.1 ∧ RawText p.2) (htr : Legal tr) :
    Lx false (commentText c ++ n ++ t!" " ++ ty ++ tagsText tags ++ trailingText tr ++ t!"\n")
      (srcFieldToks ⟨n, t, some (renderTags tags)⟩) false := by
  obtain ⟨x, r, e, _, h1⟩ := trailing_cons htr true
  rw [← e] at h1
  obtain ⟨h2, y, h3⟩ := lx_tags true hne htags
  have h4 := h2.append h1
  rw [h3, List.cons_append] at h4
  have h5 := (Lx.lit (e := true) (s := t!" ") (ts := []) rfl).append (Lx.word (e := true) ht (by decide) h4)
  have h6 := (lx_comment hc).append (Lx.word (e := false) (reads_word hn.plain) (by decide) h5)
  simp only [List.append_assoc]
  rw [h3]
  exact h6

theorem lx_plainField {N : TextNames} (hN : TextNamesOK N) (tracked : Bool) {f : TextField} (hf : TextFieldOK f) :
    Lx false (plainFieldText N tracked f) (srcFieldToks (plainSrcField N tracked f)) false :=
  lx_field (legal_suffix hf.leading _) hf.name (reads_fieldType hN hf) (by unfold fieldTags; simp) (raw_fieldTags _ _) hf.trailing

theorem legal_word {s : Text} (h : ∀ c ∈ s, isWordChar c = true) : Legal s := fun c hc => (raw_word h c hc).2.1

theorem lx_oneofField (tracked : Bool) {o : TextOneof} (ho : TextOneofOK o) :
    Lx false (oneofFieldText tracked o) (srcFieldToks (oneofSrcField tracked o)) false := by
  have hl : Legal t!"\n" := by unfold Legal; decide
  have h1 : Legal ((if o.leading = [] then [] else o.leading ++ t!"\n") ++ t!" Types that are assignable to " ++ o.name ++ t!":\n" ++
      o.members.flatMap fun f => t!"\t*" ++ f.ident ++ t!"\n") := by
    refine legal_append (legal_append (legal_append (legal_append ?_ (by unfold Legal; decide)) (legal_word ho.name.2.1))
      (by unfold Legal; decide)) ?_
    · split
      · exact fun _ h => absurd h List.not_mem_nil
      · exact legal_append ho.leading hl
    · intro x hx
      obtain ⟨f, hf, hx⟩ := List.mem_flatMap.mp hx
      exact legal_append (legal_append (by unfold Legal; decide) (legal_word (ho.members f hf).ident.2.1)) hl x hx
  have := lx_field (n := o.name) (ty := oneofInterfaceName o) (t := .name none (oneofInterfaceName o)) (tr := [])
    h1 ho.name (reads_word (plain_is ho.ident)) (tags := oneofTags tracked o.protoName) (by unfold oneofTags; simp)
    (raw_oneofTags tracked ho.protoName) (fun _ h => absurd h List.not_mem_nil)
  unfold oneofFieldText
  simp only [List.append_assoc] at this ⊢
  exact this

theorem lx_fields {N : TextNames} (hN : TextNamesOK N) {m : TextMessage} (hm : TextMessageOK m) (fs : List TextField) (hfs : ∀ f ∈ fs, TextFieldOK f) :
    ∀ seen, Lx false (fieldsText N m seen fs) ((srcFields N m seen fs).flatMap srcFieldToks) false := by
  induction fs with
  | nil => intro seen; rfl
  | cons f fs ih =>
    intro seen
    have ih := ih (fun f hf => hfs f (List.mem_cons_of_mem _ hf))
    unfold fieldsText srcFields
    cases f.field.label with
    | oneof i =>
      simp only
      split
      · exact ih seen
      · rw [List.flatMap_append]
        refine Lx.append ?_ (ih (i :: seen))
        cases ho : m.oneofs[i]? with
        | none => rfl
        | some o =>
          simp only [List.flatMap_cons, List.flatMap_nil, List.append_nil]
          exact lx_oneofField _ (hm.oneofs o (List.mem_of_getElem? ho))
    | _ =>
      simp only [List.flatMap_cons]
      exact (lx_plainField hN _ (hfs f (List.mem_cons_self ..))).append (ih seen)

theorem lx_struct {N : TextNames} (hN : TextNamesOK N) {m : TextMessage} (hm : TextMessageOK m) :
    Lx false (commentText (appendDeprecationSuffix m.leading m.deprecated) ++ t!"type " ++ m.name ++ t!" struct {\n" ++
      messageFieldsText N m ++ t!"}\n" ++ t!"\n") (declToks (structDecl N m)) false := by
  have h1 := lx_fields hN hm m.fields hm.fields []
  have h2 : Lx false (messageFieldsText N m ++ (t!"}\n" ++ t!"\n")) ((srcFields N m [] m.fields ++
      if m.fields.all TextField.comparable then
        [(⟨t!"_", .array t!"0" .func, none⟩ : SrcField)] else []).flatMap srcFieldToks ++ [.op '}', .semi]) false := by
    unfold messageFieldsText
    rw [List.flatMap_append, List.append_assoc, List.append_assoc]
    refine h1.append ?_
    split
    · exact Lx.lit (s := t!"_ [0]func()\n" ++ (t!"}\n" ++ t!"\n")) rfl
    · exact Lx.lit (s := t!"}\n" ++ t!"\n") rfl
  have h3 := (Lx.lit (e := true) (s := t!" struct {\n") (ts := [.word t!"struct", .op '{']) rfl).append h2
  have h4 := (Lx.lit (e := false) (s := t!"type ") (ts := [.word t!"type"]) (e' := false) rfl).append
    (Lx.word (e := false) (reads_word hm.name.plain) (by decide) h3)
  have h5 := (lx_comment (legal_suffix hm.leading m.deprecated)).append h4
  simp only [List.append_assoc]
  exact h5

/-! ### enums -/

theorem lx_enumValue {e : TextEnum} (he : IsIdent e.name) {v : TextEnumValue} (hn : IsIdent v.name) (hl : Legal v.leading)
    (ht : Legal v.trailing) :
    Lx false (commentText (appendDeprecationSuffix v.leading v.deprecated) ++ v.name ++ t!" " ++ e.name ++ t!" = " ++ intText v.number ++
      trailingText v.trailing ++ t!"\n") (constToks (v.name, .name none e.name, intToks v.number)) false := by
  obtain ⟨x, r, hx, hw, h1⟩ := trailing_cons ht true
  have h2 := Lx.word (e := false) (reads_intText v.number) hw h1
  rw [← hx] at h2
  have h3 := (Lx.lit (e := true) (s := t!" = ") (ts := [.op '=']) rfl).append h2
  have h4 := (Lx.lit (e := true) (s := t!" ") (ts := []) rfl).append (Lx.word (e := true) (reads_word he.plain) (by decide) h3)
  have h5 := (lx_comment (legal_suffix hl v.deprecated)).append (Lx.word (e := false) (reads_word hn.plain) (by decide) h4)
  simp only [List.append_assoc]
  exact h5

theorem lx_flatMap {α : Type} (l : List α) (f : α → Text) (g : α → List Tok) (h : ∀ a ∈ l, Lx false (f a) (g a) false) :
    Lx false (l.flatMap f) (l.flatMap g) false := by
  induction l with
  | nil => rfl
  | cons a l ih => exact (h a (List.mem_cons_self ..)).append (ih fun b hb => h b (List.mem_cons_of_mem _ hb))

theorem lx_enum {e : TextEnum} (he : TextEnumOK e) : Lx false (enumText e) ((enumDecls e).flatMap declToks) false := by
  have h1 := lx_flatMap e.values _ _ fun v hv => lx_enumValue he.name (he.values v hv).1 (he.values v hv).2.1 (he.values v hv).2.2
  simp only [List.append_assoc] at h1
  have h2 := h1.append (Lx.lit (e := false) (s := t!")\n" ++ t!"\n") (ts := [.op ')', .semi]) (e' := false) rfl)
  have h3 := (Lx.lit (e := true) (s := t!"= int32\n" ++ t!"const (\n") (ts := [.op '=', .word t!"int32", .semi, .word t!"const", .op '('])
    rfl).append h2
  have h4 := (Lx.lit (e := false) (s := t!"type ") (ts := [.word t!"type"]) rfl).append
    (Lx.word (e := false) (reads_word he.name.plain) (by decide) h3)
  have h5 := (lx_comment (legal_suffix he.leading e.deprecated)).append h4
  unfold enumText enumDecls
  simp only [List.append_assoc, List.flatMap_cons, List.flatMap_nil, declToks, List.append_nil, typeToks, List.flatMap_map]
  exact h5

/-! ### oneofs -/

theorem lx_wrapper {N : TextNames} (hN : TextNamesOK N) (tracked : Bool) {f : TextField} (hf : TextFieldOK f) :
    Lx false (wrapperText N tracked f) (declToks (wrapperDecl N tracked f)) false := by
  have h1 := lx_field (legal_suffix hf.leading f.deprecated) hf.name (reads_goType hN hf) (by simp) (raw_wrapperTags tracked f.field)
    hf.trailing
  have h2 := h1.append (Lx.lit (e := false) (s := t!"}\n" ++ t!"\n") (ts := [.op '}', .semi]) (e' := false) rfl)
  have h3 := (Lx.lit (e := true) (s := t!" struct {\n") (ts := [.word t!"struct", .op '{']) rfl).append h2
  have h4 := (Lx.lit (e := false) (s := t!"type ") (ts := [.word t!"type"]) rfl).append
    (Lx.word (e := false) (reads_word hf.ident.plain) (by decide) h3)
  unfold wrapperText wrapperDecl
  simp only [List.append_assoc, List.flatMap_cons, List.flatMap_nil, declToks, List.append_nil] at h4 ⊢
  exact h4

theorem lx_marker {o : TextOneof} (ho : TextOneofOK o) {f : TextField} (hf : TextFieldOK f) :
    Lx false (t!"func (*" ++ f.ident ++ t!") " ++ oneofInterfaceName o ++ t!"() {}\n" ++ t!"\n")
      (declToks (.method none f.ident (oneofInterfaceName o) none [])) false := by
  have h1 := Lx.word (e := true) (reads_word (plain_is ho.ident)) (by decide)
    (Lx.lit (e := true) (s := t!"() {}\n" ++ t!"\n") (ts := [.op '(', .op ')', .op '{', .op '}', .semi]) (e' := false) rfl)
  have h2 := (Lx.lit (e := true) (s := t!") ") (ts := [.op ')']) rfl).append h1
  have h3 := (Lx.lit (e := false) (s := t!"func (*") (ts := [.word t!"func", .op '(', .op '*']) rfl).append
    (Lx.word (e := false) (reads_word hf.ident.plain) (by decide) h2)
  simp only [List.append_assoc]
  exact h3

theorem lx_oneofTypes {N : TextNames} (hN : TextNamesOK N) (tracked : Bool) {o : TextOneof} (ho : TextOneofOK o) :
    Lx false (oneofTypesText N tracked o) ((oneofDecls N tracked o).flatMap declToks) false := by
  have h1 := lx_flatMap o.members _ _ fun f hf => lx_wrapper hN tracked (ho.members f hf)
  have h2 := h1.append (lx_flatMap o.members _ _ fun f hf => lx_marker ho (ho.members f hf))
  simp only [List.append_assoc] at h2
  have h3 := (Lx.lit (e := true) (s := t!"()\n" ++ (t!"}\n" ++ t!"\n")) (ts := [.op '(', .op ')', .semi, .op '}', .semi]) rfl).append h2
  have h4 := (Lx.lit (e := true) (s := t!" interface {\n") (ts := [.word t!"interface", .op '{']) (e' := false) rfl).append
    (Lx.word (e := false) (reads_word (plain_is ho.ident)) (by decide) h3)
  have h5 := (Lx.lit (e := false) (s := t!"type ") (ts := [.word t!"type"]) (e' := false) rfl).append
    (Lx.word (e := false) (reads_word (plain_is ho.ident)) (by decide) h4)
  unfold oneofTypesText oneofDecls
  simp only [List.append_assoc, List.flatMap_cons, List.flatMap_append, List.flatMap_map]
  exact h5

/-! ### getters -/

theorem lx_oneofGetter {m : TextMessage} (hm : IsIdent m.name) {o : TextOneof} (ho : TextOneofOK o) :
    Lx false (oneofGetterText m o) (declToks (oneofGetter m o)) false := by
  have h1 := Lx.word (e := false) (reads_word ho.name.plain) (by decide)
    (Lx.lit (e := true) (s := t!"\n" ++ (t!"}\n" ++ (t!"return nil\n" ++ (t!"}\n" ++ t!"\n"))))
      (ts := [.semi, .op '}', .semi, .word t!"return", .word t!"nil", .semi, .op '}', .semi]) (e' := false) rfl)
  have h2 := (Lx.lit (e := true) (s := t!" {\n" ++ (t!"if m != nil {\n" ++ t!"return m."))
    (ts := [.op '{', .word t!"if", .word t!"m", .op '!', .op '=', .word t!"nil", .op '{', .word t!"return", .word t!"m", .op '.'])
    rfl).append h1
  have h3 := (Lx.lit (e := true) (s := t!"() ") (ts := [.op '(', .op ')']) (e' := true) rfl).append
    (Lx.word (e := true) (reads_word (plain_is ho.ident)) (by decide) h2)
  have h4 := (Lx.lit (e := true) (s := t!") ") (ts := [.op ')']) (e' := true) rfl).append
    (Lx.word (e := true) (reads_word (plain_get ho.name)) (by decide) h3)
  have h5 := (Lx.lit (e := false) (s := t!"func (m *") (ts := [.word t!"func", .op '(', .word t!"m", .op '*']) (e' := false) rfl).append
    (Lx.word (e := false) (reads_word hm.plain) (by decide) h4)
  unfold oneofGetterText
  simp only [List.append_assoc]
  exact h5

theorem reads_default {f : TextField} (hf : TextFieldOK f) : Reads (defaultText f) (defaultToks f) := by
  have hnil : Reads t!"nil" [.word t!"nil"] := reads_word ⟨by decide, by decide, by decide⟩
  have h0 : Reads t!"0" [.word t!"0"] := reads_word ⟨by decide, by decide, by decide⟩
  have hs : Reads t!"\"\"" [.str []] := Lx.toReads (fun e => by cases e <;> rfl)
  have hfa : Reads t!"false" [.word t!"false"] := reads_word ⟨by decide, by decide, by decide⟩
  have he : Reads (match f.enumFirst.pkg with
      | none => f.enumFirst.name
      | some _ => f.enum.text ++ t!"(" ++ intText f.enumNumber ++ t!")") (match f.enumFirst.pkg, f.enum.pkg with
      | none, _ => [.word f.enumFirst.name]
      | some _, none => .word f.enum.name :: .op '(' :: (intToks f.enumNumber ++ [.op ')'])
      | some _, some p => .word p :: .op '.' :: .word f.enum.name :: .op '(' :: (intToks f.enumNumber ++ [.op ')'])) := by
    cases f.enumFirst.pkg with
    | none => exact reads_word hf.enumFirst.name.plain
    | some q =>
      have h1 : Reads t!")" [.op ')'] := Lx.toReads (fun e => by cases e <;> rfl)
      have h2 : Reads ('(' :: (intText f.enumNumber ++ t!")")) (.op '(' :: (intToks f.enumNumber ++ [.op ')'])) :=
        Lx.reads (a := t!"(") (ts := [.op '(']) (e' := false) (fun e => by cases e <;> rfl)
          ((reads_intText f.enumNumber).append (by decide) h1)
      have h3 := (reads_qname hf.enum).append (by decide) h2
      simp only [List.append_assoc]
      unfold QName.expr at h3
      cases hp : f.enum.pkg with
      | none => rw [hp] at h3; exact h3
      | some p => rw [hp] at h3; exact h3
  unfold defaultText defaultToks
  cases f.field.label <;> simp only <;> first
    | exact hnil
    | (cases f.field.kind <;> simp only <;> first
        | exact hnil
        | exact h0
        | exact hs
        | exact hfa
        | exact he)

theorem lx_memberGetter {N : TextNames} (hN : TextNamesOK N) {m : TextMessage} (hm : IsIdent m.name) {o : TextOneof} (ho : TextOneofOK o)
    {f : TextField} (hf : TextFieldOK f) : Lx false (memberGetterText N m o f) (declToks (memberGetter N m o f)) false := by
  have h2 := (Lx.lit (e := true) (s := t!"\n" ++ (t!"}\n" ++ t!"return ")) (ts := [.semi, .op '}', .semi, .word t!"return"])
    (e' := true) rfl)
  have h1 := Lx.word (e := true) (reads_default hf) (by decide)
    (Lx.lit (e := true) (s := t!"\n" ++ t!"}\n") (ts := [.semi, .op '}', .semi]) (e' := false) rfl)
  have h3 := Lx.word (e := false) (reads_word hf.name.plain) (by decide) (h2.append h1)
  have h4 := (Lx.lit (e := true) (s := t!"); ok {\n" ++ t!"return x.")
    (ts := [.op ')', .semi, .word t!"ok", .op '{', .word t!"return", .word t!"x", .op '.']) (e' := false) rfl).append h3
  have h5 := (Lx.lit (e := true) (s := t!"().(*") (ts := [.op '(', .op ')', .op '.', .op '(', .op '*']) (e' := false) rfl).append
    (Lx.word (e := false) (reads_word hf.ident.plain) (by decide) h4)
  have h6 := (Lx.lit (e := true) (s := t!" {\n" ++ t!"if x, ok := x.")
    (ts := [.op '{', .word t!"if", .word t!"x", .op ',', .word t!"ok", .op ':', .op '=', .word t!"x", .op '.']) (e' := false) rfl).append
    (Lx.word (e := false) (reads_word (plain_get ho.name)) (by decide) h5)
  have h7 := (Lx.lit (e := true) (s := t!"() ") (ts := [.op '(', .op ')']) (e' := true) rfl).append
    (Lx.word (e := true) (reads_goType hN hf) (by decide) h6)
  have h8 := (Lx.lit (e := true) (s := t!") ") (ts := [.op ')']) (e' := true) rfl).append
    (Lx.word (e := true) (reads_word (plain_get hf.name)) (by decide) h7)
  have h9 := (Lx.lit (e := false) (s := t!"func (x *") (ts := [.word t!"func", .op '(', .word t!"x", .op '*']) (e' := false) rfl).append
    (Lx.word (e := false) (reads_word hm.plain) (by decide) h8)
  have h10 := (lx_comment (legal_suffix (c := []) (fun _ h => absurd h List.not_mem_nil) f.deprecated)).append h9
  unfold memberGetterText memberGetter
  simp only [List.append_assoc, declToks, recvToks, resToks]
  exact h10

theorem lx_pragma (tracked : Bool) : Lx false (pragmaText tracked) [] false := by cases tracked <;> rfl

theorem lx_getters {N : TextNames} (hN : TextNamesOK N) {m : TextMessage} (hm : TextMessageOK m) (fs : List TextField) (hfs : ∀ f ∈ fs, TextFieldOK f) :
    ∀ seen, Lx false (gettersText N m seen fs) ((getterDecls N m seen fs).flatMap declToks) false := by
  induction fs with
  | nil => intro seen; rfl
  | cons f fs ih =>
    intro seen
    have ih := ih (fun f hf => hfs f (List.mem_cons_of_mem _ hf))
    have hnl : Lx false t!"\n" [] false := rfl
    unfold gettersText getterDecls
    cases f.field.label with
    | oneof i =>
      simp only
      rw [List.flatMap_append, List.append_assoc, List.append_assoc]
      refine Lx.append (ts := []) (e' := false) (lx_pragma _) (Lx.append (e' := false) ?_ (hnl.append (ih (i :: seen))))
      cases ho : m.oneofs[i]? with
      | none => rfl
      | some o =>
        have ho := hm.oneofs o (List.mem_of_getElem? ho)
        simp only [List.flatMap_append, List.flatMap_cons, List.flatMap_nil, List.append_nil]
        refine Lx.append (e' := false) ?_ (lx_memberGetter hN hm.name ho (hfs f (List.mem_cons_self ..)))
        split
        · rfl
        · simp only [List.flatMap_cons, List.flatMap_nil, List.append_nil]
          exact lx_oneofGetter hm.name ho
    | _ =>
      simp only
      exact ((lx_pragma _).append hnl).append (ih seen)

/-! ### files -/

theorem lx_message {N : TextNames} (hN : TextNamesOK N) {m : TextMessage} (hm : TextMessageOK m) :
    Lx false (messageText N m) ((messageDecls N m).flatMap declToks) false := by
  have h := (lx_struct hN hm).append ((lx_getters hN hm m.fields hm.fields []).append
    (lx_flatMap m.oneofs _ _ fun o ho => lx_oneofTypes hN m.tracked (hm.oneofs o ho)))
  unfold messageText messageDecls
  simp only [List.append_assoc, List.flatMap_cons, List.flatMap_append, List.flatMap_assoc] at h ⊢
  exact h

theorem lx_body {N : TextNames} (hN : TextNamesOK N) {f : TextFile} (hf : TextFileOK f) :
    Lx false (bodyText N f) ((fileDecls N f).flatMap declToks) false := by
  have h := (lx_flatMap f.enums _ _ fun e he => lx_enum (hf.enums e he)).append
    (lx_flatMap f.messages _ _ fun m hm => lx_message hN (hf.messages m hm))
  unfold fileDecls
  simp only [List.flatMap_append, List.flatMap_assoc]
  exact h

theorem lx_header {f : TextFile} (hf : TextFileOK f) : Lx false (headerText f) [.word t!"package", .word f.pkg, .semi] false := by
  have h2 := Lx.lit (e := true) (s := t!"\n" ++ t!"\n") (ts := [.semi]) (e' := false) rfl
  have h3 := (Lx.lit (e := false) (s := t!"\n" ++ t!"package ") (ts := [.word t!"package"]) (e' := false) rfl).append
    (Lx.word (e := false) (reads_word hf.pkg.plain) (by decide) h2)
  have h4 : Lx false (if f.deprecated then t!"// " ++ f.path ++ t!" is a deprecated file.\n" else t!"// source: " ++ f.path ++ t!"\n")
      [] false := by
    split
    · have := lx_line false (l := t!" " ++ f.path ++ t!" is a deprecated file.")
        (legal_append (legal_append (by unfold Legal; decide) hf.path) (by unfold Legal; decide))
        (by simp [hf.line])
      simp only [List.append_assoc] at this ⊢
      exact this
    · have := lx_line false (l := t!" source: " ++ f.path) (legal_append (by unfold Legal; decide) hf.path) (by simp [hf.line])
      simp only [List.append_assoc] at this ⊢
      exact this
  have h5 := (Lx.lit (e := false) (s := t!"// Code generated by protoc-gen-golite. DO NOT EDIT.\n") (ts := []) (e' := false) rfl).append
    (h4.append h3)
  unfold headerText
  simp only [List.append_assoc]
  exact h5

theorem Lx.tokens {src : Text} {ts : List Tok} (h : Lx false src ts false) : tokens src = some ts := by
  unfold Lx at h
  simp only [Spec.tokens, h, lexEnd, lineEnd, Option.map_some, Bool.false_eq_true, if_false, List.append_nil]

theorem tokens_file {N : TextNames} (hN : TextNamesOK N) {f : TextFile} (hf : TextFileOK f) :
    tokens (fileText N f) = some (.word t!"package" :: .word f.pkg :: .semi :: (fileDecls N f).flatMap declToks) :=
  ((lx_header hf).append (lx_body hN hf)).tokens

end Pb
