import Verif.Proofs.GenImport
import Verif.Props.GenText
/-
C71: public imports.
-/
namespace Pb.Props
open Pb Pb.Spec

/-- C71. A file with imports of any depth is generated, and Go reads from it the forwards for its public imports, then its own
declarations as in C69. -/
theorem C71_source_reads {u : TextUnit} (h : TextUnitOK u) :
    ∃ src, unitText u = some src ∧ parseFile src = some (u.file.pkg, importDecls u.goPath u.imports ++ fileDecls u.names u.file) :=
  unit_reads u h

theorem mem_importDecls (goPath : Text) (d : SrcDecl) : ∀ is : TextImports,
    d ∈ importDecls goPath is ↔ ∃ i ∈ importList is, (i.isPublic = true ∧ i.unit.goPath ≠ goPath) ∧ d ∈ forwardDecls i.alias i.unit.desc i.unit.file
  | .nil => by simp [importDecls, importList]
  | .cons path pub al u rest => by
    rw [importDecls, importList, List.mem_append, mem_importDecls goPath d rest]
    simp only [List.mem_cons, exists_eq_or_imp]
    refine or_congr ?_ Iff.rfl
    split
    · next h => exact ⟨fun hd => ⟨h, hd⟩, fun hd => hd.2⟩
    · next h => exact ⟨fun hd => absurd hd List.not_mem_nil, fun hd => absurd hd.1 h⟩

theorem mem_forwardDecls (alias desc : Text) (f : TextFile) (d : SrcDecl) : d ∈ forwardDecls alias desc f ↔
    (∃ n ∈ typeNames f, n ≠ desc ∧ d = typeForward alias n) ∨ ∃ n ∈ valueNames f, n ≠ desc ∧ d = constForward alias n := by
  unfold forwardDecls typeNames valueNames
  constructor
  · intro h
    rcases List.mem_append.mp h with h | h
    · obtain ⟨e, he, h⟩ := List.mem_flatMap.mp h
      rcases List.mem_append.mp h with h | h
      · obtain ⟨n, hn, rfl⟩ := List.mem_map.mp h
        obtain ⟨hn, hd⟩ := List.mem_filter.mp hn
        rw [List.mem_singleton.mp hn] at hd ⊢
        exact .inl ⟨_, List.mem_append_left _ (List.mem_map_of_mem he), of_decide_eq_true hd, rfl⟩
      · obtain ⟨n, hn, rfl⟩ := List.mem_map.mp h
        obtain ⟨hn, hd⟩ := List.mem_filter.mp hn
        exact .inr ⟨n, List.mem_flatMap.mpr ⟨e, he, hn⟩, of_decide_eq_true hd, rfl⟩
    · obtain ⟨m, hm, h⟩ := List.mem_flatMap.mp h
      obtain ⟨n, hn, rfl⟩ := List.mem_map.mp h
      obtain ⟨hn, hd⟩ := List.mem_filter.mp hn
      exact .inl ⟨n, List.mem_append_right _ (List.mem_flatMap.mpr ⟨m, hm, hn⟩), of_decide_eq_true hd, rfl⟩
  · rintro (⟨n, hn, hd, rfl⟩ | ⟨n, hn, hd, rfl⟩)
    · rcases List.mem_append.mp hn with hn | hn
      · obtain ⟨e, he, rfl⟩ := List.mem_map.mp hn
        exact List.mem_append_left _ (List.mem_flatMap.mpr ⟨e, he, List.mem_append_left _
          (List.mem_map_of_mem (List.mem_filter.mpr ⟨List.mem_singleton.mpr rfl, decide_eq_true hd⟩))⟩)
      · obtain ⟨m, hm, hn⟩ := List.mem_flatMap.mp hn
        exact List.mem_append_right _ (List.mem_flatMap.mpr ⟨m, hm, List.mem_map_of_mem (List.mem_filter.mpr ⟨hn, decide_eq_true hd⟩)⟩)
    · obtain ⟨e, he, hn⟩ := List.mem_flatMap.mp hn
      exact List.mem_append_left _ (List.mem_flatMap.mpr ⟨e, he, List.mem_append_right _
        (List.mem_map_of_mem (List.mem_filter.mpr ⟨hn, decide_eq_true hd⟩))⟩)

/-- C71. Every enum, message, oneof wrapper and enum value of a publicly imported file is visible under its own name, unless the name
is that of the file descriptor. -/
theorem C71_forwarded_partial {u : TextUnit} (h : TextUnitOK u) {src : Text} (hs : unitText u = some src) {i : Import} (hi : Forwards u i) :
    ∃ ds, parseFile src = some (u.file.pkg, ds) ∧
      (∀ n ∈ typeNames i.unit.file, n ≠ i.unit.desc → SrcDecl.alias n (.name (some i.alias) n) ∈ ds) ∧
      ∀ n ∈ valueNames i.unit.file, n ≠ i.unit.desc → SrcDecl.const n [.word i.alias, .op '.', .word n] ∈ ds := by
  obtain ⟨src', hs', hp⟩ := C71_source_reads h
  rw [hs] at hs'
  injection hs' with hs'
  subst hs'
  refine ⟨_, hp, fun n hn hd => ?_, fun n hn hd => ?_⟩
  · exact List.mem_append_left _ ((mem_importDecls _ _ _).mpr ⟨i, hi.1, hi.2, (mem_forwardDecls ..).mpr (.inl ⟨n, hn, hd, rfl⟩)⟩)
  · exact List.mem_append_left _ ((mem_importDecls _ _ _).mpr ⟨i, hi.1, hi.2, (mem_forwardDecls ..).mpr (.inr ⟨n, hn, hd, rfl⟩)⟩)

/-- C71. Nothing else is added: each declaration is one of the file's own or forwards a symbol that a publicly imported file of
another Go package declares itself. -/
theorem C71_nothing_else {u : TextUnit} (h : TextUnitOK u) {src : Text} (hs : unitText u = some src) :
    ∃ ds, parseFile src = some (u.file.pkg, ds) ∧ ∀ d ∈ ds, d ∈ fileDecls u.names u.file ∨
      ∃ i, Forwards u i ∧ ((∃ n ∈ typeNames i.unit.file, d = .alias n (.name (some i.alias) n)) ∨
        ∃ n ∈ valueNames i.unit.file, d = .const n [.word i.alias, .op '.', .word n]) := by
  obtain ⟨src', hs', hp⟩ := C71_source_reads h
  rw [hs] at hs'
  injection hs' with hs'
  subst hs'
  refine ⟨_, hp, fun d hd => ?_⟩
  rcases List.mem_append.mp hd with hd | hd
  · obtain ⟨i, hi, hf, hd⟩ := (mem_importDecls _ _ _).mp hd
    refine .inr ⟨i, ⟨hi, hf⟩, ?_⟩
    rcases (mem_forwardDecls ..).mp hd with ⟨n, hn, _, rfl⟩ | ⟨n, hn, _, rfl⟩
    · exact .inl ⟨n, hn, rfl⟩
    · exact .inr ⟨n, hn, rfl⟩
  · exact .inl hd

theorem importsText_silent (goPath : Text) : ∀ is : TextImports,
    (∀ i ∈ importList is, i.isPublic = false ∨ i.unit.goPath = goPath) → importsText goPath is = some []
  | .nil, _ => rfl
  | .cons path pub al u rest, h => by
    have hr := importsText_silent goPath rest (fun i hi => h i (List.mem_cons_of_mem _ hi))
    unfold importsText
    rcases h _ (List.mem_cons_self ..) with h | h
    · have h : pub = false := h
      subst h
      split
      · exact hr
      · exact hr
    · rw [if_pos h]; exact hr

/-- C71. Imports that are not public, or of the same Go package, do not change the text at all. -/
theorem C71_private_imports_silent (N : TextNames) (f : TextFile) (goPath desc : Text) (imports : TextImports)
    (h : ∀ i ∈ importList imports, i.isPublic = false ∨ i.unit.goPath = goPath) :
    unitText (.mk N f goPath desc imports) = some (fileText N f) := by
  rw [unitText, importsText_silent goPath imports h]
  rfl

/-! ### a sample: a file with a public import of the sample file of C69, which has a public import itself -/

def baseUnit : TextUnit := .mk textNames (commented t!"x") t!"g/c" t!"File_c_proto" .nil

def midUnit : TextUnit := .mk textNames textFile t!"g/b" t!"File_b_proto" (.cons t!"c.proto" true t!"c" baseUnit .nil)

def topUnit : TextUnit :=
  .mk textNames (commented t!"top") t!"g/a" t!"File_a_proto"
    (.cons t!"c.proto" false t!"c" baseUnit (.cons t!"b.proto" true t!"b" midUnit .nil))

theorem commented_ok {c : Text} (h : Legal c) : TextFileOK (commented c) := by
  have h1 : Legal t!"a.proto" ∧ '\n' ∉ t!"a.proto" := ⟨by unfold Legal; decide, by decide⟩
  refine ⟨h1.1, h1.2, ident_intro (w := t!"p") (by decide), fun e he => absurd he List.not_mem_nil, ?_⟩
  intro m hm
  rw [List.mem_singleton.mp hm]
  exact ⟨ident_intro (w := t!"M") (by decide), h, (fun f hf => absurd hf List.not_mem_nil), fun o ho => absurd ho List.not_mem_nil⟩

theorem topUnit_ok : TextUnitOK topUnit := by
  have h1 : TextUnitOK baseUnit :=
    ⟨textNames_ok, commented_ok (by unfold Legal; decide), ⟨by decide, by decide⟩, trivial⟩
  have h2 : TextUnitOK midUnit :=
    ⟨textNames_ok, textFile_ok, ⟨by decide, by decide⟩, by unfold Legal; decide, by decide, ident_intro (by decide), h1, trivial⟩
  exact ⟨textNames_ok, commented_ok (by unfold Legal; decide), ⟨by decide, by decide⟩,
    by unfold Legal; decide, by decide, ident_intro (by decide), h1, by unfold Legal; decide, by decide, ident_intro (by decide), h2, trivial⟩

example : ∃ src, unitText topUnit = some src ∧ parseFile src = some (t!"p",
    [.alias t!"E" (.name (some t!"b") t!"E"), .const t!"E_Z" [.word t!"b", .op '.', .word t!"E_Z"],
     .alias t!"M" (.name (some t!"b") t!"M"), .alias t!"M_C" (.name (some t!"b") t!"M_C")] ++ fileDecls textNames (commented t!"top")) :=
  C71_source_reads topUnit_ok

example : Forwards topUnit ⟨t!"b.proto", true, t!"b", midUnit⟩ :=
  ⟨List.mem_cons_of_mem _ (List.mem_singleton.mpr rfl), rfl, by decide⟩

/-! ### where it fails -/

/-- A file with one message, without fields. -/
def bareFile (n : Text) : TextFile := ⟨t!"a.proto", false, t!"p", [], [⟨n, [], false, false, [], []⟩]⟩

theorem bareFile_ok {n : Text} (hn : IsIdent n) : TextFileOK (bareFile n) := by
  have h1 : Legal t!"a.proto" ∧ '\n' ∉ t!"a.proto" := ⟨by unfold Legal; decide, by decide⟩
  refine ⟨h1.1, h1.2, ident_intro (w := t!"p") (by decide), fun e he => absurd he List.not_mem_nil, ?_⟩
  intro m hm
  rw [List.mem_singleton.mp hm]
  exact ⟨hn, (fun c hc => absurd hc List.not_mem_nil), (fun f hf => absurd hf List.not_mem_nil), fun o ho => absurd ho List.not_mem_nil⟩

/-- C71 fails for a message that has the name protogen gives to the file descriptor (which this generator does not even declare): it is not forwarded. -/
theorem C71_false_descriptor :
    let imported := TextUnit.mk textNames (bareFile t!"File_a_proto") t!"g/a" t!"File_a_proto" .nil
    let u := TextUnit.mk textNames (bareFile t!"T") t!"g/b" t!"File_b_proto" (.cons t!"a.proto" true t!"a" imported .nil)
    TextUnitOK u ∧ ∃ src, unitText u = some src ∧ parseFile src = some (t!"p", fileDecls textNames (bareFile t!"T")) := by
  intro imported u
  have h1 : TextUnitOK imported := ⟨textNames_ok, bareFile_ok (ident_intro (by decide)), ⟨by decide, by decide⟩, trivial⟩
  have h : TextUnitOK u := ⟨textNames_ok, bareFile_ok (ident_intro (by decide)), ⟨by decide, by decide⟩,
    by unfold Legal; decide, by decide, ident_intro (by decide), h1, trivial⟩
  exact ⟨h, C71_source_reads h⟩

/-- C71. Two publicly imported files of different packages may both declare a message `M`; then `M` is declared twice, and Go refuses
the file. -/
theorem C71_false_duplicates :
    let x := TextUnit.mk textNames (bareFile t!"M") t!"g/x" t!"File_x_proto" .nil
    let y := TextUnit.mk textNames (bareFile t!"M") t!"g/y" t!"File_y_proto" .nil
    let u := TextUnit.mk textNames (bareFile t!"T") t!"g/b" t!"File_b_proto" (.cons t!"x.proto" true t!"x" x (.cons t!"y.proto" true t!"y" y .nil))
    (∃ src ds, unitText u = some src ∧ parseFile src = some (t!"p", ds) ∧ declaredTypes ds = [t!"M", t!"M", t!"T"]) ∧
    (declaredTypes (fileDecls textNames (bareFile t!"M"))).Nodup ∧ (declaredTypes (fileDecls textNames (bareFile t!"T"))).Nodup := by
  intro x y u
  have hM : TextFileOK (bareFile t!"M") := bareFile_ok (ident_intro (by decide))
  have hx : TextUnitOK x := ⟨textNames_ok, hM, ⟨by decide, by decide⟩, trivial⟩
  have hy : TextUnitOK y := ⟨textNames_ok, hM, ⟨by decide, by decide⟩, trivial⟩
  have hu : TextUnitOK u := ⟨textNames_ok, bareFile_ok (ident_intro (by decide)), ⟨by decide, by decide⟩,
    by unfold Legal; decide, by decide, ident_intro (by decide), hx, by unfold Legal; decide, by decide, ident_intro (by decide), hy, trivial⟩
  obtain ⟨src, h1, h2⟩ := C71_source_reads hu
  exact ⟨⟨src, _, h1, h2, by decide +kernel⟩, by decide +kernel, by decide +kernel⟩

/-- Files `a n`, `b n` (in packages of their own), both with public imports of `a (n-1)` and `b (n-1)`. -/
def diamond (c : Char) : Nat → TextUnit
  | 0 => .mk textNames (bareFile [c]) [c] [] .nil
  | n + 1 => .mk textNames (bareFile (c :: List.replicate (n + 1) c)) (List.replicate (n + 2) c) []
      (.cons t!"a.proto" true t!"a" (diamond 'A' n) (.cons t!"b.proto" true t!"b" (diamond 'B' n) .nil))

theorem diamond_goPath (c : Char) (n : Nat) : (diamond c n).goPath = List.replicate (n + 1) c := by
  cases n <;> rfl

/-- C71. The work for public imports is exponential: with `2 * n` files above each other in pairs, `GenerateFile` runs `2 ^ (n + 1) - 1`
times for the top one. -/
theorem C71_false_exponential (c : Char) (n : Nat) : unitGenerations (diamond c n) + 1 = 2 ^ (n + 1) := by
  induction n generalizing c with
  | zero => rfl
  | succ n ih =>
    have hne : ∀ d, (diamond d n).goPath ≠ List.replicate (n + 2) c := by
      intro d h
      have := congrArg List.length h
      rw [diamond_goPath] at this
      simp at this
    have h : unitGenerations (diamond c (n + 1)) = 1 + (unitGenerations (diamond 'A' n) + (unitGenerations (diamond 'B' n) + 0)) := by
      show 1 + importsGenerations (List.replicate (n + 2) c) _ = _
      rw [importsGenerations, if_neg (hne 'A'), if_neg (by decide), importsGenerations, if_neg (hne 'B'), if_neg (by decide),
        importsGenerations]
    have ha := ih 'A'
    have hb := ih 'B'
    rw [h]
    have : 2 ^ (n + 1 + 1) = 2 * 2 ^ (n + 1) := by rw [Nat.pow_succ]; omega
    omega

end Pb.Props
