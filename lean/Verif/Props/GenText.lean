import Verif.Proofs.GenMeans
import Verif.Props.Generator
/-
C69: the generated source text. C70: generated structs cannot be compared.
-/
namespace Pb.Props
open Spec

/-- C69. Go reads the generated text as the declarations it should consist of, whatever the comments in the .proto file are. -/
theorem C69_source_reads {N : TextNames} (hN : TextNamesOK N) {f : TextFile} (hf : TextFileOK f) :
    parseFile (fileText N f) = some (f.pkg, fileDecls N f) :=
  parseFile_toks (tokens_file hN hf) (declOK_file hN hf)

/-- C69. Comments, deprecation marks and the path of the .proto file do not change what Go reads. -/
theorem C69_comments_harmless {N : TextNames} (hN : TextNamesOK N) {f : TextFile} (hf : TextFileOK f) :
    parseFile (fileText N f) = parseFile (fileText N (stripFile f)) := by
  rw [C69_source_reads hN hf, C69_source_reads hN (stripFile_ok hf), strip_file]
  rfl

/-- C69. The struct in the text is the one `genMessage` describes. -/
theorem C69_struct_means {N : TextNames} (hN : TextNamesOK N) {f : TextFile} (hf : TextFileOK f) {m : TextMessage} (hm : m ∈ f.messages)
    {S : Scope} (hS : ScopeOK S) (hS' : MessageScope S N m) :
    ∃ ds fs, parseFile (fileText N f) = some (f.pkg, ds) ∧ .struct m.name fs ∈ ds ∧
      structMeans S N.protoPkg fs = some (genMessage m.tracked (oneofNames m) (m.fields.map TextField.field)) :=
  ⟨_, _, C69_source_reads hN hf, struct_declared hm, means_message hS hS'⟩

/-- C69. A program whose structs come from generated files is the one `genProgram` describes. -/
theorem C69_program {M : TypeId → TextMessage} {D : Decls} (h : FromSource M D) :
    D = genProgram (fun t => (M t).tracked) (fun t => oneofNames (M t)) (fun t => (M t).fields.map TextField.field) := by
  funext t
  obtain ⟨N, f, S, ds, fs, h1, h2, h3, h4, h5, h6, h7, h8, h9⟩ := h t
  rw [C69_source_reads h1 h2] at h6
  cases h6
  have := struct_unique h7 h8 (struct_declared h3)
  subst this
  rw [means_message h4 h5] at h9
  exact (Option.some.inj h9).symm

theorem plainText_oneofs {m : TextMessage} (h : ∀ o ∈ m.oneofs, TextOneofOK o) (i : Nat) : PlainText (oneofNames m i) := by
  unfold oneofNames
  cases ho : m.oneofs[i]? with
  | none => exact fun _ h => absurd h List.not_mem_nil
  | some o =>
    intro c hc
    have := (h o (List.mem_of_getElem? ho)).protoName c hc
    exact ⟨wordChar_ne this (by decide), wordChar_ne this (by decide), wordChar_ne this (by decide), wordChar_ne this (by decide)⟩

/-- C69, C38 (under the conditions of C38). Marshal of a message of a program read from generated text writes what the .proto file
describes. -/
theorem C69_wire_format_partial {M : TypeId → TextMessage} {D : Decls} (h : FromSource M D)
    (hP : ProtosOK fun t => (M t).fields.map TextField.field) (hm : ProtoMapsAlike fun t => (M t).fields.map TextField.field) (t : TypeId)
    (vs : List Val) (hv : FitsMsg (layoutOf D) t (.struct vs)) (hl : ∀ n, size (envOf D) (.msg t (.struct vs)) = .ok n → n < 2 ^ 64) :
    ∃ b, marshal (envOf D) (.msg t (.struct vs)) = .ok (.ok b) ∧
      ProtoMsg (fun t => (M t).fields.map TextField.field) [] ((M t).fields.map TextField.field) vs b := by
  have hn : ∀ t i, PlainText (oneofNames (M t) i) := by
    intro t i
    obtain ⟨N, f, S, ds, fs, h1, h2, h3, _⟩ := h t
    exact plainText_oneofs (h2.messages _ h3).oneofs i
  cases C69_program h
  exact C38_wire_format_partial hP hm _ _ hn t vs hv hl

/-! ### a file -/

/-- message `M { int32 a = 1; map<string, M> b = 2; oneof o { E c = 3; } }` with an enum, with comments, some of which look like code. -/
def textField (n id : Text) (c : Text) (f : ProtoField) : TextField :=
  ⟨n, id, c, c, true, f, ⟨none, t!"E"⟩, ⟨none, t!"E_Z"⟩, 0⟩

def textMember : TextField := textField t!"C" t!"M_C" t!" */ `\n}\nvar x" ⟨3, .enum, .oneof 0⟩

def textMessage : TextMessage :=
  ⟨t!"M", t!" a\n b", false, true,
    [textField t!"A" t!"M_A" t!" x int32\n" ⟨1, .int32, .implicit⟩, textField t!"B" t!"M_B" [] ⟨2, .message 0, .map .string⟩,
      textField t!"D" t!"M_D" [] ⟨4, .string, .optional⟩, textMember],
    [⟨t!"O", t!"o", t!"M_O", t!"}", [textMember]⟩]⟩

def textFile : TextFile :=
  ⟨t!"a/b c.proto", true, t!"p", [⟨t!"E", t!"e", true, [⟨t!"E_Z", -5, t!"\n\n", t!"z", false⟩]⟩], [textMessage]⟩

def textNames : TextNames := ⟨t!"proto", fun _ => ⟨none, t!"M"⟩⟩

theorem ident_intro {w : Text} (h : w ≠ [] ∧ (∀ c ∈ w, isWordChar c) ∧ w ∉ keywords ∧ ∀ c ∈ w.head?, ¬ ('0' ≤ c ∧ c ≤ '9')) : IsIdent w :=
  ⟨h.1, h.2.1, h.2.2.1, fun c hc => h.2.2.2 c hc⟩

theorem textNames_ok : TextNamesOK textNames :=
  ⟨ident_intro (by decide), fun _ => ⟨(by intro p hp; cases hp), ident_intro (w := t!"M") (by decide)⟩⟩

theorem textField_ok {n id c : Text} (f : ProtoField) (h : IsIdent n) (h' : IsIdent id) (hc : Legal c) : TextFieldOK (textField n id c f) :=
  ⟨h, h', hc, hc, ⟨(by intro p hp; cases hp), ident_intro (w := t!"E") (by decide)⟩,
    ⟨(by intro p hp; cases hp), ident_intro (w := t!"E_Z") (by decide)⟩⟩

theorem textFile_ok : TextFileOK textFile := by
  have hm : TextFieldOK textMember := textField_ok _ (ident_intro (by decide)) (ident_intro (by decide)) (by unfold Legal; decide)
  refine ⟨by unfold Legal; decide, by decide, ident_intro (by decide), ?_, ?_⟩
  · intro e he
    rw [List.mem_singleton.mp he]
    refine ⟨ident_intro (by decide), by unfold Legal; decide, ?_⟩
    intro v hv
    rw [List.mem_singleton.mp hv]
    exact ⟨ident_intro (by decide), by unfold Legal; decide, by unfold Legal; decide⟩
  · intro m hm'
    rw [List.mem_singleton.mp hm']
    refine ⟨ident_intro (by decide), by unfold Legal; decide, ?_, ?_⟩
    · intro f hf
      rcases List.mem_cons.mp hf with rfl | hf
      · exact textField_ok _ (ident_intro (by decide)) (ident_intro (by decide)) (by unfold Legal; decide)
      rcases List.mem_cons.mp hf with rfl | hf
      · exact textField_ok _ (ident_intro (by decide)) (ident_intro (by decide)) (by unfold Legal; decide)
      rcases List.mem_cons.mp hf with rfl | hf
      · exact textField_ok _ (ident_intro (by decide)) (ident_intro (by decide)) (by unfold Legal; decide)
      · rw [List.mem_singleton.mp hf]; exact hm
    · intro o ho
      rw [List.mem_singleton.mp ho]
      refine ⟨ident_intro (by decide), by unfold PlainTag; decide, ident_intro (by decide), by unfold Legal; decide, ?_⟩
      intro f hf
      rw [List.mem_singleton.mp hf]; exact hm

/-- A scope for it. -/
def textScope : Scope := fun p n =>
  if p = none ∧ n = t!"M" then some (.named 0) else if p = none ∧ n = t!"E" then some .int32
  else if p = none ∧ n = t!"isM_O" then some .other else none

/-- The text of the file (the beginning), what Go reads, and what the struct means. -/
example : parseFile (fileText textNames textFile) = some (t!"p", fileDecls textNames textFile) := C69_source_reads textNames_ok textFile_ok

example : t!"// Code generated by protoc-gen-golite. DO NOT EDIT.\n// a/b c.proto is a deprecated file.\n\npackage p\n\n//e\n// Deprecated: Do not use.\ntype E= int32\nconst (\n//\n//\nE_Z E = -5//z\n)\n\n// a\n// b\ntype M struct {\n// x int32\n//\n// Deprecated: Do not use.\nA int32`protobuf:\"varint,1,opt\" go:\"track\"`// x int32\n" <+: fileText textNames textFile := by
  decide +kernel

example : parseFile (fileText textNames textFile) = some (t!"p",
    [.alias t!"E" (.name none t!"int32"), .consts [(t!"E_Z", .name none t!"E", [.op '-', .word t!"5"])],
     .struct t!"M"
      [⟨t!"A", .name none t!"int32", some t!"protobuf:\"varint,1,opt\" go:\"track\""⟩,
       ⟨t!"B", .map (.name none t!"string") (.ptr (.name none t!"M")),
        some t!"protobuf:\"bytes,2,rep\" protobuf_key:\"bytes,1,opt\" protobuf_val:\"bytes,2,opt\" go:\"track\""⟩,
       ⟨t!"D", .inst t!"proto" t!"Option" (.name none t!"string"), some t!"protobuf:\"bytes,4,opt\" go:\"track\""⟩,
       ⟨t!"O", .name none t!"isM_O", some t!"protobuf_oneof:\"o\" go:\"track\""⟩],
     .method (some t!"m") t!"M" t!"GetO" (some (.name none t!"isM_O"))
      [.word t!"if", .word t!"m", .op '!', .op '=', .word t!"nil", .op '{', .word t!"return", .word t!"m", .op '.', .word t!"O", .semi,
       .op '}', .semi, .word t!"return", .word t!"nil", .semi],
     .method (some t!"x") t!"M" t!"GetC" (some (.name none t!"E"))
      [.word t!"if", .word t!"x", .op ',', .word t!"ok", .op ':', .op '=', .word t!"x", .op '.', .word t!"GetO", .op '(', .op ')',
       .op '.', .op '(', .op '*', .word t!"M_C", .op ')', .semi, .word t!"ok", .op '{', .word t!"return", .word t!"x", .op '.',
       .word t!"C", .semi, .op '}', .semi, .word t!"return", .word t!"E_Z", .semi],
     .interface t!"isM_O" [t!"isM_O"],
     .struct t!"M_C" [⟨t!"C", .name none t!"E", some t!"protobuf:\"varint,3,opt\" go:\"track\""⟩],
     .method none t!"M_C" t!"isM_O" none []]) := by
  decide +kernel

theorem textScope_ok : ScopeOK textScope ∧ MessageScope textScope textNames textMessage := by
  refine ⟨?_, ⟨?_, ?_, ?_, ?_, ?_⟩⟩
  · intro n hn
    unfold textScope
    have h : ∀ k, (predeclared k).isSome = false → n ≠ k := by
      intro k hk e; rw [e, hk] at hn; cases hn
    rw [if_neg (by rintro ⟨_, e⟩; exact h _ (by decide) e), if_neg (by rintro ⟨_, e⟩; exact h _ (by decide) e),
      if_neg (by rintro ⟨_, e⟩; exact h _ (by decide) e)]
  · have : ∀ f ∈ textMessage.fields, (∀ t, f.field.kind = .message t ∨ f.field.kind = .group t → t = 0) ∧
        ∀ t, f.field.label ≠ .map (.message t) ∧ f.field.label ≠ .map (.group t) := by
      intro f hf
      rcases List.mem_cons.mp hf with rfl | hf
      · simp [textField]
      rcases List.mem_cons.mp hf with rfl | hf
      · simp [textField]
      rcases List.mem_cons.mp hf with rfl | hf
      · simp [textField]
      · rw [List.mem_singleton.mp hf]; simp [textMember, textField]
    intro f hf t ht
    obtain ⟨h1, h2⟩ := this f hf
    have : t = 0 := by
      rcases ht with (h | h) | (h | h)
      · exact h1 t (.inl h)
      · exact absurd h (h2 t).1
      · exact h1 t (.inr h)
      · exact absurd h (h2 t).2
    subst this
    decide
  · have : ∀ f ∈ textMessage.fields, textScope f.enum.pkg f.enum.name = some .int32 := by decide
    exact fun f hf _ => this f hf
  · decide
  · exact ⟨by decide, by decide⟩
  · intro f hf i hi
    have : ∀ f ∈ textMessage.fields, f.field.label = .oneof 0 ∨ ∀ i, f.field.label ≠ .oneof i := by
      intro f hf
      rcases List.mem_cons.mp hf with rfl | hf
      · exact .inr fun i => by intro h; cases h
      rcases List.mem_cons.mp hf with rfl | hf
      · exact .inr fun i => by intro h; cases h
      rcases List.mem_cons.mp hf with rfl | hf
      · exact .inr fun i => by intro h; cases h
      · rw [List.mem_singleton.mp hf]; exact .inl rfl
    rcases this f hf with h | h
    · rw [h] at hi; cases hi; decide
    · exact absurd hi (h i)

/-- The program of this file. -/
example : FromSource (fun _ => textMessage)
    (genProgram (fun _ => true) (fun _ => oneofNames textMessage) (fun _ => textMessage.fields.map TextField.field)) := by
  intro t
  exact ⟨textNames, textFile, textScope, _, _, textNames_ok, textFile_ok, List.mem_singleton.mpr rfl, textScope_ok.1, textScope_ok.2,
    C69_source_reads textNames_ok textFile_ok, by decide +kernel, struct_declared (List.mem_singleton.mpr rfl),
    means_message textScope_ok.1 textScope_ok.2⟩

/-! ### where it fails -/

/-- A file of one message with the given comment. -/
def commented (c : Text) : TextFile := ⟨t!"a.proto", false, t!"p", [], [⟨t!"M", c, false, false, [], []⟩]⟩

/-- C69 fails for a comment with a NUL: Go refuses the text. -/
theorem C69_false_nul : parseFile (fileText textNames (commented t!" a\x00b")) = none := by decide +kernel

/-- C69 fails for a path with a line break. -/
theorem C69_false_path :
    parseFile (fileText textNames { commented [] with path := t!"a\nb.proto" }) = none := by decide +kernel

/-- C69. A comment that starts like a directive becomes one: there is a line `//go:generate x` in the text. -/
theorem C69_false_directive :
    t!"// Code generated by protoc-gen-golite. DO NOT EDIT.\n// source: a.proto\n\npackage p\n\n//go:generate x\ntype M struct {\n" <+:
      fileText textNames (commented t!"go:generate x") := by decide +kernel

/-! ### comparing -/

theorem kind_comparable (N : TextNames) (e : QName) (k : Kind) : typeComparable (kindExpr N e k) = (k != .bytes) := by
  cases k <;> rfl

theorem goType_comparable (N : TextNames) (f : TextField) : typeComparable (goTypeExpr N f) = f.field.comparable := by
  unfold goTypeExpr ProtoField.comparable
  cases f.field.label <;> simp only [typeComparable, kind_comparable]

theorem field_comparable (N : TextNames) (f : TextField) : typeComparable (fieldTypeExpr N f) = f.field.comparable := by
  unfold fieldTypeExpr
  split
  · exact goType_comparable N f
  · exact goType_comparable N f

theorem fields_comparable (N : TextNames) (m : TextMessage) (fs : List TextField) : ∀ seen,
    structComparable (srcFields N m seen fs) = fs.all TextField.comparable := by
  induction fs with
  | nil => intro seen; rfl
  | cons f fs ih =>
    intro seen
    unfold structComparable at ih
    rw [List.all_cons]
    unfold srcFields structComparable
    rw [TextField.comparable]
    cases f.field.label with
    | oneof i =>
      simp only [Bool.true_and]
      split
      · exact ih seen
      · rw [List.all_append, ih]
        cases m.oneofs[i]? <;> rfl
    | _ =>
      rw [List.all_cons, ih]
      show (typeComparable (fieldTypeExpr N f) && _) = _
      rw [field_comparable]

/-- C70. No generated struct can be compared with `==`. -/
theorem C70_never_comparable {N : TextNames} (hN : TextNamesOK N) {f : TextFile} (hf : TextFileOK f) {m : TextMessage} (hm : m ∈ f.messages) :
    ∃ ds fs, parseFile (fileText N f) = some (f.pkg, ds) ∧ .struct m.name fs ∈ ds ∧ structComparable fs = false := by
  refine ⟨_, _, C69_source_reads hN hf, struct_declared hm, ?_⟩
  have h := fields_comparable N m m.fields []
  unfold structComparable at h ⊢
  rw [List.all_append, h]
  cases m.fields.all TextField.comparable <;> rfl

/-- C70. The field `_ [0]func()` is there exactly if the struct could be compared without it. -/
theorem C70_marker (N : TextNames) (m : TextMessage) : ∃ fs gs, structDecl N m = .struct m.name (fs ++ gs) ∧
    (∀ g ∈ fs, g.ty ≠ .array t!"0" .func) ∧ (structComparable fs = true ↔ gs = [⟨t!"_", .array t!"0" .func, none⟩]) ∧
    (structComparable fs = false ↔ gs = []) := by
  refine ⟨srcFields N m [] m.fields, _, rfl, ?_, ?_, ?_⟩
  · have hk : ∀ e k, kindExpr N e k ≠ .array t!"0" .func := by intro e k; cases k <;> simp [kindExpr, QName.expr]
    have hf : ∀ f, fieldTypeExpr N f ≠ .array t!"0" .func := by
      intro f
      unfold fieldTypeExpr goTypeExpr
      split
      · simp
      · cases f.field.label <;> simp [hk]
    have : ∀ fs seen, ∀ g ∈ srcFields N m seen fs, g.ty ≠ .array t!"0" .func := by
      intro fs
      induction fs with
      | nil => intro seen g hg; exact absurd hg List.not_mem_nil
      | cons f fs ih =>
        intro seen g hg
        unfold srcFields at hg
        cases hl : f.field.label with
        | oneof i =>
          rw [hl] at hg
          simp only at hg
          split at hg
          · exact ih _ g hg
          · rcases List.mem_append.mp hg with hg | hg
            · cases ho : m.oneofs[i]? with
              | none => rw [ho] at hg; exact absurd hg List.not_mem_nil
              | some o => rw [ho] at hg; rw [List.mem_singleton.mp hg]; simp [oneofSrcField]
            · exact ih _ g hg
        | _ =>
          rw [hl] at hg
          rcases List.mem_cons.mp hg with rfl | hg
          · exact hf f
          · exact ih _ g hg
    exact this _ _
  · rw [fields_comparable]
    cases m.fields.all TextField.comparable <;> simp
  · rw [fields_comparable]
    cases m.fields.all TextField.comparable <;> simp

/-- A message with only an int32 gets the field, one with bytes does not need it. -/
example : structDecl textNames ⟨t!"M", [], false, false, [textField t!"A" t!"M_A" [] ⟨1, .int32, .implicit⟩], []⟩ =
    .struct t!"M" [⟨t!"A", .name none t!"int32", some t!"protobuf:\"varint,1,opt\""⟩, ⟨t!"_", .array t!"0" .func, none⟩] ∧
    structDecl textNames ⟨t!"M", [], false, false, [textField t!"A" t!"M_A" [] ⟨1, .bytes, .implicit⟩], []⟩ =
    .struct t!"M" [⟨t!"A", .slice (.name none t!"byte"), some t!"protobuf:\"bytes,1,opt\""⟩] := by decide +kernel

end Pb.Props
