import Verif.Proofs.GenCodec
import Verif.Proofs.GoTree
/-
C78: the programs that write required_codec.go and option_codec.go. gen/required takes the functions of normal_codec.go and leaves out the
tests of their top-level `if` statements; gen/option fills in a template. Both files in /repo are what they write.
-/
namespace Pb.Props
open Pb Go Tree

set_option maxRecDepth 100000

/-- C78. required_codec.go has the declarations that gen/required makes of normal_codec.go. -/
theorem C78_required_file : ∃ ds es, parse normalCodecGo = some ds ∧ transform ds = some es ∧ parse requiredCodecGo = some es :=
  ⟨normal_decls, required_decls, parse_normal, by decide +kernel, parse_required⟩

/-- C78. A function, transformed, does what it does when its top-level tests are replaced by one that always holds: it returns the same
and leaves the same memory, for all arguments and whatever the functions it calls do. -/
theorem C78_required_runs (f : FuncDecl) (h : tidyFunc f = true) (C : Calls) (d : Nat) (recv : Option V) (args : List V) (m : Val) :
    callFunc C d (transformFunc f) recv args m = callFunc C d (untestedFunc f) recv args m :=
  transformFunc_call h recv args m

/-- C78. So, where the tests hold, the transformed function does what the function does. -/
theorem C78_required_true (f : FuncDecl) (h : tidyFunc f = true) (C : Calls) (d : Nat) (recv : Option V) (args : List V) (m : Val)
    (ht : ∀ rv ps rs, bindRecv m f.recv recv = .ok rv → bindParams f.params args = .ok ps → bindResults f.results = .ok rs →
      AllTrue C d f.body ⟨rs ++ ps ++ rv, (rs ++ ps ++ rv).length, m⟩) :
    callFunc C d (transformFunc f) recv args m = callFunc C d f recv args m := by
  rw [transformFunc_call h]
  simp only [callFunc, untestedFunc]
  cases h1 : bindRecv m f.recv recv with
  | error e => rfl
  | ok rv =>
    cases h2 : bindParams f.params args with
    | error e => rfl
    | ok ps =>
      cases h3 : bindResults f.results with
      | error e => rfl
      | ok rs =>
        simp only [bind, Except.bind]
        rw [untested_exec _ (ht rv ps rs h1 h2 h3)]

/-- The names of the scalars in the names of functions. -/
def scalarNames : List Text :=
  [t!"Bool", t!"String", t!"Float32", t!"Float64", t!"Int32", t!"Int64", t!"Uint32", t!"Uint64", t!"Fixed32", t!"Fixed64", t!"Zigzag32",
   t!"Zigzag64"]

/-- C78. The functions of required_codec.go are those of normal_codec.go for sizes and encoding of the twelve scalars, each without its
tests. -/
theorem C78_required_functions (s n : Text) (hs : s ∈ [t!"sizeOf", t!"encode"]) (hn : n ∈ scalarNames) :
    ∃ f g, findFunc program none (s ++ n) = some f ∧ findFunc program none (s ++ n ++ t!"Required") = some g ∧
      ∀ (C : Calls) (d : Nat) (args : List V) (m : Val), callFunc C d g none args m = callFunc C d (untestedFunc f) none args m := by
  have key : ∀ s ∈ [t!"sizeOf", t!"encode"], ∀ n ∈ scalarNames, (match findFunc library none (s ++ n) with
      | some f => decide (findFunc library none (s ++ n ++ t!"Required") = some (transformFunc f)) && tidyFunc f
      | none => false) = true := by decide +kernel
  have h := key s hs n hn
  rw [program_eq]
  cases hf : findFunc library none (s ++ n) with
  | none => rw [hf] at h; cases h
  | some f =>
    rw [hf] at h
    simp only [Bool.and_eq_true, decide_eq_true_eq] at h
    exact ⟨f, _, rfl, h.1, fun C d args m => transformFunc_call h.2 none args m⟩

/-- The functions are tidy, and these are not trivial: the tests of some of them come after a declaration, or declare something. -/
example : tidyFunc normal_encodeFloat32 = true ∧ tidyFunc normal_sizeOfString = true ∧
    transformFunc normal_encodeFloat32 = required_encodeFloat32Required ∧ untestedFunc normal_encodeFloat32 ≠ normal_encodeFloat32 := by
  decide +kernel

/-- A value that is not the default: the test holds. -/
example (C : Calls) (f : Field) : callFunc C 1 (transformFunc normal_sizeOfBool) none [.ptr [] .uptr, .field (some f)] (.b8 true) =
    callFunc C 1 normal_sizeOfBool none [.ptr [] .uptr, .field (some f)] (.b8 true) := by
  refine C78_required_true _ (by decide +kernel) C 1 none _ _ fun rv ps rs h1 h2 h3 => ?_
  cases h1
  cases h2
  cases h3
  refine ⟨fun g s' h => ?_, fun s' h => ?_⟩
  · rw [exec] at h
    cases h
    rfl
  · intro s'' h
    trivial

/-- A function which declares, in front of a condition, a variable that has the name of a parameter, together with a new one. -/
def shadowGo : Text := lines [
  t!"func f(p int, q int) int {",
  t!"\tif p, r := g(q); r == p {",
  t!"\t\tq = r",
  t!"\t}",
  t!"\treturn p",
  t!"}"]

/-- What may be in the file gen/required makes of one with the declarations `ds`: the package clause, the imports without io, functions of
`ds` under a new name and codecs of scalars. -/
inductive Kept (ds : List Decl) : Decl → Prop
  | package (ts) : .other t!"package" ts ∈ ds → Kept ds (.other t!"package" ts)
  | imports (ps qs) : .imports ps ∈ ds → t!"io" ∉ qs → (∀ p ∈ ps, p ≠ t!"io" → p ∈ qs) → (∀ p ∈ qs, p ∈ ps) → Kept ds (.imports qs)
  | func (f g : FuncDecl) (s) : .func f ∈ ds → s ∈ [t!"size", t!"encode"] → s <+: f.name → g.name = f.name ++ t!"Required" →
      g.recv = f.recv → g.params = f.params → g.results = f.results → Kept ds (.func g)
  | var (n x s y) : .var n x ∈ ds → s ∈ scalarNames.map (·.map Char.toLower) → s <+: n → Kept ds (.var (s ++ t!"RequiredCodec") y)

theorem Kept.more {d : Decl} {ds : List Decl} {e : Decl} (h : Kept ds e) : Kept (d :: ds) e := by
  cases h with
  | package ts h => exact .package ts (List.mem_cons_of_mem _ h)
  | imports ps qs h => exact .imports ps qs (List.mem_cons_of_mem _ h) ‹_› ‹_› ‹_›
  | func f g s h => exact .func f g s (List.mem_cons_of_mem _ h) ‹_› ‹_› ‹_› ‹_› ‹_› ‹_›
  | var n x s y h => exact .var n x s y (List.mem_cons_of_mem _ h) ‹_› ‹_›

theorem trimSuffix_prefix (p s : Text) : trimSuffix p s <+: s := by
  unfold trimSuffix
  split
  · exact List.take_prefix _ _
  · exact List.prefix_rfl

/-- C78. Nothing else is in the file that gen/required makes, whatever the declarations of the file it reads, if none is a method. -/
theorem C78_required_kept (ds es : List Decl) (hm : ds.any isMethod = false) (h : transform ds = some es) : ∀ e ∈ es, Kept ds e := by
  rw [transform, hm] at h
  simp only [Bool.false_eq_true, if_false] at h
  clear hm
  induction ds generalizing es with
  | nil => cases h; intro e he; cases he
  | cons d ds ih =>
    cases d with
    | func f =>
      simp only [transformDecls] at h
      split at h
      · rename_i xs hx
        cases h
        intro e he
        split at he
        · rename_i hn
          rcases List.mem_cons.mp he with rfl | he
          · simp only [needFunc, Bool.and_eq_true, Bool.or_eq_true, List.isPrefixOf_iff_prefix] at hn
            rcases hn.1 with hn | hn
            · exact .func f _ _ List.mem_cons_self (by simp) hn rfl rfl rfl rfl
            · exact .func f _ _ List.mem_cons_self (by simp) hn rfl rfl rfl rfl
          · exact (ih xs hx e he).more
        · exact (ih xs hx e he).more
      · cases h
    | imports ps =>
      simp only [transformDecls] at h
      split at h
      · rename_i xs hx
        cases h
        intro e he
        rcases List.mem_cons.mp he with rfl | he
        · exact .imports ps _ List.mem_cons_self (by simp [filterImport]) (fun p hp hi => by simp [filterImport, hp] at hi ⊢; exact hi)
            (fun p hp => (List.mem_filter.mp hp).1)
        · exact (ih xs hx e he).more
      · cases h
    | var n x =>
      simp only [transformDecls] at h
      split at h
      · rename_i y xs hy hx
        cases h
        intro e he
        rcases List.mem_cons.mp he with rfl | he
        · simp only [transformVar] at hy
          split at hy
          · rename_i hn
            split at hy
            · split at hy
              · cases hy
                refine .var n _ _ _ List.mem_cons_self ?_ ((trimSuffix_prefix _ _).trans (trimSuffix_prefix _ _))
                exact (by decide +kernel : ∀ s ∈ needTransform, s ∈ scalarNames.map (·.map Char.toLower)) _ hn
              · cases hy
            · cases hy
          · cases hy
        · exact (ih xs hx e he).more
      · rename_i xs hy hx
        cases h
        exact fun e he => (ih _ hx e he).more
      · cases h
    | other w ts =>
      simp only [transformDecls] at h
      split at h
      · rename_i xs hx
        cases h
        intro e he
        split at he
        · rename_i hw
          subst hw
          rcases List.mem_cons.mp he with rfl | he
          · exact .package ts List.mem_cons_self
          · exact (ih xs hx e he).more
        · exact (ih xs hx e he).more
      · cases h

/-- normal_codec.go has no methods, and this is what is made of it. -/
example : ∃ es, normal_decls.any isMethod = false ∧ transform normal_decls = some es ∧ es.length = required_decls.length :=
  ⟨required_decls, by decide +kernel, by decide +kernel, rfl⟩

/-- C78 without the condition on names: false. The transformed function returns something else, as its declaration sets the parameter. -/
theorem C78_false_shadow : ∃ f, parse shadowGo = some [.func f] ∧ ∃ (C : Calls) (args : List V) (m : Val),
    callFunc C 1 (untestedFunc f) none args m = .ok ([.int 1#64], m) ∧
    callFunc C 1 (transformFunc f) none args m = .ok ([.int 2#64], m) := by
  refine ⟨⟨none, t!"f", [(t!"p", .ident t!"int"), (t!"q", .ident t!"int")], [([], .ident t!"int")], _⟩, rfl,
    fun _ _ as m => match as with | [v] => .ok ([v, v], m) | _ => .error .confused, [.int 1#64, .int 2#64], .nilp, rfl, rfl⟩

/-- C78. A file that begins with a method is left as it is by gen/required: the functions in it would be declared twice. -/
theorem C78_false_method (f : FuncDecl) (h : f.recv.isSome = true) (ds : List Decl) : transform (.func f :: ds) = some (.func f :: ds) := by
  have hm : isMethod (.func f) = true := h
  rw [transform, List.any_cons, hm, Bool.true_or, if_pos rfl, visitedAll, if_pos hm]

/-! ### gen/option -/

/-- C78. option_codec.go consists of the tokens that gen/option writes. -/
theorem C78_option_file : ∃ t ts, optionText decoders = some t ∧ tokens t = some ts ∧ tokens optionCodecGo = some ts := by
  refine ⟨(optionText decoders).getD [], (tokens optionCodecGo).getD [], ?_, ?_, ?_⟩
  · decide +kernel
  · decide +kernel
  · decide +kernel

/-- The declarations for one type, with these names. -/
def optionDecls (type name codec : Text) : Text := List.flatten [
  t!"\nvar ", codec, t!"OptionCodec = codec{\n\tsize:   sizeOf", name, t!"Option,\n\tencode: encode", name,
  t!"Option,\n\tdecode: decode", name, t!"Option,\n}\n\nfunc sizeOf", name,
  t!"Option(p unsafe.Pointer, f *structField) int {\n\to := (*Option[", type, t!"])(p)\n\tif o.IsSome() {\n\t\treturn sizeOf", name,
  t!"Required(o.unsafePointer(), f)\n\t}\n\treturn 0\n}\n\nfunc encode", name,
  t!"Option(b []byte, p unsafe.Pointer, f *structField) []byte {\n\to := (*Option[", type,
  t!"])(p)\n\tif o.IsSome() {\n\t\treturn encode", name, t!"Required(b, o.unsafePointer(), f)\n\t}\n\treturn b\n}\n\nfunc decode",
  name, t!"Option(b []byte, p unsafe.Pointer) (int, error) {\n\tv := (*Option[", type, t!"])(p)\n\tv.some = true\n\treturn decode",
  name, t!"(b, v.unsafePointer())\n}\n\n"]

/-- C78. For any list of types and names, gen/option writes these declarations, one group after the other. -/
theorem C78_option_text (ds : List (Text × Text)) :
    optionText ds = some (t!"// Code generated by gen/option/main.go. DO NOT EDIT.\n\npackage proto\n\nimport \"unsafe\"\n\n" ++
      ds.flatMap (fun d => optionDecls d.1 d.2 (d.2.map Char.toLower)) ++ t!"\n") := by
  have h : ∀ ds : List (Text × Text), renderItems tmplBody (ds.map decoderRecord) =
      some (ds.flatMap (fun d => optionDecls d.1 d.2 (d.2.map Char.toLower))) := by
    intro ds
    induction ds with
    | nil => rfl
    | cons d ds ih =>
      have hd : renderItem (decoderRecord d) tmplBody = some (optionDecls d.1 d.2 (d.2.map Char.toLower)) := rfl
      rw [List.map_cons, renderItems, ih, hd, List.flatMap_cons]
  rw [optionText, render, pieces_tmpl]
  simp only [renderPieces, if_true]
  rw [render_range tmplBody [] (by decide), List.reverse_nil, List.nil_append, h]
  simp only [renderPieces, Option.map, List.append_assoc, List.append_nil]

/-- Two types. -/
example : ((optionText [(t!"int32", t!"Int32"), (t!"int32", t!"Zigzag32")]).bind parse).map List.length = some 10 := by decide +kernel

end Pb.Props
