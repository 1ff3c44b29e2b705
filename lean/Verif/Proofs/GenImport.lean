import Verif.Spec.GenImport
import Verif.Proofs.GenMeans
/-
Public imports.
-/
namespace Pb
open Spec

theorem lx_forward {alias tok n : Text} (ha : IsIdent alias) (hn : IsIdent n) (htok : Lx false (tok ++ t!" ") [.word tok] false) :
    Lx false (tok ++ t!" " ++ n ++ t!" = " ++ alias ++ t!"." ++ n ++ t!"\n")
      (.word tok :: .word n :: .op '=' :: .word alias :: .op '.' :: .word n :: [.semi]) false := by
  have h1 := Lx.word (e := false) (reads_word hn.plain) (by decide) (Lx.lit (e := true) (s := t!"\n") (ts := [.semi]) (e' := false) rfl)
  have h2 := (Lx.lit (e := true) (s := t!".") (ts := [.op '.']) (e' := false) rfl).append h1
  have h3 := (Lx.lit (e := true) (s := t!" = ") (ts := [.op '=']) (e' := false) rfl).append
    (Lx.word (e := false) (reads_word ha.plain) (by decide) h2)
  have h4 := htok.append (Lx.word (e := false) (reads_word hn.plain) (by decide) h3)
  simp only [List.append_assoc] at h4 ⊢
  exact h4

theorem lx_typeForward {alias desc n : Text} (ha : IsIdent alias) (hn : IsIdent n) (hx : isExported n = true) :
    Lx false (forwardText alias desc t!"type" n false) ((([n].filter (· ≠ desc)).map (typeForward alias)).flatMap declToks) false := by
  unfold forwardText
  rw [hx, if_neg (by decide)]
  by_cases hd : n = desc
  · rw [if_pos hd]
    simp only [List.filter_cons, hd, ne_eq, not_true_eq_false, decide_false]
    rfl
  · rw [if_neg hd, if_neg (by decide)]
    simp only [List.filter_cons, hd, ne_eq, not_false_eq_true, decide_true, if_true, List.filter_nil, List.map_cons, List.map_nil,
      List.flatMap_cons, List.flatMap_nil, List.append_nil]
    exact lx_forward ha hn rfl

theorem lx_constForward {alias desc n : Text} (ha : IsIdent alias) (hn : IsIdent n) (hx : isExported n = true) :
    Lx false (forwardText alias desc t!"const" n false) ((([n].filter (· ≠ desc)).map (constForward alias)).flatMap declToks) false := by
  unfold forwardText
  rw [hx, if_neg (by decide)]
  by_cases hd : n = desc
  · rw [if_pos hd]
    simp only [List.filter_cons, hd, ne_eq, not_true_eq_false, decide_false]
    rfl
  · rw [if_neg hd, if_neg (by decide)]
    simp only [List.filter_cons, hd, ne_eq, not_false_eq_true, decide_true, if_true, List.filter_nil, List.map_cons, List.map_nil,
      List.flatMap_cons, List.flatMap_nil, List.append_nil]
    exact lx_forward ha hn rfl

theorem forwardText_hidden (alias desc tok n : Text) (h : isExported n = false) (s : Bool) : forwardText alias desc tok n s = [] := by
  unfold forwardText
  rw [if_pos h]

theorem forwardText_selector (alias desc tok n : Text) : forwardText alias desc tok n true = [] := by
  unfold forwardText
  split
  · rfl
  · split <;> rfl

/-! ### the forwards for a file -/

theorem isSelectorValue_int (n : Int) : isSelectorValue (intToks n) = false := by
  unfold intToks
  split <;> rfl

theorem filter_flatMap_single {α : Type} (l : List α) (p : α → Bool) (f : α → SrcDecl) (g : SrcDecl → List Tok) :
    ((l.filter p).map f).flatMap g = l.flatMap fun a => (([a].filter p).map f).flatMap g := by
  induction l with
  | nil => rfl
  | cons a l ih =>
    rw [List.flatMap_cons, ← ih]
    simp only [List.filter_cons]
    cases p a <;> simp

theorem lx_enumForwards {alias desc : Text} (ha : IsIdent alias) {e : TextEnum} (he : TextEnumOK e) (hx : isExported e.name = true)
    (hv : ∀ v ∈ e.values, isExported v.name = true) :
    Lx false ((enumDecls e).flatMap (declForwards alias desc))
      ((([e.name].filter (· ≠ desc)).map (typeForward alias) ++
        ((e.values.map TextEnumValue.name).filter (· ≠ desc)).map (constForward alias)).flatMap declToks) false := by
  have h1 := lx_typeForward (desc := desc) ha he.name hx
  have e1 : (enumDecls e).flatMap (declForwards alias desc) = forwardText alias desc t!"type" e.name false ++
      e.values.flatMap fun v => forwardText alias desc t!"const" v.name (isSelectorValue (intToks v.number)) := by
    unfold enumDecls
    simp only [List.flatMap_cons, List.flatMap_nil, List.append_nil, declForwards, isSelector, List.flatMap_map]
  have e2 : (((e.values.map TextEnumValue.name).filter (· ≠ desc)).map (constForward alias)).flatMap declToks =
      e.values.flatMap fun v => (([v.name].filter (· ≠ desc)).map (constForward alias)).flatMap declToks := by
    rw [filter_flatMap_single, List.flatMap_map]
  rw [e1, List.flatMap_append, e2]
  have h2 := lx_flatMap e.values (fun v => forwardText alias desc t!"const" v.name (isSelectorValue (intToks v.number))) _ (fun v hv' => by
    rw [isSelectorValue_int]
    exact lx_constForward (desc := desc) ha (he.values v hv').1 (hv v hv'))
  exact h1.append h2

theorem getters_forward (alias desc : Text) (N : TextNames) (m : TextMessage) (fs : List TextField) : ∀ seen,
    (getterDecls N m seen fs).flatMap (declForwards alias desc) = [] := by
  induction fs with
  | nil => intro seen; rfl
  | cons f fs ih =>
    intro seen
    unfold getterDecls
    cases f.field.label with
    | oneof i =>
      simp only [List.flatMap_append, ih, List.append_nil]
      cases m.oneofs[i]? with
      | none => rfl
      | some o =>
        simp only
        split <;> rfl
    | _ => exact ih seen

theorem hidden_is (s : Text) : isExported (t!"is" ++ s) = false := by
  show (('A' : Char) ≤ 'i' && ('i' : Char) ≤ 'Z') = false
  decide

theorem lx_oneofForwards {alias desc : Text} (ha : IsIdent alias) (N : TextNames) (tracked : Bool) {o : TextOneof} (ho : TextOneofOK o)
    (hx : ∀ f ∈ o.members, isExported f.ident = true) :
    Lx false ((oneofDecls N tracked o).flatMap (declForwards alias desc))
      (((o.members.map TextField.ident).filter (· ≠ desc)).map (typeForward alias) |>.flatMap declToks) false := by
  rw [filter_flatMap_single, List.flatMap_map]
  have h1 := lx_flatMap o.members (fun f => declForwards alias desc (wrapperDecl N tracked f)) _ (fun f hf =>
    lx_typeForward (desc := desc) ha (ho.members f hf).ident (hx f hf))
  unfold oneofDecls
  rw [List.flatMap_cons, List.flatMap_append, List.flatMap_map, List.flatMap_map]
  have h2 : declForwards alias desc (.interface (oneofInterfaceName o) [oneofInterfaceName o]) = [] :=
    forwardText_hidden _ _ _ _ (hidden_is o.ident) _
  have h3 : (o.members.flatMap fun f => declForwards alias desc (.method none f.ident (oneofInterfaceName o) none [])) = [] := by
    generalize o.members = l
    induction l with
    | nil => rfl
    | cons f l ih => rw [List.flatMap_cons, ih]; rfl
  rw [h2, h3, List.nil_append, List.append_nil]
  exact h1

theorem lx_messageForwards {alias desc : Text} (ha : IsIdent alias) (N : TextNames) {m : TextMessage} (hm : TextMessageOK m)
    (hx : isExported m.name = true) (hx' : ∀ o ∈ m.oneofs, ∀ f ∈ o.members, isExported f.ident = true) :
    Lx false ((messageDecls N m).flatMap (declForwards alias desc))
      (((m.name :: m.oneofs.flatMap fun o => o.members.map TextField.ident).filter (· ≠ desc)).map (typeForward alias) |>.flatMap declToks)
      false := by
  have h1 := lx_typeForward (desc := desc) ha hm.name hx
  have h2 := lx_flatMap m.oneofs (fun o => (oneofDecls N m.tracked o).flatMap (declForwards alias desc)) _ (fun o ho =>
    lx_oneofForwards (desc := desc) ha N m.tracked (hm.oneofs o ho) (hx' o ho))
  have h3 := h1.append h2
  have e : ∀ l : List Text, m.name :: l = [m.name] ++ l := fun _ => rfl
  unfold messageDecls
  rw [List.flatMap_cons, List.flatMap_append, getters_forward, List.nil_append, List.flatMap_assoc]
  rw [e, List.filter_append, List.map_append, List.flatMap_append]
  have e2 : (((m.oneofs.flatMap fun o => o.members.map TextField.ident).filter (· ≠ desc)).map (typeForward alias)).flatMap declToks =
      m.oneofs.flatMap fun o => (((o.members.map TextField.ident).filter (· ≠ desc)).map (typeForward alias)).flatMap declToks := by
    generalize m.oneofs = l
    induction l with
    | nil => rfl
    | cons o l ih => simp only [List.flatMap_cons, List.filter_append, List.map_append, List.flatMap_append, ih]
  rw [e2]
  exact h3

theorem lx_fileForwards {alias desc : Text} (ha : IsIdent alias) (N : TextNames) {f : TextFile} (hf : TextFileOK f) (hx : NamesExported f) :
    Lx false ((fileDecls N f).flatMap (declForwards alias desc)) ((forwardDecls alias desc f).flatMap declToks) false := by
  have he : ∀ e ∈ f.enums, isExported e.name = true ∧ ∀ v ∈ e.values, isExported v.name = true := by
    intro e he
    refine ⟨hx.1 _ (List.mem_append_left _ (List.mem_map_of_mem he)), fun v hv => ?_⟩
    exact hx.2 _ (List.mem_flatMap.mpr ⟨e, he, List.mem_map_of_mem hv⟩)
  have hm : ∀ m ∈ f.messages, isExported m.name = true ∧ ∀ o ∈ m.oneofs, ∀ g ∈ o.members, isExported g.ident = true := by
    intro m hm
    refine ⟨hx.1 _ (List.mem_append_right _ (List.mem_flatMap.mpr ⟨m, hm, List.mem_cons_self ..⟩)), fun o ho g hg => ?_⟩
    exact hx.1 _ (List.mem_append_right _ (List.mem_flatMap.mpr ⟨m, hm, List.mem_cons_of_mem _
      (List.mem_flatMap.mpr ⟨o, ho, List.mem_map_of_mem hg⟩)⟩))
  have h1 := lx_flatMap f.enums (fun e => (enumDecls e).flatMap (declForwards alias desc)) _ (fun e h =>
    lx_enumForwards (desc := desc) ha (hf.enums e h) (he e h).1 (he e h).2)
  have h2 := lx_flatMap f.messages (fun m => (messageDecls N m).flatMap (declForwards alias desc)) _ (fun m h =>
    lx_messageForwards (desc := desc) ha N (hf.messages m h) (hm m h).1 (hm m h).2)
  unfold fileDecls forwardDecls
  rw [List.flatMap_append, List.flatMap_append, List.flatMap_assoc, List.flatMap_assoc, List.flatMap_assoc, List.flatMap_assoc]
  exact h1.append h2

theorem forwards_forward (alias desc alias' desc' : Text) (f : TextFile) :
    (forwardDecls alias' desc' f).flatMap (declForwards alias desc) = [] := by
  have ht : ∀ l : List Text, (l.map (typeForward alias')).flatMap (declForwards alias desc) = [] := by
    intro l
    induction l with
    | nil => rfl
    | cons n l ih =>
      rw [List.map_cons, List.flatMap_cons, ih, List.append_nil]
      exact forwardText_selector _ _ _ _
  have hc : ∀ l : List Text, (l.map (constForward alias')).flatMap (declForwards alias desc) = [] := by
    intro l
    induction l with
    | nil => rfl
    | cons n l ih =>
      rw [List.map_cons, List.flatMap_cons, ih, List.append_nil]
      exact forwardText_selector _ _ _ _
  unfold forwardDecls
  rw [List.flatMap_append, List.flatMap_assoc, List.flatMap_assoc]
  simp only [List.flatMap_append, ht, hc, List.append_nil]
  simp

theorem imports_forward (alias desc goPath : Text) (is : TextImports) : (importDecls goPath is).flatMap (declForwards alias desc) = [] := by
  match is with
  | .nil => rfl
  | .cons path pub al u rest =>
    rw [importDecls, List.flatMap_append, imports_forward alias desc goPath rest, List.append_nil]
    split
    · exact forwards_forward ..
    · rfl

theorem declOK_forwards {alias desc : Text} (ha : IsIdent alias) (f : TextFile) : ∀ d ∈ forwardDecls alias desc f, DeclOK d := by
  have ht : ∀ n, DeclOK (typeForward alias n) := fun n => ha.2.2.1
  have hc : ∀ n, DeclOK (constForward alias n) := fun n => by simp [DeclOK, constForward]
  intro d hd
  rcases List.mem_append.mp hd with hd | hd
  · obtain ⟨e, _, hd⟩ := List.mem_flatMap.mp hd
    rcases List.mem_append.mp hd with hd | hd
    · obtain ⟨n, _, rfl⟩ := List.mem_map.mp hd; exact ht n
    · obtain ⟨n, _, rfl⟩ := List.mem_map.mp hd; exact hc n
  · obtain ⟨e, _, hd⟩ := List.mem_flatMap.mp hd
    obtain ⟨n, _, rfl⟩ := List.mem_map.mp hd; exact ht n

theorem declOK_imports (goPath : Text) (is : TextImports) (h : TextImportsOK is) : ∀ d ∈ importDecls goPath is, DeclOK d := by
  match is, h with
  | .nil, _ => intro d hd; exact absurd hd List.not_mem_nil
  | .cons path pub al u rest, h =>
    intro d hd
    obtain ⟨_, _, ha, _, hr⟩ := h
    rw [importDecls] at hd
    rcases List.mem_append.mp hd with hd | hd
    · split at hd
      · exact declOK_forwards ha _ d hd
      · exact absurd hd List.not_mem_nil
    · exact declOK_imports goPath rest hr d hd

/-! ### files with imports -/

mutual
theorem unit_reads (u : TextUnit) (h : TextUnitOK u) :
    ∃ src, unitText u = some src ∧ parseFile src = some (u.file.pkg, unitDecls u) := by
  match u, h with
  | .mk N f goPath desc imports, h =>
    obtain ⟨hN, hf, hx, hi⟩ := h
    obtain ⟨txt, h1, h2⟩ := imports_read goPath imports hi
    refine ⟨headerText f ++ (txt ++ bodyText N f), by rw [unitText, h1]; rfl, ?_⟩
    have h3 := (lx_header hf).append (h2.append (lx_body hN hf))
    refine parseFile_toks (ds := importDecls goPath imports ++ fileDecls N f) (p := f.pkg) ?_ ?_
    · rw [h3.tokens, List.flatMap_append]; rfl
    · intro d hd
      rcases List.mem_append.mp hd with hd | hd
      · exact declOK_imports goPath imports hi d hd
      · exact declOK_file hN hf d hd
theorem imports_read (goPath : Text) (is : TextImports) (h : TextImportsOK is) :
    ∃ txt, importsText goPath is = some txt ∧ Lx false txt ((importDecls goPath is).flatMap declToks) false := by
  match is, h with
  | .nil, _ => exact ⟨[], rfl, rfl⟩
  | .cons path pub alias u rest, h =>
    obtain ⟨hp, hl, ha, hu, hr⟩ := h
    obtain ⟨r, h1, h2⟩ := imports_read goPath rest hr
    rw [importDecls, List.flatMap_append]
    unfold importsText
    by_cases hg : u.goPath = goPath
    · rw [if_pos hg, if_neg (fun h => h.2 hg)]
      exact ⟨r, h1, h2⟩
    · rw [if_neg hg]
      cases pub with
      | false =>
        rw [if_pos rfl, if_neg (fun h => by cases h.1)]
        exact ⟨r, h1, h2⟩
      | true =>
        rw [if_neg (by decide), if_pos ⟨rfl, hg⟩]
        obtain ⟨src, h3, h4⟩ := unit_reads u hu
        rw [h3]
        simp only [h4, h1, Option.map_some]
        refine ⟨_, rfl, ?_⟩
        have hdecl : (unitDecls u).flatMap (declForwards alias u.desc) = (fileDecls u.names u.file).flatMap (declForwards alias u.desc) := by
          rw [unitDecls, List.flatMap_append, imports_forward, List.nil_append]
        rw [hdecl]
        have hf : TextFileOK u.file ∧ NamesExported u.file := by
          cases u with
          | mk N f g d i => exact ⟨hu.2.1, hu.2.2.1⟩
        have h5 := lx_line false (l := t!" Symbols defined in public import of " ++ path ++ t!".")
          (legal_append (legal_append (by unfold Legal; decide) hp) (by unfold Legal; decide)) (by simp [hl])
        have h6 := h5.append ((Lx.lit (e := false) (s := t!"\n") (ts := []) (e' := false) rfl).append
          ((lx_fileForwards (desc := u.desc) ha u.names hf.1 hf.2).append ((Lx.lit (e := false) (s := t!"\n") (ts := []) (e' := false) rfl).append h2)))
        simp only [List.append_assoc] at h6 ⊢
        exact h6
end

end Pb
