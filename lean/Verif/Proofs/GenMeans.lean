import Verif.Proofs.GenTokens
/-
Generated declarations can be read back, and mean the structs of `genMessage`.
-/
namespace Pb
open Spec

/-! ### the declarations are readable -/

theorem typeOK_qname {q : QName} (h : QNameOK q) : TypeOK (QName.expr q) := by
  obtain ⟨p, n⟩ := q
  cases p with
  | none => exact h.name.2.2.1
  | some p => exact (h.pkg p rfl).2.2.1

theorem typeOK_kind {N : TextNames} (hN : TextNamesOK N) {enum : QName} (he : QNameOK enum) (k : Kind) : TypeOK (kindExpr N enum k) := by
  cases k with
  | enum => exact typeOK_qname he
  | message t | group t => exact typeOK_qname (hN.msg t)
  | _ => simp only [kindExpr, TypeOK]; decide

theorem typeOK_goType {N : TextNames} (hN : TextNamesOK N) {f : TextField} (hf : TextFieldOK f) : TypeOK (goTypeExpr N f) := by
  unfold goTypeExpr
  cases f.field.label with
  | map key => exact ⟨typeOK_kind hN hf.enum _, typeOK_kind hN hf.enum _⟩
  | _ => exact typeOK_kind hN hf.enum _

theorem typeOK_fieldType {N : TextNames} (hN : TextNamesOK N) {f : TextField} (hf : TextFieldOK f) : TypeOK (fieldTypeExpr N f) := by
  unfold fieldTypeExpr
  split
  · exact ⟨hN.protoPkg.2.2.1, typeOK_goType hN hf⟩
  · exact typeOK_goType hN hf

theorem typeOK_srcFields {N : TextNames} (hN : TextNamesOK N) {m : TextMessage} (hm : TextMessageOK m) (fs : List TextField)
    (hfs : ∀ f ∈ fs, TextFieldOK f) : ∀ seen, ∀ g ∈ srcFields N m seen fs, TypeOK g.ty := by
  induction fs with
  | nil => intro seen g hg; exact absurd hg List.not_mem_nil
  | cons f fs ih =>
    intro seen g hg
    have ih := ih (fun f hf => hfs f (List.mem_cons_of_mem _ hf))
    unfold srcFields at hg
    cases hl : f.field.label with
    | oneof i =>
      rw [hl] at hg
      simp only at hg
      split at hg
      · exact ih seen g hg
      · rcases List.mem_append.mp hg with hg | hg
        · cases ho : m.oneofs[i]? with
          | none => rw [ho] at hg; exact absurd hg List.not_mem_nil
          | some o =>
            rw [ho] at hg
            rw [List.mem_singleton.mp hg]
            exact (plain_is (hm.oneofs o (List.mem_of_getElem? ho)).ident).2.2
        · exact ih _ g hg
    | _ =>
      rw [hl] at hg
      rcases List.mem_cons.mp hg with rfl | hg
      · exact typeOK_fieldType hN (hfs f (List.mem_cons_self ..))
      · exact ih seen g hg

theorem takeBody_plain (ts : List Tok) (h : .op '{' ∉ ts ∧ .op '}' ∉ ts) (d : Nat) (rest : List Tok) :
    takeBody d (ts ++ rest) = (takeBody d rest).map fun r => (ts ++ r.1, r.2) := by
  induction ts with
  | nil => simp only [List.nil_append]; cases takeBody d rest <;> rfl
  | cons t ts ih =>
    have ih := ih ⟨fun hm => h.1 (List.mem_cons_of_mem _ hm), fun hm => h.2 (List.mem_cons_of_mem _ hm)⟩
    cases t with
    | op c =>
      have h1 : c ≠ '{' := fun e => h.1 (by rw [e]; exact List.mem_cons_self ..)
      have h2 : c ≠ '}' := fun e => h.2 (by rw [e]; exact List.mem_cons_self ..)
      simp only [List.cons_append, takeBody, h1, h2, if_false, ih, Option.map_map]
      rfl
    | _ =>
      simp only [List.cons_append, takeBody, ih, Option.map_map]
      rfl

theorem intToks_plain (n : Int) : Tok.op '{' ∉ intToks n ∧ Tok.op '}' ∉ intToks n ∧ Tok.semi ∉ intToks n := by
  unfold intToks
  split <;> simp

theorem defaultToks_plain (f : TextField) : Tok.op '{' ∉ defaultToks f ∧ Tok.op '}' ∉ defaultToks f := by
  obtain ⟨h1, h2, _⟩ := intToks_plain f.enumNumber
  have he : ∀ ts : List Tok, ts = (match f.enumFirst.pkg, f.enum.pkg with
      | none, _ => [.word f.enumFirst.name]
      | some _, none => .word f.enum.name :: .op '(' :: (intToks f.enumNumber ++ [.op ')'])
      | some _, some p => .word p :: .op '.' :: .word f.enum.name :: .op '(' :: (intToks f.enumNumber ++ [.op ')'])) →
      Tok.op '{' ∉ ts ∧ Tok.op '}' ∉ ts := by
    rintro ts rfl
    cases f.enumFirst.pkg with
    | none => simp
    | some _ => cases f.enum.pkg <;> simp [h1, h2]
  unfold defaultToks
  cases f.field.label <;> simp only <;> first
    | (simp; done)
    | (cases f.field.kind <;> simp only <;> first
        | (simp; done)
        | exact he _ rfl)

theorem body_memberGetter (N : TextNames) (m : TextMessage) (o : TextOneof) {f : TextField} (hf : TypeOK (goTypeExpr N f)) :
    DeclOK (memberGetter N m o f) := by
  refine ⟨fun t ht => by cases ht; exact hf, fun rest => ?_⟩
  have h := takeBody_plain (defaultToks f) (defaultToks_plain f) 0 (.semi :: .op '}' :: rest)
  have h2 : takeBody 0 (.semi :: .op '}' :: rest) = some ([.semi], rest) := rfl
  rw [h2] at h
  simp only [List.append_assoc, List.cons_append, List.nil_append, Option.map_some] at h ⊢
  simp only [takeBody, h]
  rfl

theorem declOK_getters {N : TextNames} (hN : TextNamesOK N) {m : TextMessage} (hm : TextMessageOK m) (fs : List TextField)
    (hfs : ∀ f ∈ fs, TextFieldOK f) : ∀ seen, ∀ d ∈ getterDecls N m seen fs, DeclOK d := by
  induction fs with
  | nil => intro seen g hg; exact absurd hg List.not_mem_nil
  | cons f fs ih =>
    intro seen d hd
    have ih := ih (fun f hf => hfs f (List.mem_cons_of_mem _ hf))
    have hf := hfs f (List.mem_cons_self ..)
    unfold getterDecls at hd
    cases hl : f.field.label with
    | oneof i =>
      rw [hl] at hd
      simp only at hd
      rcases List.mem_append.mp hd with hd | hd
      · cases ho : m.oneofs[i]? with
        | none => rw [ho] at hd; exact absurd hd List.not_mem_nil
        | some o =>
          rw [ho] at hd
          have ho := hm.oneofs o (List.mem_of_getElem? ho)
          rcases List.mem_append.mp hd with hd | hd
          · split at hd
            · exact absurd hd List.not_mem_nil
            · rw [List.mem_singleton.mp hd]
              exact ⟨fun t ht => by cases ht; exact (plain_is ho.ident).2.2, fun rest => rfl⟩
          · rw [List.mem_singleton.mp hd]
            exact body_memberGetter N m o (typeOK_goType hN hf)
      · exact ih _ d hd
    | _ => rw [hl] at hd; exact ih seen d hd

theorem declOK_message {N : TextNames} (hN : TextNamesOK N) {m : TextMessage} (hm : TextMessageOK m) : ∀ d ∈ messageDecls N m, DeclOK d := by
  intro d hd
  rcases List.mem_cons.mp hd with rfl | hd
  · intro g hg
    rcases List.mem_append.mp hg with hg | hg
    · exact typeOK_srcFields hN hm m.fields hm.fields [] g hg
    · split at hg
      · rw [List.mem_singleton.mp hg]; exact trivial
      · exact absurd hg List.not_mem_nil
  · rcases List.mem_append.mp hd with hd | hd
    · exact declOK_getters hN hm m.fields hm.fields [] d hd
    · obtain ⟨o, ho, hd⟩ := List.mem_flatMap.mp hd
      have ho := hm.oneofs o ho
      rcases List.mem_cons.mp hd with rfl | hd
      · exact trivial
      · rcases List.mem_append.mp hd with hd | hd
        · obtain ⟨f, hf, rfl⟩ := List.mem_map.mp hd
          intro g hg
          rw [List.mem_singleton.mp hg]
          exact typeOK_goType hN (ho.members f hf)
        · obtain ⟨f, hf, rfl⟩ := List.mem_map.mp hd
          exact ⟨(by intro t ht; cases ht), fun rest => rfl⟩

theorem declOK_file {N : TextNames} (hN : TextNamesOK N) {f : TextFile} (hf : TextFileOK f) : ∀ d ∈ fileDecls N f, DeclOK d := by
  intro d hd
  rcases List.mem_append.mp hd with hd | hd
  · obtain ⟨e, he, hd⟩ := List.mem_flatMap.mp hd
    rcases List.mem_cons.mp hd with rfl | hd
    · show t!"int32" ∉ keywords
      decide
    · rw [List.mem_singleton.mp hd]
      intro c hc
      obtain ⟨v, hv, rfl⟩ := List.mem_map.mp hc
      exact ⟨(hf.enums e he).name.2.2.1, (intToks_plain _).2.2⟩
  · obtain ⟨m, hm, hd⟩ := List.mem_flatMap.mp hd
    exact declOK_message hN (hf.messages m hm) d hd

/-! ### what the structs mean -/

theorem means_pre {S : Scope} (hS : ScopeOK S) {n : Text} {t : GoType} (h : predeclared n = some t) :
    typeMeans S (.name none n) = some t := by
  simp only [typeMeans, hS n (by rw [h]; rfl), h]

theorem means_qname (S : Scope) {q : QName} {t : GoType} (h : S q.pkg q.name = some t) : typeMeans S (QName.expr q) = some t := by
  obtain ⟨p, n⟩ := q
  cases p with
  | none => simp only at h; simp only [QName.expr, typeMeans, h]
  | some p => exact h

theorem means_kindExpr {S : Scope} {N : TextNames} (hS : ScopeOK S) {enum : QName} (k : Kind)
    (he : k = .enum → S enum.pkg enum.name = some .int32)
    (hm : ∀ t, k = .message t ∨ k = .group t → S (N.msg t).pkg (N.msg t).name = some (.named t)) : typeMeans S (kindExpr N enum k) = some (kindGoType k) := by
  cases k with
  | enum => exact means_qname S (he rfl)
  | message t =>
    have := means_qname S (hm t (.inl rfl))
    simp only [kindExpr, typeMeans, this, Option.map_some, kindGoType]
  | group t =>
    have := means_qname S (hm t (.inr rfl))
    simp only [kindExpr, typeMeans, this, Option.map_some, kindGoType]
  | bytes =>
    have := means_pre hS (n := t!"byte") (t := .uint8) (by decide)
    show (typeMeans S (.name none t!"byte")).map GoType.slice = _
    rw [this]; rfl
  | _ => exact means_pre hS (by decide)

theorem means_goType {S : Scope} {N : TextNames} (hS : ScopeOK S) (f : TextField)
    (he : Mentions f .enum → S f.enum.pkg f.enum.name = some .int32)
    (hm : ∀ t, Mentions f (.message t) ∨ Mentions f (.group t) → S (N.msg t).pkg (N.msg t).name = some (.named t)) :
    typeMeans S (goTypeExpr N f) = some (fieldGoType f.field).1 := by
  have hk := means_kindExpr hS (enum := f.enum) f.field.kind (fun h => he (.inl h))
    (fun t h => hm t (h.imp .inl .inl))
  unfold goTypeExpr fieldGoType
  cases hl : f.field.label with
  | repeated => simp only [typeMeans, hk, Option.map_some]
  | map key =>
    have hk' := means_kindExpr hS (enum := f.enum) key (fun h => he (.inr (by rw [hl, h])))
      (fun t h => hm t (h.imp (fun h => .inr (by rw [hl, h])) (fun h => .inr (by rw [hl, h]))))
    simp only [typeMeans, hk, hk', ProtoField.entryFields]
  | _ => exact hk

theorem kindExpr_notInst (N : TextNames) (e : QName) (k : Kind) (p n : Text) (t : TypeExpr) : kindExpr N e k ≠ .inst p n t := by
  cases k <;> simp [kindExpr, QName.expr]

theorem goTypeExpr_notInst (N : TextNames) (f : TextField) (p n : Text) (t : TypeExpr) : goTypeExpr N f ≠ .inst p n t := by
  unfold goTypeExpr
  cases f.field.label with
  | repeated => simp
  | map key => simp
  | _ => exact kindExpr_notInst N _ _ p n t

theorem means_ty {S : Scope} {proto : Text} {e : TypeExpr} {t : GoType} (hn : ∀ p n a, e ≠ .inst p n a) (h : typeMeans S e = some t) :
    fieldTypeMeans S proto e = some (.ty t) := by
  cases e with
  | inst p n a => exact absurd rfl (hn p n a)
  | _ => simp only [fieldTypeMeans, h, Option.map_some]

theorem means_plainField {S : Scope} {N : TextNames} (hS : ScopeOK S) (tracked : Bool) (f : TextField)
    (he : Mentions f .enum → S f.enum.pkg f.enum.name = some .int32)
    (hm : ∀ t, Mentions f (.message t) ∨ Mentions f (.group t) → S (N.msg t).pkg (N.msg t).name = some (.named t)) (hx : isExported f.name = true) :
    srcFieldMeans S N.protoPkg (plainSrcField N tracked f) = some (genField tracked f.field) := by
  have h := means_goType hS f he hm
  unfold srcFieldMeans plainSrcField fieldTypeExpr genField
  cases ho : (fieldGoType f.field).2 with
  | true => simp only [if_true, fieldTypeMeans, and_self, h, Option.map_some, hx, Option.getD_some, ho]
  | false =>
    have := means_ty (proto := N.protoPkg) (goTypeExpr_notInst N f) h
    simp only [Bool.false_eq_true, if_false, this, Option.map_some, hx, Option.getD_some, ho]

/-- The names of the oneofs of a message. -/
def oneofNames (m : TextMessage) (i : Nat) : Text :=
  match m.oneofs[i]? with
  | some o => o.protoName
  | none => []

theorem structMeans_append {S : Scope} {proto : Text} {a b : List SrcField} {da db : StructDecl} (ha : structMeans S proto a = some da)
    (hb : structMeans S proto b = some db) : structMeans S proto (a ++ b) = some (da ++ db) := by
  induction a generalizing da with
  | nil => cases ha; exact hb
  | cons f fs ih =>
    simp only [structMeans] at ha
    cases h1 : srcFieldMeans S proto f with
    | none => rw [h1] at ha; cases ha
    | some d =>
      cases h2 : structMeans S proto fs with
      | none => rw [h1, h2] at ha; cases ha
      | some ds =>
        rw [h1, h2] at ha
        cases ha
        simp only [List.cons_append, structMeans, h1, ih h2]

theorem means_fields {S : Scope} {N : TextNames} (hS : ScopeOK S) {m : TextMessage} (hm : MessageScope S N m) (fs : List TextField)
    (hfs : ∀ f ∈ fs, f ∈ m.fields) : ∀ seen, structMeans S N.protoPkg (srcFields N m seen fs) =
      some (genFields m.tracked (oneofNames m) seen (fs.map TextField.field)) := by
  induction fs with
  | nil => intro seen; rfl
  | cons f fs ih =>
    intro seen
    have ih := ih (fun f hf => hfs f (List.mem_cons_of_mem _ hf))
    have hf := hfs f (List.mem_cons_self ..)
    rw [List.map_cons]
    unfold srcFields genFields
    cases hl : f.field.label with
    | oneof i =>
      simp only
      by_cases hi : i ∈ seen
      · rw [if_pos hi, if_pos hi]; exact ih seen
      · rw [if_neg hi, if_neg hi]
        have hlt := hm.index f hf i hl
        have ho : m.oneofs[i]? = some m.oneofs[i] := List.getElem?_eq_getElem hlt
        generalize m.oneofs[i] = o at ho
        have hmem := List.mem_of_getElem? ho
        have h1 : typeMeans S (.name none (oneofInterfaceName o)) = some .other := by simp only [typeMeans, hm.oneof o hmem]
        have h2 := means_ty (proto := N.protoPkg) (by intro p n a h; cases h) h1
        have h3 : oneofNames m i = o.protoName := by simp only [oneofNames, ho]
        simp only [ho, List.singleton_append, structMeans, srcFieldMeans, oneofSrcField, h2, Option.map_some, ih,
          hm.exported.2 o hmem, Option.getD_some, h3]
    | _ =>
      have h := means_plainField hS m.tracked f (hm.enum f hf) (hm.msg f hf) (hm.exported.1 f hf)
      simp only [structMeans, h, ih]

/-- The struct that stands in the generated text is the one `genMessage` describes. -/
theorem means_message {S : Scope} {N : TextNames} (hS : ScopeOK S) {m : TextMessage} (hm : MessageScope S N m) :
    structMeans S N.protoPkg (srcFields N m [] m.fields ++
      if m.fields.all TextField.comparable then [⟨t!"_", .array t!"0" .func, none⟩] else []) =
      some (genMessage m.tracked (oneofNames m) (m.fields.map TextField.field)) := by
  unfold genMessage
  refine structMeans_append (means_fields hS hm m.fields (fun _ h => h) []) ?_
  rw [List.all_map]
  show _ = some (if m.fields.all TextField.comparable = true then _ else _)
  cases m.fields.all TextField.comparable with
  | true => rfl
  | false => rfl

theorem declaredTypes_mem {ds : List SrcDecl} {n : Text} {fs : List SrcField} (h : SrcDecl.struct n fs ∈ ds) : n ∈ declaredTypes ds := by
  induction ds with
  | nil => exact absurd h List.not_mem_nil
  | cons d ds ih =>
    rcases List.mem_cons.mp h with e | h1
    · subst e; exact List.mem_cons_self ..
    · have := ih h1
      cases d <;> first | exact List.mem_cons_of_mem _ this | exact this

theorem declaredTypes_tail {d : SrcDecl} {ds : List SrcDecl} (h : (declaredTypes (d :: ds)).Nodup) : (declaredTypes ds).Nodup := by
  cases d <;> first | exact (List.nodup_cons.mp h).2 | exact h

/-- A file without duplicate names declares one struct of a name. -/
theorem struct_unique {ds : List SrcDecl} (hd : (declaredTypes ds).Nodup) {n : Text} {fs gs : List SrcField} (h : SrcDecl.struct n fs ∈ ds)
    (h' : SrcDecl.struct n gs ∈ ds) : fs = gs := by
  induction ds with
  | nil => exact absurd h List.not_mem_nil
  | cons d ds ih =>
    rcases List.mem_cons.mp h with e | h1
    · rcases List.mem_cons.mp h' with e' | h1'
      · rw [← e] at e'; cases e'; rfl
      · subst e; exact absurd (declaredTypes_mem h1') (List.nodup_cons.mp hd).1
    · rcases List.mem_cons.mp h' with e' | h1'
      · subst e'; exact absurd (declaredTypes_mem h1) (List.nodup_cons.mp hd).1
      · exact ih (declaredTypes_tail hd) h1 h1'

theorem struct_declared {N : TextNames} {f : TextFile} {m : TextMessage} (h : m ∈ f.messages) : structDecl N m ∈ fileDecls N f :=
  List.mem_append_right _ (List.mem_flatMap.mpr ⟨m, h, List.mem_cons_self ..⟩)

/-! ### comments -/

theorem legal_nil : Legal [] := fun _ h => absurd h List.not_mem_nil

theorem stripField_ok {f : TextField} (h : TextFieldOK f) : TextFieldOK (stripField f) :=
  ⟨h.name, h.ident, legal_nil, legal_nil, h.enum, h.enumFirst⟩

theorem stripFile_ok {f : TextFile} (h : TextFileOK f) : TextFileOK (stripFile f) := by
  refine ⟨legal_nil, List.not_mem_nil, h.pkg, ?_, ?_⟩
  · intro e he
    obtain ⟨e', he', rfl⟩ := List.mem_map.mp he
    have := h.enums e' he'
    refine ⟨this.name, legal_nil, ?_⟩
    intro v hv
    obtain ⟨v', hv', rfl⟩ := List.mem_map.mp hv
    exact ⟨(this.values v' hv').1, legal_nil, legal_nil⟩
  · intro m hm
    obtain ⟨m', hm', rfl⟩ := List.mem_map.mp hm
    have := h.messages m' hm'
    refine ⟨this.name, legal_nil, ?_, ?_⟩
    · intro f hf
      obtain ⟨f', hf', rfl⟩ := List.mem_map.mp hf
      exact stripField_ok (this.fields f' hf')
    · intro o ho
      obtain ⟨o', ho', rfl⟩ := List.mem_map.mp ho
      have := this.oneofs o' ho'
      refine ⟨this.name, this.protoName, this.ident, legal_nil, ?_⟩
      intro f hf
      obtain ⟨f', hf', rfl⟩ := List.mem_map.mp hf
      exact stripField_ok (this.members f' hf')

theorem strip_srcFields (N : TextNames) (m : TextMessage) (fs : List TextField) : ∀ seen,
    srcFields N (stripMessage m) seen (fs.map stripField) = srcFields N m seen fs := by
  induction fs with
  | nil => intro seen; rfl
  | cons f fs ih =>
    intro seen
    rw [List.map_cons]
    unfold srcFields
    have hl : (stripField f).field.label = f.field.label := rfl
    rw [hl]
    cases f.field.label with
    | oneof i =>
      simp only [ih]
      have ho : (stripMessage m).oneofs[i]? = (m.oneofs[i]?).map stripOneof := List.getElem?_map
      rw [ho]
      cases m.oneofs[i]? <;> rfl
    | _ =>
      simp only [ih]
      rfl

theorem strip_getters (N : TextNames) (m : TextMessage) (fs : List TextField) : ∀ seen,
    getterDecls N (stripMessage m) seen (fs.map stripField) = getterDecls N m seen fs := by
  induction fs with
  | nil => intro seen; rfl
  | cons f fs ih =>
    intro seen
    rw [List.map_cons]
    unfold getterDecls
    have hl : (stripField f).field.label = f.field.label := rfl
    rw [hl]
    cases f.field.label with
    | oneof i =>
      simp only [ih]
      have ho : (stripMessage m).oneofs[i]? = (m.oneofs[i]?).map stripOneof := List.getElem?_map
      rw [ho]
      cases m.oneofs[i]? <;> rfl
    | _ => simp only [ih]

theorem strip_message (N : TextNames) (m : TextMessage) : messageDecls N (stripMessage m) = messageDecls N m := by
  unfold messageDecls structDecl
  have h1 := strip_srcFields N m m.fields []
  have h2 := strip_getters N m m.fields []
  have h3 : (stripMessage m).fields.all TextField.comparable = m.fields.all TextField.comparable := by
    show (m.fields.map stripField).all _ = _
    rw [List.all_map]; rfl
  have h4 : (stripMessage m).oneofs.flatMap (oneofDecls N (stripMessage m).tracked) = m.oneofs.flatMap (oneofDecls N m.tracked) := by
    show (m.oneofs.map stripOneof).flatMap _ = _
    rw [List.flatMap_map]
    congr 1
    funext o
    show oneofDecls N m.tracked (stripOneof o) = _
    unfold oneofDecls
    show _ :: ((o.members.map stripField).map _ ++ (o.members.map stripField).map _) = _
    rw [List.map_map, List.map_map]; rfl
  have h5 : (stripMessage m).fields = m.fields.map stripField := rfl
  rw [h3, h4, h5, h1, h2]
  rfl

theorem strip_file (N : TextNames) (f : TextFile) : fileDecls N (stripFile f) = fileDecls N f := by
  unfold fileDecls
  show (f.enums.map stripEnum).flatMap _ ++ (f.messages.map stripMessage).flatMap _ = _
  rw [List.flatMap_map, List.flatMap_map]
  have h1 : (fun m => messageDecls N (stripMessage m)) = messageDecls N := funext (strip_message N)
  have h2 : (fun e => enumDecls (stripEnum e)) = enumDecls := by
    funext e
    unfold enumDecls
    show [_, SrcDecl.consts ((e.values.map _).map _)] = _
    rw [List.map_map]; rfl
  rw [h1, h2]

end Pb
