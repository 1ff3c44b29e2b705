import Verif.Spec.GoRun
import Verif.Proofs.GenMeans
/-
Running the getters of oneof members.
-/
namespace Pb
open Spec

/-! ### parsing -/

theorem isDigit_iff (c : Char) : isDigit c = true ↔ '0' ≤ c ∧ c ≤ '9' := by
  unfold isDigit; simp

theorem readNat_ident {w : Text} (h : IsIdent w) : readNat w = none := by
  obtain ⟨h1, _, _, h4⟩ := h
  unfold readNat
  rw [if_neg]
  rintro ⟨_, hd⟩
  cases w with
  | nil => exact h1 rfl
  | cons c cs =>
    rw [List.all_cons, Bool.and_eq_true] at hd
    exact h4 c rfl ((isDigit_iff c).mp hd.1)

theorem readNat_numeral {s : Text} {n : Nat} (h : Numeral s n) : readNat s = some n := by
  have key : s ≠ [] ∧ s.all isDigit = true ∧ s.foldl (fun n c => 10 * n + (c.toNat - '0'.toNat)) 0 = n := by
    induction h with
    | one c d hd => cases hd <;> decide
    | more s n c d _ hd ih =>
      obtain ⟨h1, h2, h3⟩ := ih
      have hc : isDigit c = true ∧ c.toNat - '0'.toNat = d := by cases hd <;> decide
      refine ⟨by simp, ?_, ?_⟩
      · rw [List.all_append, h2]; simp [hc.1]
      · rw [List.foldl_append, h3]
        show 10 * n + (c.toNat - '0'.toNat) = _
        rw [hc.2]
  unfold readNat
  rw [if_pos ⟨key.1, key.2.1⟩, key.2.2]

theorem postfix_semi (d : Nat) (e : GExpr) (ts : List Tok) : parsePostfix d e (.semi :: ts) = some (e, .semi :: ts) := by
  cases d <;> rfl

theorem postfix_assert (d : Nat) (e : GExpr) (ts : List Tok) :
    parsePostfix d e (.op '.' :: .op '(' :: ts) = some (e, .op '.' :: .op '(' :: ts) := by
  cases d <;> rfl

theorem postfix_sel (d : Nat) (e : GExpr) (n : Text) (ts : List Tok) :
    parsePostfix (d + 1) e (.op '.' :: .word n :: ts) = parsePostfix d (.sel e n) ts := rfl

theorem postfix_call (d : Nat) (e : GExpr) (ts : List Tok) :
    parsePostfix (d + 1) e (.op '(' :: .op ')' :: ts) = parsePostfix d (.call e) ts := rfl

theorem postfix_conv (d : Nat) (e : GExpr) (n : Int) (ts : List Tok) :
    parsePostfix (d + 1) e (.op '(' :: (intToks n ++ .op ')' :: ts)) = parsePostfix d (.conv e n) ts := by
  have hr := readNat_numeral (numeral_decimal n.natAbs)
  unfold intToks
  split
  · rename_i hn
    have h : parsePostfix (d + 1) e (.op '(' :: .op '-' :: .word (decimal n.natAbs) :: .op ')' :: ts) =
      match readNat (decimal n.natAbs) with
      | some n => parsePostfix d (.conv e (-(n : Int))) ts
      | none => none := rfl
    show parsePostfix (d + 1) e (.op '(' :: .op '-' :: .word (decimal n.natAbs) :: .op ')' :: ts) = _
    rw [h, hr]
    have : -(n.natAbs : Int) = n := by omega
    simp only [this]
  · rename_i hn
    have h : parsePostfix (d + 1) e (.op '(' :: .word (decimal n.natAbs) :: .op ')' :: ts) =
      match readNat (decimal n.natAbs) with
      | some n => parsePostfix d (.conv e (n : Int)) ts
      | none => none := rfl
    show parsePostfix (d + 1) e (.op '(' :: .word (decimal n.natAbs) :: .op ')' :: ts) = _
    rw [h, hr]
    have : (n.natAbs : Int) = n := by omega
    simp only [this]

theorem parseExpr_ident {w : Text} (h : readNat w = none) (ts : List Tok) :
    parseExpr (.word w :: ts) = parsePostfix (ts.length + 1) (.ident w) ts := by
  show (match readNat w with
    | some n => some (GExpr.num n, ts)
    | none => parsePostfix (ts.length + 1) (.ident w) ts) = _
  rw [h]

/-- The expression that a getter returns by default. -/
def defaultExpr (f : TextField) : GExpr :=
  match f.field.kind with
  | .bool => .ident t!"false"
  | .string => .str []
  | .message _ | .group _ | .bytes => .ident t!"nil"
  | .enum =>
    match f.enumFirst.pkg, f.enum.pkg with
    | none, _ => .ident f.enumFirst.name
    | some _, none => .conv (.ident f.enum.name) f.enumNumber
    | some _, some p => .conv (.sel (.ident p) f.enum.name) f.enumNumber
  | _ => .num 0

theorem parse_default {f : TextField} (hf : TextFieldOK f) {i : Nat} (hl : f.field.label = .oneof i) (ts : List Tok) :
    parseExpr (defaultToks f ++ .semi :: ts) = some (defaultExpr f, .semi :: ts) := by
  unfold defaultToks defaultExpr
  rw [hl]
  simp only
  cases f.field.kind with
  | enum =>
    simp only
    cases hp : f.enumFirst.pkg with
    | none =>
      simp only [List.cons_append, List.nil_append]
      rw [parseExpr_ident (readNat_ident hf.enumFirst.name), postfix_semi]
    | some q =>
      cases he : f.enum.pkg with
      | none =>
        simp only [List.cons_append, List.append_assoc, List.nil_append]
        rw [parseExpr_ident (readNat_ident hf.enum.name), postfix_conv, postfix_semi]
      | some p =>
        simp only [List.cons_append, List.append_assoc, List.nil_append]
        rw [parseExpr_ident (readNat_ident (hf.enum.pkg p he)), List.length_cons, postfix_sel, List.length_cons, postfix_conv, postfix_semi]
  | _ => rfl

theorem parseReturn_eq {ts rest : List Tok} {e : GExpr} (h : parseExpr ts = some (e, .semi :: rest)) :
    parseReturn (.word t!"return" :: ts) = some (e, rest) := by
  show (if t!"return" = t!"return" then (match parseExpr ts with
      | some (e, .semi :: ts) => some (e, ts)
      | _ => none) else none) = _
  rw [if_pos rfl, h]

theorem parse_field (x n : Text) (hx : readNat x = none) (ts : List Tok) :
    parseReturn (.word t!"return" :: .word x :: .op '.' :: .word n :: .semi :: ts) = some (.sel (.ident x) n, ts) := by
  refine parseReturn_eq ?_
  rw [parseExpr_ident hx, List.length_cons, postfix_sel, postfix_semi]

theorem parse_block (x n : Text) (hx : readNat x = none) (ts : List Tok) :
    parseBlock (.op '{' :: .word t!"return" :: .word x :: .op '.' :: .word n :: .semi :: .op '}' :: .semi :: ts) =
      some (.sel (.ident x) n, ts) := by
  show (match parseReturn (.word t!"return" :: .word x :: .op '.' :: .word n :: .semi :: .op '}' :: .semi :: ts) with
    | some (e, .op '}' :: .semi :: ts) => some (e, ts)
    | _ => none) = _
  rw [parse_field x n hx]
  rfl

theorem stmt_return {ts rest : List Tok} {e : GExpr} (h : parseExpr ts = some (e, .semi :: rest))
    (hts : ∀ w r, ts = .word w :: r → r.head? ≠ some (.op '!') ∧ r.head? ≠ some (.op ',')) :
    parseStmt (.word t!"return" :: ts) = some (.ret e, rest) := by
  have hr := parseReturn_eq h
  unfold parseStmt
  split
  · rename_i heq
    simp only [List.cons.injEq, Tok.word.injEq] at heq
    exact absurd rfl (hts _ _ heq.2).1
  · rename_i heq
    simp only [List.cons.injEq, Tok.word.injEq] at heq
    exact absurd rfl (hts _ _ heq.2).2
  · rw [hr]

theorem default_head {f : TextField} {i : Nat} (hl : f.field.label = .oneof i) (ts : List Tok) (w : Text) (r : List Tok)
    (h : defaultToks f ++ .semi :: ts = .word w :: r) : r.head? ≠ some (.op '!') ∧ r.head? ≠ some (.op ',') := by
  unfold defaultToks at h
  rw [hl] at h
  simp only at h
  revert h
  cases f.field.kind with
  | enum =>
    cases f.enumFirst.pkg with
    | none => rintro ⟨⟩; simp
    | some _ => cases f.enum.pkg <;> (rintro ⟨⟩; simp)
  | string => intro h; cases h
  | _ => rintro ⟨⟩; simp

/-- The body of the getter of a member. -/
def memberBody (o : TextOneof) (f : TextField) : List GStmt :=
  [.ifAssert t!"x" t!"ok" (.call (.sel (.ident t!"x") (t!"Get" ++ o.name))) f.ident t!"ok" (.sel (.ident t!"x") f.name), .ret (defaultExpr f)]

theorem stmt_assert (o : TextOneof) (f : TextField) (ts : List Tok) :
    parseStmt (.word t!"if" :: .word t!"x" :: .op ',' :: .word t!"ok" :: .op ':' :: .op '=' :: .word t!"x" :: .op '.' ::
      .word (t!"Get" ++ o.name) :: .op '(' :: .op ')' ::
      .op '.' :: .op '(' :: .op '*' :: .word f.ident :: .op ')' :: .semi :: .word t!"ok" :: .op '{' :: .word t!"return" :: .word t!"x" ::
      .op '.' :: .word f.name :: .semi :: .op '}' :: .semi :: ts) =
    some (.ifAssert t!"x" t!"ok" (.call (.sel (.ident t!"x") (t!"Get" ++ o.name))) f.ident t!"ok" (.sel (.ident t!"x") f.name), ts) := by
  have h1 : ∀ ts, parseExpr (.word t!"x" :: .op '.' :: .word (t!"Get" ++ o.name) :: .op '(' :: .op ')' :: .op '.' :: .op '(' :: ts) =
      some (.call (.sel (.ident t!"x") (t!"Get" ++ o.name)), .op '.' :: .op '(' :: ts) := by
    intro ts
    rw [parseExpr_ident (by decide), List.length_cons, postfix_sel, List.length_cons, postfix_call, postfix_assert]
  unfold parseStmt
  simp only [h1, if_true, parse_block t!"x" f.name (by decide)]

theorem parseBody_cons {ts r : List Tok} {s : GStmt} {ss : List GStmt} {d : Nat} (h : parseStmt ts = some (s, r))
    (h' : parseBody d r = some ss) : parseBody (d + 1) ts = some (s :: ss) := by
  cases ts with
  | nil => cases h
  | cons t ts => simp only [parseBody, h, h']

theorem parse_member {o : TextOneof} {f : TextField} (hf : TextFieldOK f) {i : Nat} (hl : f.field.label = .oneof i) (d : Nat) :
    parseBody (d + 2) ([.word t!"if", .word t!"x", .op ',', .word t!"ok", .op ':', .op '=', .word t!"x", .op '.', .word (t!"Get" ++ o.name), .op '(', .op ')',
      .op '.', .op '(', .op '*', .word f.ident, .op ')', .semi, .word t!"ok", .op '{', .word t!"return", .word t!"x", .op '.',
      .word f.name, .semi, .op '}', .semi, .word t!"return"] ++ defaultToks f ++ [.semi]) = some (memberBody o f) := by
  have h1 := stmt_assert o f (.word t!"return" :: (defaultToks f ++ [.semi]))
  have h2 := stmt_return (parse_default hf hl []) (default_head hl [])
  exact parseBody_cons h1 (parseBody_cons h2 (by cases d <;> rfl))

theorem parse_oneof (n : Text) (d : Nat) :
    parseBody (d + 2) [.word t!"if", .word t!"m", .op '!', .op '=', .word t!"nil", .op '{', .word t!"return", .word t!"m", .op '.',
      .word n, .semi, .op '}', .semi, .word t!"return", .word t!"nil", .semi] =
      some [.ifNotNil t!"m" (.sel (.ident t!"m") n), .ret (.ident t!"nil")] := by
  have h : parseStmt [.word t!"if", .word t!"m", .op '!', .op '=', .word t!"nil", .op '{', .word t!"return", .word t!"m", .op '.',
      .word n, .semi, .op '}', .semi, .word t!"return", .word t!"nil", .semi] =
      some (.ifNotNil t!"m" (.sel (.ident t!"m") n), [.word t!"return", .word t!"nil", .semi]) := by
    unfold parseStmt
    simp only [and_self, if_true, parse_block t!"m" n (by decide)]
  rw [parseBody]
  · rw [h]
    simp only
    cases d <;> rfl
  · intro h; cases h

/-! ### lookup -/

theorem lookupVar_mem {vs : List (Text × GVal)} (hd : (vs.map Prod.fst).Nodup) {n : Text} {v : GVal} (h : (n, v) ∈ vs) :
    lookupVar n vs = some v := by
  induction vs with
  | nil => exact absurd h List.not_mem_nil
  | cons p vs ih =>
    obtain ⟨k, w⟩ := p
    rw [List.map_cons, List.nodup_cons] at hd
    rcases List.mem_cons.mp h with h | h
    · cases h; simp [lookupVar]
    · have : k ≠ n := by
        rintro rfl
        exact hd.1 (List.mem_map.mpr ⟨_, h, rfl⟩)
      simp only [lookupVar, if_neg this, ih hd.2 h]

theorem declaredMethods_mem {ds : List SrcDecl} {r : Option Text} {T n : Text} {t : Option TypeExpr} {b : List Tok}
    (h : SrcDecl.method r T n t b ∈ ds) : (T, n) ∈ declaredMethods ds := by
  induction ds with
  | nil => exact absurd h List.not_mem_nil
  | cons d ds ih =>
    rcases List.mem_cons.mp h with e | h1
    · subst e; exact List.mem_cons_self ..
    · have := ih h1
      cases d <;> first | exact List.mem_cons_of_mem _ this | exact this

theorem findMethod_mem {ds : List SrcDecl} (hd : (declaredMethods ds).Nodup) {r : Option Text} {T n : Text} {t : Option TypeExpr}
    {b : List Tok} (h : SrcDecl.method r T n t b ∈ ds) : findMethod T n ds = some (r, t, b) := by
  induction ds with
  | nil => exact absurd h List.not_mem_nil
  | cons d ds ih =>
    rcases List.mem_cons.mp h with e | h1
    · subst e; simp [findMethod]
    · cases d with
      | method r' T' n' t' b' =>
        obtain ⟨h2, h3⟩ := List.nodup_cons.mp hd
        have : ¬ (T' = T ∧ n' = n) := by
          rintro ⟨rfl, rfl⟩
          exact h2 (declaredMethods_mem h1)
        simp only [findMethod, if_neg this, ih h3 h1]
      | _ => exact ih hd h1

theorem interface_declared {ds : List SrcDecl} {n : Text} {ms : List Text} (h : SrcDecl.interface n ms ∈ ds) : n ∈ declaredTypes ds := by
  induction ds with
  | nil => exact absurd h List.not_mem_nil
  | cons d ds ih =>
    rcases List.mem_cons.mp h with e | h1
    · subst e; exact List.mem_cons_self ..
    · have := ih h1
      cases d <;> first | exact List.mem_cons_of_mem _ this | exact this

theorem interfaceMethods_mem {ds : List SrcDecl} (hd : (declaredTypes ds).Nodup) {n : Text} {ms : List Text}
    (h : SrcDecl.interface n ms ∈ ds) : interfaceMethods n ds = some ms := by
  induction ds with
  | nil => exact absurd h List.not_mem_nil
  | cons d ds ih =>
    rcases List.mem_cons.mp h with e | h1
    · subst e; simp [interfaceMethods]
    · have ih := ih (declaredTypes_tail hd) h1
      cases d with
      | interface n' ms' =>
        have : n' ≠ n := by
          rintro rfl
          exact (List.nodup_cons.mp hd).1 (interface_declared h1)
        simp only [interfaceMethods, if_neg this, ih]
      | _ => exact ih

/-! ### what a generated file declares -/

theorem member_getter_declared {N : TextNames} {m : TextMessage} {i : Nat} {o : TextOneof} (ho : m.oneofs[i]? = some o) {g : TextField}
    (hl : g.field.label = .oneof i) (fs : List TextField) : ∀ seen, g ∈ fs → memberGetter N m o g ∈ getterDecls N m seen fs := by
  induction fs with
  | nil => intro seen h; exact absurd h List.not_mem_nil
  | cons f fs ih =>
    intro seen h
    unfold getterDecls
    rcases List.mem_cons.mp h with rfl | h
    · rw [hl]
      simp only [ho]
      exact List.mem_append_left _ (List.mem_append_right _ (List.mem_singleton.mpr rfl))
    · cases f.field.label with
      | oneof j => exact List.mem_append_right _ (ih _ h)
      | _ => exact ih _ h

theorem oneof_getter_declared {N : TextNames} {m : TextMessage} {i : Nat} {o : TextOneof} (ho : m.oneofs[i]? = some o) {g : TextField}
    (hl : g.field.label = .oneof i) (fs : List TextField) : ∀ seen, i ∉ seen → g ∈ fs → oneofGetter m o ∈ getterDecls N m seen fs := by
  induction fs with
  | nil => intro seen _ h; exact absurd h List.not_mem_nil
  | cons f fs ih =>
    intro seen hi h
    unfold getterDecls
    by_cases hf : f.field.label = .oneof i
    · rw [hf]
      simp only [ho, if_neg hi]
      exact List.mem_append_left _ (List.mem_append_left _ (List.mem_singleton.mpr rfl))
    · have h' : g ∈ fs := by
        rcases List.mem_cons.mp h with rfl | h
        · exact absurd hl hf
        · exact h
      cases hl' : f.field.label with
      | oneof j =>
        refine List.mem_append_right _ (ih _ ?_ h')
        intro hm
        rcases List.mem_cons.mp hm with rfl | hm
        · exact hf hl'
        · exact hi hm
      | _ => exact ih _ hi h'

theorem mem_fileDecls {N : TextNames} {f : TextFile} {m : TextMessage} (hm : m ∈ f.messages) {d : SrcDecl} (h : d ∈ messageDecls N m) :
    d ∈ fileDecls N f := List.mem_append_right _ (List.mem_flatMap.mpr ⟨m, hm, h⟩)

theorem mem_oneofDecls {N : TextNames} {m : TextMessage} {o : TextOneof} (ho : o ∈ m.oneofs) {d : SrcDecl} (h : d ∈ oneofDecls N m.tracked o) :
    d ∈ messageDecls N m := List.mem_cons_of_mem _ (List.mem_append_right _ (List.mem_flatMap.mpr ⟨o, ho, h⟩))

/-! ### members have different wrapper structs -/

/-- The name of the type a declaration declares. -/
def typeNameOf : SrcDecl → Option Text
  | .alias n _ | .struct n _ | .interface n _ => some n
  | _ => none

theorem declaredTypes_filterMap (ds : List SrcDecl) : declaredTypes ds = ds.filterMap typeNameOf := by
  induction ds with
  | nil => rfl
  | cons d ds ih => cases d <;> simp [declaredTypes, typeNameOf, ih, List.filterMap_cons]

theorem sublist_flatMap {α β : Type} {f : α → List β} {l : List α} {a : α} (h : a ∈ l) : (f a).Sublist (l.flatMap f) := by
  induction l with
  | nil => exact absurd h List.not_mem_nil
  | cons b l ih =>
    rw [List.flatMap_cons]
    rcases List.mem_cons.mp h with rfl | h
    · exact List.sublist_append_left ..
    · exact (ih h).trans (List.sublist_append_right ..)

theorem wrappers_nodup {N : TextNames} {f : TextFile} {m : TextMessage} (hm : m ∈ f.messages) {o : TextOneof} (ho : o ∈ m.oneofs)
    (hd : (declaredTypes (fileDecls N f)).Nodup) : (o.members.map TextField.ident).Nodup := by
  have h1 : (o.members.map (wrapperDecl N m.tracked)).Sublist (oneofDecls N m.tracked o) :=
    (List.sublist_append_left ..).trans (List.sublist_cons_self ..)
  have h2 : (oneofDecls N m.tracked o).Sublist (messageDecls N m) :=
    (sublist_flatMap ho).trans ((List.sublist_append_right ..).trans (List.sublist_cons_self ..))
  have h3 : (messageDecls N m).Sublist (fileDecls N f) := (sublist_flatMap hm).trans (List.sublist_append_right ..)
  have h4 := ((h1.trans h2).trans h3).filterMap typeNameOf
  rw [← declaredTypes_filterMap (fileDecls N f), List.filterMap_map] at h4
  have h5 : o.members.filterMap (typeNameOf ∘ wrapperDecl N m.tracked) = o.members.map TextField.ident := by
    rw [← List.filterMap_eq_map]; rfl
  rw [h5] at h4
  exact h4.nodup hd

theorem member_index {o : TextOneof} (hd : (o.members.map TextField.ident).Nodup) {j k : Nat} {g h : TextField} (hj : o.members[j]? = some g)
    (hk : o.members[k]? = some h) (e : g.ident = h.ident) : j = k := by
  have h1 : (o.members.map TextField.ident)[j]? = some g.ident := by rw [List.getElem?_map, hj]; rfl
  have h2 : (o.members.map TextField.ident)[k]? = some g.ident := by rw [List.getElem?_map, hk, e]; rfl
  obtain ⟨hjl, _⟩ := List.getElem?_eq_some_iff.mp h1
  exact (List.getElem?_inj hjl hd).mp (h1.trans h2.symm)

/-! ### running -/

/-- The getter of the oneof. -/
theorem run_oneofGetter {P : Pkg} {N : TextNames} {f : TextFile} (hP : P.decls = fileDecls N f) (hD : NoDuplicates P.decls) {m : TextMessage}
    (hm : m ∈ f.messages) {i : Nat} {o : TextOneof} (ho : m.oneofs[i]? = some o) {g : TextField} (hg : g ∈ m.fields)
    (hl : g.field.label = .oneof i) (hnil : P.consts t!"nil" = none) {x : Receiver} {r : GVal} (hr : ReceiverIs P m o x r) (d : Nat) :
    ∃ dyn, callMethod P (d + 1) r (t!"Get" ++ o.name) = .ok (.iface (oneofInterfaceName o) dyn) ∧ OneofIs P o (getOneof x) dyn := by
  have hmo := List.mem_of_getElem? ho
  have hdecl : oneofGetter m o ∈ P.decls := by
    rw [hP]
    exact mem_fileDecls hm (List.mem_cons_of_mem _ (List.mem_append_left _ (oneof_getter_declared ho hl m.fields [] List.not_mem_nil hg)))
  have hif : SrcDecl.interface (oneofInterfaceName o) [oneofInterfaceName o] ∈ P.decls := by
    rw [hP]
    exact mem_fileDecls hm (mem_oneofDecls hmo (List.mem_cons_self ..))
  have hin : interfaceName P.decls (.name none (oneofInterfaceName o)) = some (oneofInterfaceName o) := by
    simp only [interfaceName, interfaceMethods_mem hD.types hif, Option.isSome_some, if_true]
  have hf := findMethod_mem hD.methods hdecl
  cases hr with
  | nil =>
    refine ⟨none, ?_, .none⟩
    simp only [callMethod, hf]
    rw [show (List.length _) = 14 + 2 from rfl, parse_oneof]
    simp only [runBody, lookupVar, if_true, evalExpr]
    rw [if_neg (by decide)]
    simp only [hnil, assignTo, hin]
  | msg x fs vs dyn h1 h2 h3 h4 =>
    refine ⟨dyn, ?_, h3⟩
    have h5 := lookupVar_mem (h2 ▸ hD.fields _ _ h1) h4
    simp only [callMethod, hf]
    rw [show (List.length _) = 14 + 2 from rfl, parse_oneof]
    simp only [runBody, lookupVar, if_true, evalExpr, h5, assignTo, hin]

theorem toInt32_ok {n : Int} (h : -(2 ^ 31) ≤ n ∧ n < 2 ^ 31) : toInt32 n = .ok (.typed .int32 (.w32 (BitVec.ofInt 32 n))) := if_pos h

/-- The default value. -/
theorem run_default {P : Pkg} {N : TextNames} (hS : ScopeOK P.scope) {m : TextMessage} (hM : MessageScope P.scope N m) {g : TextField}
    (hg : g ∈ m.fields) {i : Nat} (hl : g.field.label = .oneof i) (hG : GetterScope P g) (call : GVal → Text → Except GFault GVal) (r : GVal)
    (ss : List GStmt) : runBody P call (goTypeExpr N g) [(t!"x", r)] (.ret (defaultExpr g) :: ss) =
      .ok (.typed (kindGoType g.field.kind) (getterDefault (BitVec.ofInt 32 g.enumNumber) g.field.kind)) := by
  have hT : typeMeans P.scope (goTypeExpr N g) = some (kindGoType g.field.kind) := by
    unfold goTypeExpr
    rw [hl]
    exact means_kindExpr hS g.field.kind (fun h => hM.enum g hg (.inl h)) (fun t h => hM.msg g hg t (h.imp .inl .inl))
  have hT' : goTypeExpr N g = kindExpr N g.enum g.field.kind := by
    unfold goTypeExpr; rw [hl]
  have hx : ∀ w, w ≠ t!"x" → lookupVar w [(t!"x", r)] = none := by
    intro w hw
    simp only [lookupVar, if_neg (Ne.symm hw)]
  unfold runBody defaultExpr
  cases hk : g.field.kind with
  | enum =>
    rw [hk] at hT
    have hen := hM.enum g hg (.inl hk)
    have hen' := means_qname P.scope hen
    simp only
    cases hp : g.enumFirst.pkg with
    | none =>
      obtain ⟨h1, h2⟩ := hG.first hk hp
      simp only [evalExpr, hx _ h2, h1, assignTo, hT, kindGoType, toInt32_ok (hG.range hk), getterDefault]
    | some q =>
      obtain ⟨h1, h2⟩ := hG.pkg hk
      unfold QName.expr at hen'
      cases he : g.enum.pkg with
      | none =>
        rw [he] at hen'
        simp only [evalExpr, hx _ h2, hen', assignTo, hT, kindGoType, toInt32_ok (hG.range hk), getterDefault, Option.isSome_none,
          Bool.false_eq_true, if_false, if_true]
      | some p =>
        rw [he] at hen' h1
        simp only [evalExpr, hx p (fun e => h1 (by rw [e])), hen', assignTo, hT, kindGoType, toInt32_ok (hG.range hk), getterDefault,
          Option.isSome_none, Bool.false_eq_true, if_false, if_true]
  | bool =>
    rw [hk] at hT
    simp only [evalExpr, hx t!"false" (by decide), hG.false, assignTo, hT, kindGoType, getterDefault]
    rfl
  | string =>
    rw [hk] at hT
    simp only [evalExpr, assignTo, hT, kindGoType, getterDefault]
    rfl
  | bytes =>
    rw [hk] at hT hT'
    have : interfaceName P.decls (goTypeExpr N g) = none := by rw [hT']; rfl
    simp only [evalExpr, hx t!"nil" (by decide), hG.nil, if_true, assignTo, hT, this, kindGoType, getterDefault]
  | message t =>
    rw [hk] at hT hT'
    have : interfaceName P.decls (goTypeExpr N g) = none := by rw [hT']; rfl
    simp only [evalExpr, hx t!"nil" (by decide), hG.nil, if_true, assignTo, hT, this, kindGoType, getterDefault]
  | group t =>
    rw [hk] at hT hT'
    have : interfaceName P.decls (goTypeExpr N g) = none := by rw [hT']; rfl
    simp only [evalExpr, hx t!"nil" (by decide), hG.nil, if_true, assignTo, hT, this, kindGoType, getterDefault]
  | _ =>
    rw [hk] at hT
    simp only [evalExpr, assignTo, hT, kindGoType, getterDefault]
    rfl

/-- What the model of the getter says, as a result of a Go method. -/
def getterResult (k : Kind) : Except Fault Val → Except GFault GVal
  | .ok v => .ok (.typed (kindGoType k) v)
  | .error _ => .error .panic

/-- The getter of a member. -/
theorem run_memberGetter {P : Pkg} {N : TextNames} {f : TextFile} (hf : TextFileOK f) (hP : P.decls = fileDecls N f)
    (hD : NoDuplicates P.decls) (hS : ScopeOK P.scope) {m : TextMessage} (hm : m ∈ f.messages) (hM : MessageScope P.scope N m) {i j : Nat}
    {o : TextOneof} (ho : m.oneofs[i]? = some o) {g : TextField} (hj : o.members[j]? = some g) (hg : g ∈ m.fields)
    (hl : g.field.label = .oneof i) (hG : GetterScope P g) {x : Receiver} {r : GVal} (hr : ReceiverIs P m o x r) (d : Nat) :
    callMethod P (d + 2) r (t!"Get" ++ g.name) =
      getterResult g.field.kind (getMember (BitVec.ofInt 32 g.enumNumber) g.field.kind j x) := by
  have hmo := List.mem_of_getElem? ho
  have hgo := List.mem_of_getElem? hj
  have hgf := (hf.messages m hm).fields g hg
  obtain ⟨dyn, hc, hO⟩ := run_oneofGetter hP hD hm ho hg hl hG.nil hr d
  have hdecl : memberGetter N m o g ∈ P.decls := by
    rw [hP]
    exact mem_fileDecls hm (List.mem_cons_of_mem _ (List.mem_append_left _ (member_getter_declared ho hl m.fields [] hg)))
  have hwrap : wrapperDecl N m.tracked g ∈ P.decls := by
    rw [hP]
    exact mem_fileDecls hm (mem_oneofDecls hmo (List.mem_cons_of_mem _ (List.mem_append_left _ (List.mem_map.mpr ⟨g, hgo, rfl⟩))))
  have himpl : implements P.decls g.ident (oneofInterfaceName o) = true := by
    have h1 : SrcDecl.interface (oneofInterfaceName o) [oneofInterfaceName o] ∈ P.decls := by
      rw [hP]
      exact mem_fileDecls hm (mem_oneofDecls hmo (List.mem_cons_self ..))
    have h2 : SrcDecl.method none g.ident (oneofInterfaceName o) none [] ∈ P.decls := by
      rw [hP]
      exact mem_fileDecls hm (mem_oneofDecls hmo (List.mem_cons_of_mem _ (List.mem_append_right _ (List.mem_map.mpr ⟨g, hgo, rfl⟩))))
    simp only [implements, interfaceMethods_mem hD.types h1, List.all_cons, findMethod_mem hD.methods h2, Option.isSome_some, List.all_nil,
      Bool.and_self]
  have hfind := findMethod_mem hD.methods hdecl
  have hdef := run_default hS hM hg hl hG (callMethod P (d + 1)) r []
  have hT : typeMeans P.scope (goTypeExpr N g) = some (kindGoType g.field.kind) := by
    unfold goTypeExpr
    rw [hl]
    exact means_kindExpr hS g.field.kind (fun h => hM.enum g hg (.inl h)) (fun t h => hM.msg g hg t (h.imp .inl .inl))
  have hnd := wrappers_nodup hm hmo (hP ▸ hD.types)
  have hr' : ∃ fs, r = .ptr m.name fs := by cases hr <;> exact ⟨_, rfl⟩
  obtain ⟨fs, rfl⟩ := hr'
  have hx : lookupVar g.ident [(t!"x", GVal.ptr m.name fs)] = none := by
    simp only [lookupVar, if_neg (Ne.symm hG.ident)]
  have hlen : ∀ ts : List Tok, ∃ k, ts.length + 2 = k + 2 := fun ts => ⟨_, rfl⟩
  rw [callMethod, hfind]
  simp only
  rw [show (List.length _) = ((defaultToks g ++ [Tok.semi]).length + 25) + 2 from by simp, parse_member hgf hl]
  simp only [memberBody]
  rw [runBody]
  have hcall : evalExpr P (callMethod P (d + 1)) [(t!"x", GVal.ptr m.name fs)] (.call (.sel (.ident t!"x") (t!"Get" ++ o.name))) =
      .ok (.iface (oneofInterfaceName o) dyn) := by
    simp only [evalExpr, lookupVar, if_true, hc]
  have hok : ∀ v b, evalExpr P (callMethod P (d + 1)) [(t!"x", v), (t!"ok", .flag b), (t!"x", GVal.ptr m.name fs)] (.ident t!"ok") =
      .ok (.flag b) := by
    intro v b
    simp only [evalExpr, lookupVar, if_true]
    rw [if_neg (by decide)]
  rw [hcall]
  simp only [hx, himpl, Option.isNone_none, and_self, if_true, hok]
  unfold getMember
  generalize getOneof x = y at hO
  cases hO with
  | none => simp only [assertType, hdef, getterResult]
  | nilWrapper k g' hk =>
    by_cases e : g'.ident = g.ident
    · have := member_index hnd hk hj e
      simp only [assertType, if_pos e, this, if_true, evalExpr, lookupVar, getterResult]
    · have : k ≠ j := by
        rintro rfl
        rw [hk] at hj
        cases hj
        exact e rfl
      simp only [assertType, if_neg e, if_neg this, hdef, getterResult]
  | wrapper k g' v vs hk hw =>
    by_cases e : g'.ident = g.ident
    · have := member_index hnd hk hj e
      subst this
      rw [hk] at hj
      cases hj
      cases hw with
      | mk n ty tag t h1 h2 =>
        have h3 := struct_unique hD.types h1 hwrap
        simp only [List.cons.injEq, SrcField.mk.injEq, and_true] at h3
        obtain ⟨rfl, rfl, _⟩ := h3
        rw [hT] at h2
        cases h2
        simp only [assertType, if_true, evalExpr, lookupVar, getterResult, assignTo, hT]
    · have : k ≠ j := by
        rintro rfl
        rw [hk] at hj
        cases hj
        exact e rfl
      simp only [assertType, if_neg e, if_neg this, hdef, getterResult]

end Pb
