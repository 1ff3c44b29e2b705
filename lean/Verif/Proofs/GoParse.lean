import Verif.Spec.GenSource
/-
Declarations written as tokens, and read back.
-/
namespace Pb
open Spec

/-! ### writing -/

/-- The tokens of a type. -/
def typeToks : TypeExpr → List Tok
  | .name none n => [.word n]
  | .name (some p) n => [.word p, .op '.', .word n]
  | .inst p n t => .word p :: .op '.' :: .word n :: .op '[' :: (typeToks t ++ [.op ']'])
  | .ptr t => .op '*' :: typeToks t
  | .slice t => .op '[' :: .op ']' :: typeToks t
  | .array n t => .op '[' :: .word n :: .op ']' :: typeToks t
  | .map k v => .word t!"map" :: .op '[' :: (typeToks k ++ .op ']' :: typeToks v)
  | .func => [.word t!"func", .op '(', .op ')']

/-- The names in a type are no keywords. -/
def TypeOK : TypeExpr → Prop
  | .name none n => n ∉ keywords
  | .name (some p) _ => p ∉ keywords
  | .inst p _ t => p ∉ keywords ∧ TypeOK t
  | .ptr t | .slice t | .array _ t => TypeOK t
  | .map k v => TypeOK k ∧ TypeOK v
  | .func => True

def typeDepth : TypeExpr → Nat
  | .name .. | .func => 1
  | .inst _ _ t | .ptr t | .slice t | .array _ t => typeDepth t + 1
  | .map k v => typeDepth k + typeDepth v + 1

def tagToks : Option Text → List Tok
  | some s => [.raw s]
  | none => []

/-- The tokens of a field. -/
def srcFieldToks (f : SrcField) : List Tok := .word f.name :: (typeToks f.ty ++ (tagToks f.tag ++ [.semi]))

/-- The tokens of a method in an interface. -/
def methodToks (m : Text) : List Tok := [.word m, .op '(', .op ')', .semi]

/-- The tokens of a constant. -/
def constToks (c : Text × TypeExpr × List Tok) : List Tok := .word c.1 :: (typeToks c.2.1 ++ .op '=' :: (c.2.2 ++ [.semi]))

/-- The tokens of the name of a receiver. -/
def recvToks : Option Text → List Tok
  | some x => [.word x]
  | none => []

/-- The tokens of a result. -/
def resToks : Option TypeExpr → List Tok
  | some t => typeToks t
  | none => []

/-- The tokens of a declaration, with the semicolon behind. -/
def declToks : SrcDecl → List Tok
  | .alias n t => .word t!"type" :: .word n :: .op '=' :: (typeToks t ++ [.semi])
  | .struct n fs => .word t!"type" :: .word n :: .word t!"struct" :: .op '{' :: (fs.flatMap srcFieldToks ++ [.op '}', .semi])
  | .interface n ms =>
    .word t!"type" :: .word n :: .word t!"interface" :: .op '{' ::
      (ms.flatMap methodToks ++ [.op '}', .semi])
  | .consts cs => .word t!"const" :: .op '(' :: (cs.flatMap constToks ++ [.op ')', .semi])
  | .const n v => .word t!"const" :: .word n :: .op '=' :: (v ++ [.semi])
  | .method recv rt n res body =>
    .word t!"func" :: .op '(' ::
      (recvToks recv ++ .op '*' :: .word rt :: .op ')' :: .word n :: .op '(' :: .op ')' ::
        (resToks res ++ .op '{' :: (body ++ [.op '}', .semi])))

/-- What a declaration must fulfil to be read back. -/
def DeclOK : SrcDecl → Prop
  | .alias _ t => TypeOK t
  | .struct _ fs => ∀ f ∈ fs, TypeOK f.ty
  | .interface .. => True
  | .consts cs => ∀ c ∈ cs, TypeOK c.2.1 ∧ .semi ∉ c.2.2
  | .const _ v => .semi ∉ v
  | .method _ _ _ res body => (∀ t, res = some t → TypeOK t) ∧ ∀ rest, takeBody 0 (body ++ .op '}' :: rest) = some (body, rest)

/-! ### reading types -/

/-- The tokens do not go on with a dot or an opening bracket. -/
def TypeStop (rest : List Tok) : Prop := ∀ r, rest ≠ .op '.' :: r ∧ rest ≠ .op '[' :: r

theorem typeStop_op {c : Char} (h : c ≠ '.') (h' : c ≠ '[') (r : List Tok) : TypeStop (.op c :: r) := by
  intro r'
  exact ⟨fun e => h (by injection e with e; injection e), fun e => h' (by injection e with e; injection e)⟩

theorem typeStop_raw (s : Text) (r : List Tok) : TypeStop (.raw s :: r) := by
  intro r'; exact ⟨by rintro ⟨⟩, by rintro ⟨⟩⟩

theorem typeStop_semi (r : List Tok) : TypeStop (.semi :: r) := by
  intro r'; exact ⟨by rintro ⟨⟩, by rintro ⟨⟩⟩

theorem ne_kw {n k : Text} (h : n ∉ keywords) (hk : k ∈ keywords) : n ≠ k := fun e => h (e ▸ hk)

theorem parseType_toks (t : TypeExpr) (ht : TypeOK t) : ∀ (d : Nat) (rest : List Tok), typeDepth t ≤ d → TypeStop rest →
    parseType d (typeToks t ++ rest) = some (t, rest) := by
  induction t with
  | name p n =>
    intro d rest hd hr
    cases d with
    | zero => simp only [typeDepth] at hd; omega
    | succ d =>
      cases p with
      | none =>
        simp only [TypeOK] at ht
        have h1 := ne_kw ht (k := t!"map") (by decide)
        have h2 := ne_kw ht (k := t!"func") (by decide)
        rcases rest with _ | ⟨x, _ | ⟨y, zs⟩⟩
        · simp only [typeToks, List.append_nil, parseType, h1, h2, ht, if_false]
        · cases x <;> simp only [typeToks, List.singleton_append, parseType, h1, h2, ht, if_false]
        · cases x <;> try (simp only [typeToks, List.singleton_append, parseType, h1, h2, ht, if_false]; done)
          cases y <;> try (simp only [typeToks, List.singleton_append, parseType, h1, h2, ht, if_false]; done)
          rename_i c w
          have hc : c ≠ '.' := fun e => (hr (.word w :: zs)).1 (by rw [e])
          simp only [typeToks, List.singleton_append, parseType, h1, h2, ht, hc, if_false]
      | some p =>
        simp only [TypeOK] at ht
        have h1 := ne_kw ht (k := t!"map") (by decide)
        have h2 := ne_kw ht (k := t!"func") (by decide)
        rcases rest with _ | ⟨x, zs⟩
        · simp only [typeToks, List.append_nil, parseType, h1, h2, ht, if_false, if_true]
        · cases x <;> try (simp only [typeToks, List.cons_append, List.nil_append, parseType, h1, h2, ht, if_false, if_true]; done)
          rename_i c
          have hc : c ≠ '[' := fun e => (hr zs).2 (by rw [e])
          simp only [typeToks, List.cons_append, List.nil_append, parseType, h1, h2, ht, hc, if_false, if_true]
  | inst p n t ih =>
    intro d rest hd hr
    cases d with
    | zero => simp only [typeDepth] at hd; omega
    | succ d =>
      obtain ⟨ht, ht'⟩ := ht
      have h1 := ne_kw ht (k := t!"map") (by decide)
      have h2 := ne_kw ht (k := t!"func") (by decide)
      have := ih ht' d (.op ']' :: rest) (by simp only [typeDepth] at hd; omega) (typeStop_op (by decide) (by decide) _)
      simp only [typeToks, List.cons_append, List.append_assoc, List.nil_append, parseType, h1, h2, ht, if_false, if_true, this]
  | ptr t ih =>
    intro d rest hd hr
    cases d with
    | zero => simp only [typeDepth] at hd; omega
    | succ d =>
      have := ih ht d rest (by simp only [typeDepth] at hd; omega) hr
      simp only [typeToks, List.cons_append, parseType, if_true, this]
  | slice t ih =>
    intro d rest hd hr
    cases d with
    | zero => simp only [typeDepth] at hd; omega
    | succ d =>
      have := ih ht d rest (by simp only [typeDepth] at hd; omega) hr
      have hc : ('[' : Char) ≠ '*' := by decide
      simp only [typeToks, List.cons_append, parseType, if_true, this, hc, if_false]
  | array n t ih =>
    intro d rest hd hr
    cases d with
    | zero => simp only [typeDepth] at hd; omega
    | succ d =>
      have := ih ht d rest (by simp only [typeDepth] at hd; omega) hr
      have hc : ('[' : Char) ≠ '*' := by decide
      simp only [typeToks, List.cons_append, parseType, if_true, this, hc, if_false]
  | map k v ihk ihv =>
    intro d rest hd hr
    cases d with
    | zero => simp only [typeDepth] at hd; omega
    | succ d =>
      simp only [typeDepth] at hd
      have h1 := ihk ht.1 d (.op ']' :: (typeToks v ++ rest)) (by omega) (typeStop_op (by decide) (by decide) _)
      have h2 := ihv ht.2 d rest (by omega) hr
      simp only [typeToks, List.cons_append, List.append_assoc, parseType, if_true, h1, h2]
  | func =>
    intro d rest hd hr
    cases d with
    | zero => simp only [typeDepth] at hd; omega
    | succ d =>
      have h : (t!"func" : Text) ≠ t!"map" := by decide
      simp only [typeToks, List.cons_append, List.nil_append, parseType, h, if_true, if_false, and_self]

theorem typeDepth_le (t : TypeExpr) : typeDepth t ≤ (typeToks t).length := by
  induction t with
  | name p n => cases p <;> simp [typeDepth, typeToks]
  | inst p n t ih => simp only [typeDepth, typeToks, List.length_cons, List.length_append]; omega
  | ptr t ih => simp only [typeDepth, typeToks, List.length_cons]; omega
  | slice t ih => simp only [typeDepth, typeToks, List.length_cons]; omega
  | array n t ih => simp only [typeDepth, typeToks, List.length_cons]; omega
  | map k v ihk ihv => simp only [typeDepth, typeToks, List.length_cons, List.length_append]; omega
  | func => simp [typeDepth, typeToks]

theorem parseTy_toks {t : TypeExpr} (ht : TypeOK t) {rest : List Tok} (hr : TypeStop rest) :
    parseTy (typeToks t ++ rest) = some (t, rest) :=
  parseType_toks t ht _ rest (by have := typeDepth_le t; rw [List.length_append]; omega) hr

/-! ### reading declarations -/

theorem parseFields_toks (fs : List SrcField) (h : ∀ f ∈ fs, TypeOK f.ty) : ∀ (k : Nat) (rest : List Tok), fs.length < k →
    parseSrcFields k (fs.flatMap srcFieldToks ++ .op '}' :: rest) = some (fs, rest) := by
  induction fs with
  | nil =>
    intro k rest hk
    cases k with
    | zero => omega
    | succ k => simp only [List.flatMap_nil, List.nil_append, parseSrcFields, if_true]
  | cons f fs ih =>
    intro k rest hk
    cases k with
    | zero => omega
    | succ k =>
      have ih := ih (fun f hf => h f (List.mem_cons_of_mem _ hf)) k rest (by simp only [List.length_cons] at hk; omega)
      obtain ⟨n, t, tag⟩ := f
      have ht : TypeOK t := h _ (List.mem_cons_self ..)
      cases tag with
      | none =>
        have := parseTy_toks ht (typeStop_semi (fs.flatMap srcFieldToks ++ .op '}' :: rest))
        simp only [List.flatMap_cons, srcFieldToks, tagToks, List.cons_append, List.append_assoc, List.nil_append, parseSrcFields, this, ih,
          Option.map_some]
      | some s =>
        have := parseTy_toks ht (typeStop_raw s (.semi :: (fs.flatMap srcFieldToks ++ .op '}' :: rest)))
        simp only [List.flatMap_cons, srcFieldToks, tagToks, List.cons_append, List.append_assoc, List.nil_append, parseSrcFields, this, ih,
          Option.map_some]

theorem parseMethods_toks (ms : List Text) : ∀ (k : Nat) (rest : List Tok), ms.length < k →
    parseMethods k (ms.flatMap methodToks ++ .op '}' :: rest) = some (ms, rest) := by
  induction ms with
  | nil =>
    intro k rest hk
    cases k with
    | zero => omega
    | succ k => simp only [List.flatMap_nil, List.nil_append, parseMethods, if_true]
  | cons m ms ih =>
    intro k rest hk
    cases k with
    | zero => omega
    | succ k =>
      have ih := ih k rest (by simp only [List.length_cons] at hk; omega)
      simp only [List.flatMap_cons, methodToks, List.cons_append, List.nil_append, parseMethods, and_self, if_true, ih, Option.map_some]

theorem takeValue_toks (v : List Tok) (h : .semi ∉ v) (rest : List Tok) : takeValue (v ++ .semi :: rest) = some (v, rest) := by
  induction v with
  | nil => rfl
  | cons t ts ih =>
    have ih := ih (fun hm => h (List.mem_cons_of_mem _ hm))
    cases t with
    | semi => exact absurd (List.mem_cons_self ..) h
    | _ => simp only [List.cons_append, takeValue, ih, Option.map_some]

theorem parseConsts_toks (cs : List (Text × TypeExpr × List Tok)) (h : ∀ c ∈ cs, TypeOK c.2.1 ∧ .semi ∉ c.2.2) :
    ∀ (k : Nat) (rest : List Tok), cs.length < k → parseConsts k (cs.flatMap constToks ++ .op ')' :: rest) = some (cs, rest) := by
  induction cs with
  | nil =>
    intro k rest hk
    cases k with
    | zero => omega
    | succ k => simp only [List.flatMap_nil, List.nil_append, parseConsts, if_true]
  | cons c cs ih =>
    intro k rest hk
    cases k with
    | zero => omega
    | succ k =>
      have ih := ih (fun f hf => h f (List.mem_cons_of_mem _ hf)) k rest (by simp only [List.length_cons] at hk; omega)
      obtain ⟨n, t, v⟩ := c
      obtain ⟨ht, hv⟩ := h _ (List.mem_cons_self ..)
      have h1 := parseTy_toks ht (rest := .op '=' :: (v ++ .semi :: (cs.flatMap constToks ++ .op ')' :: rest)))
        (typeStop_op (by decide) (by decide) _)
      have h2 := takeValue_toks v hv (cs.flatMap constToks ++ .op ')' :: rest)
      simp only [List.flatMap_cons, constToks, List.cons_append, List.append_assoc, List.nil_append, parseConsts, h1, h2, ih,
        Option.map_some, if_true]

theorem typeToks_head (t : TypeExpr) : (∃ w r, typeToks t = .word w :: r) ∨ ∃ c r, typeToks t = .op c :: r ∧ c ≠ '{' := by
  cases t with
  | name p n => cases p <;> exact .inl ⟨_, _, rfl⟩
  | inst p n t => exact .inl ⟨_, _, rfl⟩
  | ptr t => exact .inr ⟨_, _, rfl, by decide⟩
  | slice t => exact .inr ⟨_, _, rfl, by decide⟩
  | array n t => exact .inr ⟨_, _, rfl, by decide⟩
  | map k v => exact .inl ⟨_, _, rfl⟩
  | func => exact .inl ⟨_, _, rfl⟩

theorem parseMethod_toks (recv : Option Text) (rt n : Text) (res : Option TypeExpr) (body rest : List Tok)
    (hres : ∀ t, res = some t → TypeOK t) (hb : ∀ rest, takeBody 0 (body ++ .op '}' :: rest) = some (body, rest)) :
    parseMethod recv rt (.word n :: .op '(' :: .op ')' ::
      (resToks res ++ .op '{' :: (body ++ .op '}' :: rest))) =
      some (.method recv rt n res body, rest) := by
  cases res with
  | none => simp only [resToks, List.nil_append, parseMethod, and_self, if_true, hb]
  | some t =>
    have h := parseTy_toks (hres t rfl) (rest := .op '{' :: (body ++ .op '}' :: rest)) (typeStop_op (by decide) (by decide) _)
    rcases typeToks_head t with ⟨w, r, e⟩ | ⟨c, r, e, hc⟩
    · rw [e, List.cons_append] at h
      simp only [resToks, e, List.cons_append, parseMethod, and_self, if_true, h, hb]
    · rw [e, List.cons_append] at h
      simp only [resToks, e, List.cons_append, parseMethod, and_self, if_true, hc, if_false, h, hb]

theorem flatMap_length_le {α : Type} (l : List α) (f : α → List Tok) (h : ∀ a ∈ l, 1 ≤ (f a).length) :
    l.length ≤ (l.flatMap f).length := by
  induction l with
  | nil => exact Nat.le_refl _
  | cons a l ih =>
    have h1 := h a (List.mem_cons_self ..)
    have h2 := ih (fun b hb => h b (List.mem_cons_of_mem _ hb))
    simp only [List.flatMap_cons, List.length_append, List.length_cons]; omega

theorem parseDecl_toks (d : SrcDecl) (hd : DeclOK d) (rest : List Tok) : parseDecl (declToks d ++ rest) = some (d, .semi :: rest) := by
  cases d with
  | alias n t =>
    have h := parseTy_toks (rest := .semi :: rest) hd (typeStop_semi _)
    simp only [declToks, List.cons_append, List.append_assoc, List.nil_append, parseDecl, if_true, h]
  | struct n fs =>
    have h := parseFields_toks fs hd ((fs.flatMap srcFieldToks ++ .op '}' :: .semi :: rest).length + 1) (.semi :: rest) (by
      have := flatMap_length_le fs srcFieldToks (fun f _ => by simp [srcFieldToks])
      rw [List.length_append]; omega)
    simp only [declToks, List.cons_append, List.append_assoc, List.nil_append, parseDecl, if_true, h, Option.map_some]
  | interface n ms =>
    have h := parseMethods_toks ms (((ms.flatMap methodToks ++ .op '}' :: .semi :: rest)).length + 1)
      (.semi :: rest) (by
      have := flatMap_length_le ms methodToks (fun f _ => by simp [methodToks])
      rw [List.length_append]; omega)
    have hk : (t!"interface" : Text) ≠ t!"struct" := by decide
    simp only [declToks, List.cons_append, List.append_assoc, List.nil_append, parseDecl, if_true, hk, if_false, h, Option.map_some]
  | consts cs =>
    have h := parseConsts_toks cs hd ((cs.flatMap constToks ++ .op ')' :: .semi :: rest).length + 1) (.semi :: rest) (by
      have := flatMap_length_le cs constToks (fun f _ => by simp [constToks])
      rw [List.length_append]; omega)
    have hk : (t!"const" : Text) ≠ t!"type" := by decide
    simp only [declToks, List.cons_append, List.append_assoc, List.nil_append, parseDecl, if_true, hk, if_false, h, Option.map_some]
  | const n v =>
    have h := takeValue_toks v hd rest
    have hk : (t!"const" : Text) ≠ t!"type" := by decide
    simp only [declToks, List.cons_append, List.append_assoc, List.nil_append, parseDecl, if_true, hk, if_false, h, Option.map_some]
  | method recv rt n res body =>
    have h := parseMethod_toks recv rt n res body (.semi :: rest) hd.1 hd.2
    have hk : (t!"func" : Text) ≠ t!"type" := by decide
    have hk' : (t!"func" : Text) ≠ t!"const" := by decide
    cases recv with
    | none =>
      simp only [declToks, recvToks, List.cons_append, List.append_assoc, List.nil_append, parseDecl, if_true, hk, hk', if_false, and_self]
      exact h
    | some x =>
      simp only [declToks, recvToks, List.cons_append, List.append_assoc, List.nil_append, parseDecl, if_true, hk, hk', if_false, and_self]
      exact h

theorem parseDecls_toks (ds : List SrcDecl) (h : ∀ d ∈ ds, DeclOK d) : ∀ k, ds.length ≤ k →
    parseDecls k (ds.flatMap declToks) = some ds := by
  induction ds with
  | nil => intro k _; cases k <;> rfl
  | cons d ds ih =>
    intro k hk
    cases k with
    | zero => simp only [List.length_cons] at hk; omega
    | succ k =>
      have ih := ih (fun d hd => h d (List.mem_cons_of_mem _ hd)) k (by simp only [List.length_cons] at hk; omega)
      have hp := parseDecl_toks d (h d (List.mem_cons_self ..)) (ds.flatMap declToks)
      have ⟨x, xs, hx⟩ : ∃ x xs, declToks d ++ ds.flatMap declToks = x :: xs := by
        cases d <;> exact ⟨_, _, rfl⟩
      rw [List.flatMap_cons]
      rw [hx] at hp ⊢
      simp only [parseDecls, hp, ih, Option.map_some]

/-- A file read back from its tokens. -/
theorem parseFile_toks {src p : Text} {ds : List SrcDecl} (h : tokens src = some (.word t!"package" :: .word p :: .semi :: ds.flatMap declToks))
    (hd : ∀ d ∈ ds, DeclOK d) : parseFile src = some (p, ds) := by
  have := parseDecls_toks ds hd (ds.flatMap declToks).length (flatMap_length_le ds declToks fun d _ => by cases d <;> simp [declToks])
  simp only [parseFile, h, if_true, this, Option.map_some]

end Pb
