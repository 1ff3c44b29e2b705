import Verif.Proofs.SourceWalkTypes
import Verif.Spec.WalkProcess
/-
`structInfo` (walker.go:134-276) and `cachedStructInfoOf` (proto.go:111-125), run from their source texts.
-/
namespace Pb.Go.An
open Pb.Cache (InfoKey Glob CPtr FieldH CBody Prog perform Op upd Walk)
open WalkText
variable {call : Calls} {loop : (Vars → M Bool) → (Vars → M (Flow × Vars)) → (Vars → M (Flow × Vars)) → Vars → M (Flow × Vars)}
  {range : (Nat → V → Vars → M (Flow × Vars)) → Nat → List V → Vars → M (Flow × Vars)} {body : V → V → V → Option CBody}
  {atoi : Text → Option Int} {D : Decls} {n : Nat} {I : List V → M (List V)}

theorem bind_bind {α β γ : Type} (p : Prog α) (f : α → Prog β) (g : β → Prog γ) : (p.bind f).bind g = p.bind fun a => (f a).bind g := by
  induction p with
  | ret a => rfl
  | panic => rfl
  | stuck => rfl
  | op o k ih => exact congrArg (Prog.op o) (funext fun r => ih r)

theorem bind_ret {α : Type} (p : Prog α) : p.bind .ret = p := by
  induction p with
  | ret a => rfl
  | panic => rfl
  | stuck => rfl
  | op o k ih => exact congrArg (Prog.op o) (funext fun r => ih r)

/-! ### analysis that allocates a codec before it panics for a message by value -/

/-- As `Cache.fieldCodecP`, with the codec that is allocated (walker.go:84-85) before the panic for a struct that is not a pointer. -/
def fieldCodecG (rec : InfoKey → Cache.WProg Nat) (t : StructTag) (keyTag valTag : Text) : FieldType → Cache.WProg CPtr
  | .opt b => optionP t b
  | .ty (.named i) => fun w =>
    match w.codecs (.named i) with
    | some c => .ret (c, w)
    | none => .op .newCodec fun _ => .panic
  | .ty ty => Cache.tyCodecP rec t keyTag valTag ty

def walkFieldsG (rec : InfoKey → Cache.WProg Nat) (i : Nat) : List FieldDecl → Cache.WProg (List FieldH)
  | [] => fun w => .ret ([], w)
  | f :: fs => fun w =>
    if f.exported then
      match f.tag with
      | none => walkFieldsG rec (i + 1) fs w
      | some text =>
        if (parseStructTag text).2 then .panic
        else (fieldCodecG rec (parseStructTag text).1 f.keyTag f.valTag f.ty w).bind fun r =>
          (walkFieldsG rec (i + 1) fs r.2).bind fun r' => .ret (fieldOf i (parseStructTag text).1 r.1 :: r'.1, r'.2)
    else walkFieldsG rec (i + 1) fs w

/-- The rest of `structInfo`, after the fields. -/
def storeInfo (key : InfoKey) (i : Nat) (p : Prog (List FieldH × Walk)) : Prog (Nat × Walk) :=
  p.bind fun r => .op (.setInfo i r.1) fun _ => .op (.infoStore key i) fun _ => .ret (i, r.2)

/-- `structInfo` when `F` is the loop over the fields. -/
def infoStep (key : InfoKey) (F : Cache.WProg (List FieldH)) : Cache.WProg Nat := fun w =>
  .op (.infoLoad key) fun r =>
    match r with
    | some i => .ret (i, w)
    | none =>
      match w.infos key with
      | some i => .ret (i, w)
      | none => .op (.newInfo key) fun i => storeInfo key i (F { w with infos := upd w.infos key (some i) })

def structInfoG (D : Decls) : Nat → InfoKey → Cache.WProg Nat
  | 0, _ => fun _ => .stuck
  | d + 1, key => infoStep key (walkFieldsG (structInfoG D d) 0 (key.decl D))

/-! ### bounds -/

theorem ptrDepth_le (t : GoType) : ptrDepth t ≤ goDepth t := by
  induction t with
  | ptr t ih => simp only [ptrDepth, goDepth]; omega
  | _ => simp [ptrDepth]

theorem fits_entry (m : Nat) (hm : 2 ≤ m) (a b : GoType) (x y : U64) (ha : goDepth a ≤ m) (hb : goDepth b ≤ m) :
    DeclFits D m (.anon (Cache.entryDecl a b x y)) := by
  refine ⟨by simpa [InfoKey.decl, Cache.entryDecl] using hm, ?_⟩
  intro f hf
  simp only [InfoKey.decl, Cache.entryDecl, List.mem_cons, List.not_mem_nil, or_false] at hf
  rcases hf with rfl | rfl
  · exact ha
  · exact hb

/-! ### one field -/

theorem structDecl_rtOf (key : InfoKey) (w : Walk) : structDecl D (rtOf key) w = .ret (key.decl D, w) := by cases key <;> rfl

theorem kindOf_slice (e : GoType) (h : kindOf (.ty e) = t!"Uint8") : e = .uint8 := by
  cases e <;> first | rfl | (revert h; decide +kernel) | (exact absurd h (by simp [kindOf]))

theorem kind_slice (u : GoType) (h : kindOf (.ty u) = t!"Slice") : ∃ e, u = .slice e := by
  cases u <;> first | exact ⟨_, rfl⟩ | (revert h; decide +kernel) | (exact absurd h (by simp [kindOf]))

theorem kind_map (u : GoType) (h : kindOf (.ty u) = t!"Map") : ∃ a b, u = .map a b := by
  cases u <;> first | exact ⟨_, _, rfl⟩ | (revert h; decide +kernel) | (exact absurd h (by simp [kindOf]))

theorem fixed_cases (wt : Nat) (ty : GoType) :
    (∃ c, fixedCodec wt (.ty ty) = some c ∧
      ((wt = 5 ∧ kindOf (.ty (baseTypeOf ty)) = t!"Uint32" ∧ c = .normal .fixed32) ∨
       (wt = 5 ∧ kindOf (.ty (baseTypeOf ty)) = t!"Float32" ∧ c = .normal .float32) ∨
       (wt = 1 ∧ kindOf (.ty (baseTypeOf ty)) = t!"Uint64" ∧ c = .normal .fixed64) ∨
       (wt = 1 ∧ kindOf (.ty (baseTypeOf ty)) = t!"Float64" ∧ c = .normal .float64))) ∨
    (fixedCodec wt (.ty ty) = none ∧ NotFixed wt (kindOf (.ty (baseTypeOf ty)))) := by
  by_cases h5 : wt = 5
  · subst h5
    cases hu : baseTypeOf ty <;> simp [fixedCodec, wtFixed32, NotFixed, kindOf, hu]
  by_cases h1 : wt = 1
  · subst h1
    cases hu : baseTypeOf ty <;> simp [fixedCodec, wtFixed32, wtFixed64, NotFixed, kindOf, hu]
  exact .inr ⟨by simp [fixedCodec, wtFixed32, wtFixed64, h5, h1], fun h => absurd h h5, fun h => absurd h h1⟩

/-- The part of `tyCodecP` for types that are not maps. -/
theorem tyCodecP_nomap (rec : InfoKey → Cache.WProg Nat) (t : StructTag) (keyTag valTag : Text) (ty : GoType) (w : Walk)
    (h : ∀ a b, ty ≠ .map a b) :
    Cache.tyCodecP rec t keyTag valTag ty w =
      match fixedCodec t.wireType (.ty ty) with
      | some c => .ret (Cache.globOf c, w)
      | none =>
        match baseTypeOf ty with
        | .slice _ =>
          match (generalizing := false) ty with
          | .slice .uint8 => .ret (.glob .bytes, w)
          | .slice elem => (Cache.wCodecP rec { zigzag := t.zigzag, required := true } elem w).bind fun r =>
            Cache.sliceCodecP ty (zeroOf elem) r.1 r.2
          | .ptr elem => (Cache.wCodecP rec { zigzag := t.zigzag, required := true } elem w).bind fun r =>
            Cache.sliceCodecP ty (zeroOf elem) r.1 r.2
          | _ => .panic
        | .map _ _ => .panic
        | _ => Cache.wCodecP rec { zigzag := t.zigzag, required := false } ty w := by
  cases ty
  case map a b => exact absurd rfl (h a b)
  case slice e => cases e <;> rfl
  all_goals rfl

theorem base_of_ptr_depth {ty e : GoType} (h : ty = .ptr e) : baseTypeOf ty = baseTypeOf e := by subst h; rfl

/-- The codec of a field, from its tag. -/
theorem step_codec (rec : InfoKey → Cache.WProg Nat) (m : Nat) (hm : 2 ≤ m) (h : InfoIs I rec (DeclFits D m)) (hD : ∀ t, DeclFits D m (.named t))
    (k : Nat) (hk : 3 * m + 5 ≤ k) (hn : m < n) (key : InfoKey) (j : Nat) (text keyTag valTag : Text) (ty : FieldType)
    (fs : List FieldH) (N : Nat) (info : V) (w : Walk)
    (hf : (key.decl D)[j]? = some ⟨true, some text, keyTag, valTag, ty⟩) (hty : fieldDepth ty ≤ m) (he : (parseStructTag text).2 = false) :
    fieldStep (ctx D n I k) D (fieldVars fs N info (rtOf key) j) w =
      added fs N info (rtOf key) j (parseStructTag text).1 (fieldCodecG rec (parseStructTag text).1 keyTag valTag ty w) := by
  obtain ⟨k, rfl⟩ : ∃ i, k = i + 3 := ⟨k - 3, by omega⟩
  have hd := structDecl_rtOf (D := D) key w
  have hp : invoke analysis D n I (k + 3) t!"parseStructTag" [.str text] w = .ret (tagResult ((parseStructTag text).1, false), w) := by
    rw [calls_parse, ← he]
  have hkind : invoke analysis D n I (k + 3) t!"baseKindOf" [.type (.ofField ty)] w = .ret ([.kind (kindOf (baseRT ty))], w) :=
    calls_kind (k + 1) ty w (fun t ht => by subst ht; have := ptrDepth_le t; simp only [fieldDepth] at hty; omega) (by omega)
  have hcodec (t : GoType) (ht : goDepth t ≤ m) (conf : Conf) (w : Walk) (hc : conf.required = false → ∀ u, t ≠ .named u) :
      invoke analysis D n I (k + 3) t!"codec" [.walker, .type (.ty t), .conf conf] w = giveCodec (Cache.wCodecP rec conf t w) :=
    calls_codec rec (DeclFits D m) h hD t (k + 3) (by have := ptrDepth_le t; omega) conf w hc
  generalize ht : (parseStructTag text).1 = t at hp ⊢
  cases ty with
  | opt b =>
    exact step_option b hd hf t hp hkind fun z => calls_codec_value (.opt b) ⟨z, false⟩ rfl (k + 1) w (.inr ⟨b, rfl⟩)
  | ty ty =>
    simp only [fieldDepth] at hty
    by_cases hmap : ∃ a b, ty = .map a b
    · obtain ⟨a, b, rfl⟩ := hmap
      simp only [goDepth] at hty
      refine (step_map a b t hd hf hp hkind (parseStructTag keyTag) (parseStructTag valTag)
        (fun w => calls_parse (k + 1) keyTag w) (fun w => calls_parse (k + 1) valTag w)
        (Cache.wCodecP rec ⟨(parseStructTag keyTag).1.zigzag, true⟩ a w) (Cache.wCodecP rec ⟨(parseStructTag valTag).1.zigzag, true⟩ b)
        (fun c c' => mapCodecP rec a b t.wiretag (entryTag (parseStructTag keyTag).1, c) (entryTag (parseStructTag valTag).1, c'))
        (hcodec a (by omega) _ _ (by simp)) (fun w => hcodec b (by omega) _ _ (by simp))
        (fun c c' w => calls_map rec (DeclFits D m) h k a b t.wiretag _ _ w (fits_entry m hm a b _ _ (by omega) (by omega)))).trans ?_
      rfl
    have hmap' : ∀ a b, ty ≠ .map a b := fun a b e => hmap ⟨a, b, e⟩
    rcases fixed_cases t.wireType ty with ⟨c, hc, hcase⟩ | ⟨hc, hnot⟩
    · refine (step_fixed ty _ c t hd hf hp hkind hcase).trans ?_
      have e : fieldCodecG rec t keyTag valTag (.ty ty) w = .ret (Cache.globOf c, w) := by
        cases ty
        case map a b => exact absurd rfl (hmap' a b)
        case named i => simp [fixedCodec, baseTypeOf] at hc
        all_goals exact (tyCodecP_nomap rec t keyTag valTag _ w hmap').trans (by rw [hc])
      rw [e]
    · by_cases hs : ∃ e, baseTypeOf ty = .slice e
      · obtain ⟨e, hs⟩ := hs
        have hk' : invoke analysis D n I (k + 3) t!"baseKindOf" [.type (.ty ty)] w = .ret ([.kind t!"Slice"], w) := by
          rw [show V.type (.ty ty) = .type (.ofField (.ty ty)) from rfl, hkind]
          simp only [baseRT, hs]
          rfl
        have hmodel := tyCodecP_nomap rec t keyTag valTag ty w hmap'
        rw [hc] at hmodel
        simp only [hs] at hmodel
        have slices (elem : GoType) (he : ty = .slice elem ∨ ty = .ptr elem) (hu : elem ≠ .uint8) :
            fieldStep (ctx D n I (k + 3)) D (fieldVars fs N info (rtOf key) j) w = added fs N info (rtOf key) j t
              ((Cache.wCodecP rec ⟨t.zigzag, true⟩ elem w).bind fun r => Cache.sliceCodecP ty (zeroOf elem) r.1 r.2) := by
          refine step_slice ty elem he t (fun h => hu (kindOf_slice elem h)) hd hf hp hk' _ (Cache.sliceCodecP ty (zeroOf elem))
            (hcodec elem ?_ _ _ (by simp)) (fun c w => calls_slice (k + 1) ty elem he c w)
          rcases he with rfl | rfl <;> (simp only [goDepth] at hty; omega)
        cases ty with
        | slice elem =>
          by_cases hu : elem = .uint8
          · subst hu
            refine (step_bytes .uint8 t rfl hd hf hp hk').trans (congrArg _ hmodel.symm)
          · refine (slices elem (.inl rfl) hu).trans (congrArg _ ?_)
            refine Eq.trans ?_ hmodel.symm
            cases elem <;> first | rfl | exact absurd rfl hu
        | ptr elem =>
          refine (slices elem (.inr rfl) ?_).trans (congrArg _ hmodel.symm)
          rintro rfl
          simp [baseTypeOf] at hs
        | _ => simp [baseTypeOf] at hs
      by_cases hm' : ∃ a b, baseTypeOf ty = .map a b
      · obtain ⟨a, b, hm'⟩ := hm'
        have hk' : invoke analysis D n I (k + 3) t!"baseKindOf" [.type (.ty ty)] w = .ret ([.kind t!"Map"], w) := by
          rw [show V.type (.ty ty) = .type (.ofField (.ty ty)) from rfl, hkind]
          simp only [baseRT, hm']
          rfl
        have hmodel := tyCodecP_nomap rec t keyTag valTag ty w hmap'
        rw [hc] at hmodel
        simp only [hm'] at hmodel
        cases ty with
        | ptr e =>
          refine (step_map_pointer e t hd hf hp hk').trans ?_
          rw [show fieldCodecG rec t keyTag valTag (.ty (.ptr e)) w = .panic from hmodel]
          rfl
        | map a b => exact absurd rfl (hmap' a b)
        | _ => simp [baseTypeOf] at hm'
      have hS : kindOf (.ty (baseTypeOf ty)) ≠ t!"Slice" := fun h => hs (kind_slice _ h)
      have hM : kindOf (.ty (baseTypeOf ty)) ≠ t!"Map" := fun h => hm' (kind_map _ h)
      refine step_plain ty _ t hd hf hp hkind hnot hS hM _ ?_
      by_cases hN : ∃ i, ty = .named i
      · obtain ⟨i, rfl⟩ := hN
        refine (calls_codec_value (.ty (.named i)) ⟨t.zigzag, false⟩ rfl (k + 1) w (.inl ⟨i, rfl⟩)).trans ?_
        simp only [fieldCodecG]
        cases w.codecs (.named i) with
        | none => rfl
        | some c => rfl
      · have hN' : ∀ i, ty ≠ .named i := fun i e => hN ⟨i, e⟩
        refine (hcodec ty hty ⟨t.zigzag, false⟩ w fun _ => hN').trans (congrArg giveCodec ?_)
        have e : fieldCodecG rec t keyTag valTag (.ty ty) w = Cache.tyCodecP rec t keyTag valTag ty w := by
          cases ty
          case named i => exact absurd rfl (hN' i)
          all_goals rfl
        rw [e, tyCodecP_nomap rec t keyTag valTag ty w hmap', hc]
        clear hkind hnot hS hM
        generalize baseTypeOf ty = u at hs hm' ⊢
        cases u
        case slice e => exact absurd ⟨e, rfl⟩ hs
        case map a b => exact absurd ⟨a, b, rfl⟩ hm'
        all_goals rfl

/-- One iteration of the loop. -/
theorem step_field (rec : InfoKey → Cache.WProg Nat) (m : Nat) (hm : 2 ≤ m) (h : InfoIs I rec (DeclFits D m)) (hD : ∀ t, DeclFits D m (.named t))
    (k : Nat) (hk : 3 * m + 5 ≤ k) (hn : m < n) (key : InfoKey) (j : Nat) (f : FieldDecl) (fs : List FieldH) (N : Nat) (info : V) (w : Walk)
    (hf : (key.decl D)[j]? = some f) (hty : fieldDepth f.ty ≤ m) :
    fieldStep (ctx D n I k) D (fieldVars fs N info (rtOf key) j) w =
      if f.exported then
        match f.tag with
        | none => .ret ((.cont, fieldVars fs N info (rtOf key) j), w)
        | some text =>
          if (parseStructTag text).2 then .panic
          else added fs N info (rtOf key) j (parseStructTag text).1 (fieldCodecG rec (parseStructTag text).1 f.keyTag f.valTag f.ty w)
      else .ret ((.cont, fieldVars fs N info (rtOf key) j), w) := by
  obtain ⟨ex, tag, keyTag, valTag, ty⟩ := f
  have hd := structDecl_rtOf (D := D) key w
  cases ex with
  | false => exact step_unexported tag hd hf
  | true =>
    cases tag with
    | none => exact step_untagged hd hf
    | some text =>
      cases he : (parseStructTag text).2 with
      | true =>
        refine (step_bad_tag hd hf (parseStructTag text).1 ?_).trans (by simp [he])
        obtain ⟨k, rfl⟩ : ∃ i, k = i + 2 := ⟨k - 2, by omega⟩
        rw [calls_parse, ← he]
      | false =>
        refine (step_codec rec m hm h hD k hk hn key j text keyTag valTag ty fs N info w hf hty he).trans ?_
        simp [he]

/-! ### the loop -/

theorem field_cond (C : Ctx) (fs : List FieldH) (N : Nat) (info : V) (T : RT) (j : Nat) (w : Walk) :
    (eval C D t!"structInfo" (fieldVars fs N info T j) (loopCond src_structInfo.body)).bind truth w = .ret (decide (j < N), w) := by krefl

def loopPost : Stmt → Stmt
  | .loop _ _ p _ => p
  | .seq a b => match loopPost a with | .skip => loopPost b | s => s
  | _ => .skip

theorem field_post (C : Ctx) (fs : List FieldH) (N : Nat) (info : V) (T : RT) (j : Nat) (w : Walk) :
    exec C D t!"structInfo" (loopPost src_structInfo.body) (fieldVars fs N info T j) w = .ret ((.next, fieldVars fs N info T (j + 1)), w) := by
  krefl

theorem iterate_succ (c : Vars → M Bool) (body post : Vars → M (Flow × Vars)) (i : Nat) (vars : Vars) (w : Walk) :
    iterate c body post (i + 1) vars w = (c vars w).bind fun b =>
      (if b.1 then
        (body vars).bind fun r =>
          match r.1 with
          | .ret vs => .ret (.ret vs, r.2)
          | _ => (post r.2).bind fun r => iterate c body post i r.2
      else .ret (.next, vars)) b.2 := rfl

/-- The loop, at most `i` iterations of it. -/
def fieldLoop (C : Ctx) (D : Decls) (i : Nat) : Vars → M (Flow × Vars) :=
  iterate (fun vars => (eval C D t!"structInfo" vars (loopCond src_structInfo.body)).bind truth) (fieldStep C D)
    (exec C D t!"structInfo" (loopPost src_structInfo.body)) i

theorem fieldLoop_end (C : Ctx) (i : Nat) (fs : List FieldH) (N : Nat) (info : V) (T : RT) (j : Nat) (w : Walk) (h : ¬ j < N) :
    fieldLoop C D (i + 1) (fieldVars fs N info T j) w = .ret ((.next, fieldVars fs N info T j), w) := by
  rw [fieldLoop, iterate_succ]
  simp only [field_cond, Prog.bind, h, decide_false]
  rfl

theorem fieldLoop_step (C : Ctx) (i : Nat) (fs : List FieldH) (N : Nat) (info : V) (T : RT) (j : Nat) (w : Walk) (h : j < N) :
    fieldLoop C D (i + 1) (fieldVars fs N info T j) w = (fieldStep C D (fieldVars fs N info T j) w).bind fun r =>
      match r.1.1 with
      | .ret vs => .ret ((.ret vs, r.1.2), r.2)
      | _ => (exec C D t!"structInfo" (loopPost src_structInfo.body) r.1.2 r.2).bind fun r => fieldLoop C D i r.1.2 r.2 := by
  rw [fieldLoop, iterate_succ]
  simp only [field_cond, Prog.bind, h, decide_true, if_true]
  simp only [M.bind]
  refine congrArg _ (funext fun r => ?_)
  obtain ⟨⟨fl, vs⟩, w'⟩ := r
  cases fl <;> rfl

theorem field_loop (rec : InfoKey → Cache.WProg Nat) (m : Nat) (hm : 2 ≤ m) (h : InfoIs I rec (DeclFits D m)) (hD : ∀ t, DeclFits D m (.named t))
    (k : Nat) (hk : 3 * m + 5 ≤ k) (hn : m < n) (key : InfoKey) (hkey : DeclFits D m key) (info : V) :
    ∀ (rest : List FieldDecl) (j i : Nat) (fs : List FieldH) (w : Walk), (key.decl D).drop j = rest → rest.length < i →
      fieldLoop (ctx D n I k) D i (fieldVars fs (key.decl D).length info (rtOf key) j) w =
        (walkFieldsG rec j rest w).bind fun r =>
          .ret ((.next, fieldVars (fs ++ r.1) (key.decl D).length info (rtOf key) (j + rest.length)), r.2) := by
  intro rest
  induction rest with
  | nil =>
    intro j i fs w hj hi
    obtain ⟨i, rfl⟩ : ∃ x, i = x + 1 := ⟨i - 1, by simp at hi; omega⟩
    have hlen : ¬ j < (key.decl D).length := by
      have := List.drop_eq_nil_iff.mp hj
      omega
    rw [fieldLoop_end _ _ _ _ _ _ _ _ hlen]
    simp [walkFieldsG, Prog.bind]
  | cons f rest ih =>
    intro j i fs w hj hi
    obtain ⟨i, rfl⟩ : ∃ x, i = x + 1 := ⟨i - 1, by simp at hi; omega⟩
    simp only [List.length_cons] at hi
    have hlen : j < (key.decl D).length := by
      rcases Nat.lt_or_ge j (key.decl D).length with hl | hl
      · exact hl
      · rw [List.drop_eq_nil_of_le hl] at hj; simp at hj
    have hget : (key.decl D)[j]? = some f := by
      have := congrArg List.head? hj
      rwa [List.head?_drop] at this
    have hdrop : (key.decl D).drop (j + 1) = rest := by
      have := congrArg List.tail hj
      rwa [List.tail_drop] at this
    have hty := hkey.2 f (List.mem_of_getElem? hget)
    have hnext (fs : List FieldH) (w : Walk) := ih (j + 1) i fs w hdrop (by omega)
    have skip (fl : Flow) (hfl : ∀ vs, fl ≠ .ret vs) (fs : List FieldH) (w : Walk) :
        (match fl with
          | .ret vs => Prog.ret ((Flow.ret vs, fieldVars fs (key.decl D).length info (rtOf key) j), w)
          | _ => (exec (ctx D n I k) D t!"structInfo" (loopPost src_structInfo.body) (fieldVars fs (key.decl D).length info (rtOf key) j) w).bind
              fun r => fieldLoop (ctx D n I k) D i r.1.2 r.2) =
        (walkFieldsG rec (j + 1) rest w).bind fun r =>
          .ret ((.next, fieldVars (fs ++ r.1) (key.decl D).length info (rtOf key) (j + (rest.length + 1))), r.2) := by
      rw [field_post]
      have e : j + (rest.length + 1) = j + 1 + rest.length := by omega
      rw [e]
      cases fl with
      | ret vs => exact absurd rfl (hfl vs)
      | next => exact hnext fs w
      | cont => exact hnext fs w
    rw [fieldLoop_step _ _ _ _ _ _ _ _ hlen, step_field rec m hm h hD k hk hn key j f fs _ info w hget hty]
    simp only [walkFieldsG, List.length_cons]
    cases f.exported with
    | false => exact skip .cont (by simp) fs w
    | true =>
      simp only [if_true]
      cases f.tag with
      | none => exact skip .cont (by simp) fs w
      | some text =>
        simp only
        cases (parseStructTag text).2 with
        | true => rfl
        | false =>
          simp only [Bool.false_eq_true, if_false, added, bind_bind]
          refine congrArg _ (funext fun r => ?_)
          refine (skip .next (by simp) (fs ++ [fieldOf j (parseStructTag text).1 r.1]) r.2).trans ?_
          refine congrArg _ (funext fun r' => ?_)
          simp [Prog.bind]

/-! ### the index -/

def rangeBody : Stmt → Stmt
  | .range _ _ _ b => b
  | .seq a b => match rangeBody a with | .skip => rangeBody b | s => s
  | _ => .skip

def indexStep (C : Ctx) (D : Decls) : Nat → V → Vars → M (Flow × Vars) := fun i x => inBlock fun vars =>
  exec C D t!"structInfo" (rangeBody src_structInfo.body) (declareUnless t!"f" x (declareUnless t!"_" (.num i) vars))

/-- The variables after the loop over the fields. -/
def indexVars (fs : List FieldH) (N : Nat) (i : Nat) (key : InfoKey) (T : RT) (gs : List FieldH) (l : List (U64 × FieldH)) : Vars :=
  [[(t!"fields2", .sfs fs), (t!"fields", .sfs fs), (t!"numField", .num N), (t!"info", .infoNew i key gs l), (t!"w", .walker), (t!"t", .type T)]]

def fieldV (f : FieldH) : V := .sf (some f.offset) f.tag.wiretag f.tag.tagsize (some f.codec)

theorem index_step (C : Ctx) (fs gs : List FieldH) (N i : Nat) (key : InfoKey) (T : RT) (l : List (U64 × FieldH)) (x : Nat) (f : FieldH)
    (w : Walk) :
    indexStep C D x (fieldV f) (indexVars fs N i key T gs l) w =
      .ret ((.next, indexVars fs N i key T gs (l ++ [(fieldNo f.tag.wiretag, f)])), w) := by
  krefl

theorem index_loop (C : Ctx) (fs gs : List FieldH) (N i : Nat) (key : InfoKey) (T : RT) (w : Walk) :
    ∀ (hs : List FieldH) (x : Nat) (l : List (U64 × FieldH)),
      rangeOver (indexStep C D) x (hs.map fieldV) (indexVars fs N i key T gs l) w =
        .ret ((.next, indexVars fs N i key T gs (l ++ indexFor hs)), w) := by
  intro hs
  induction hs with
  | nil => intro x l; simp [indexFor, rangeOver, M.ret]
  | cons f hs ih =>
    intro x l
    show Prog.bind (indexStep C D x (fieldV f) _ w) _ = _
    rw [index_step]
    refine (ih (x + 1) _).trans ?_
    simp [indexFor]

/-! ### `structInfo` -/

/-- `structInfo` when its first loop reads the fields and its second makes the index. -/
theorem run_structInfo (C : Ctx) (key : InfoKey) (F : Cache.WProg (List FieldH)) (w : Walk)
    (hl : ∀ i w, C.loop (fun vars => (eval C D t!"structInfo" vars (loopCond src_structInfo.body)).bind truth) (fieldStep C D)
      (exec C D t!"structInfo" (loopPost src_structInfo.body))
      (fieldVars [] (key.decl D).length (.infoNew i key [] []) (rtOf key) 0) w =
        (F w).bind fun r => .ret ((.next, fieldVars r.1 (key.decl D).length (.infoNew i key [] []) (rtOf key) (key.decl D).length), r.2))
    (hr : ∀ i fs w, C.range (indexStep C D) 0 (fs.map fieldV) (indexVars fs (key.decl D).length i key (rtOf key) fs []) w =
      .ret ((.next, indexVars fs (key.decl D).length i key (rtOf key) fs (indexFor fs)), w)) :
    runFunc C D src_structInfo [.walker, .type (rtOf key)] w = giveInfo (infoStep key F w) := by
  obtain ⟨call, loop, range, body, atoi⟩ := C
  cases key with
  | named t =>
    kgo
    refine congrArg _ (funext fun (r : Option Nat) => ?_)
    cases r with
    | some i => krefl
    | none =>
      obtain ⟨cs, is⟩ := w
      ksplit x hx
      cases x with
      | some i => kdone
      | none =>
        kgo
        refine congrArg _ (funext fun (i : Nat) => ?_)
        have h2 := hl i { codecs := cs, infos := upd is (.named t) (some i) }
        kgo
        ksplit p hp
        kgo
        clear hp h2
        induction p with
        | ret a =>
          obtain ⟨fs, w⟩ := a
          have h3 := hr i fs w
          have h4 : t!"Store" = t!"Store" ∧ indexFor fs = indexFor fs := ⟨rfl, rfl⟩
          have h5 : fs.length = fs.length := rfl
          by_cases h6 : fs.length = 0
          · obtain rfl := List.length_eq_zero_iff.mp h6
            kdone
          · kdone
        | panic => krefl
        | stuck => krefl
        | op o q ih => kexact (congrArg (Prog.op o) (funext fun r => ih r))
  | anon d =>
    kgo
    refine congrArg _ (funext fun (r : Option Nat) => ?_)
    cases r with
    | some i => krefl
    | none =>
      obtain ⟨cs, is⟩ := w
      ksplit x hx
      cases x with
      | some i => kdone
      | none =>
        kgo
        refine congrArg _ (funext fun (i : Nat) => ?_)
        have h2 := hl i { codecs := cs, infos := upd is (.anon d) (some i) }
        kgo
        ksplit p hp
        kgo
        clear hp h2
        induction p with
        | ret a =>
          obtain ⟨fs, w⟩ := a
          have h3 := hr i fs w
          have h4 : t!"Store" = t!"Store" ∧ indexFor fs = indexFor fs := ⟨rfl, rfl⟩
          have h5 : fs.length = fs.length := rfl
          by_cases h6 : fs.length = 0
          · obtain rfl := List.length_eq_zero_iff.mp h6
            kdone
          · kdone
        | panic => krefl
        | stuck => krefl
        | op o q ih => kexact (congrArg (Prog.op o) (funext fun r => ih r))

/-- `structInfo`, of the whole program. -/
theorem info_runs (m : Nat) (hm : 2 ≤ m) (hD : ∀ t, DeclFits D m (.named t)) (hn : 3 * m + 5 ≤ n) (d : Nat) :
    InfoIs (runInfo analysis D n d) (structInfoG D d) (DeclFits D m) := by
  induction d with
  | zero => intro key _ w; rfl
  | succ d ih =>
    intro key hkey w
    have e : runInfo analysis D n (d + 1) [.walker, .type (rtOf key)] w =
        runFunc (ctx D n (runInfo analysis D n d) n) D src_structInfo [.walker, .type (rtOf key)] w := by krefl
    rw [e]
    refine run_structInfo (ctx D n (runInfo analysis D n d) n) key (walkFieldsG (structInfoG D d) 0 (key.decl D)) w (fun i w => ?_)
      (fun i fs w => ?_)
    · have hlen : (key.decl D).length < n := by have := hkey.1; omega
      have hmn : m < n := by omega
      have := field_loop (structInfoG D d) m hm ih hD n hn hmn key hkey (.infoNew i key [] []) (key.decl D) 0 n [] w rfl hlen
      rw [Nat.zero_add] at this
      exact this
    · exact index_loop _ fs fs _ i key _ w fs 0 []

/-- `cachedStructInfoOf` when `rec` is `structInfo`. -/
def cachedG (rec : InfoKey → Cache.WProg Nat) (t : TypeId) (w : Walk) : Prog (List V × Walk) :=
  .op (.infoLoad (.named t)) fun r =>
    match r with
    | some i => .ret ([.info i], w)
    | none => (rec (.named t) Walk.init).bind fun r => .op (.infoLoadOrStore (.named t) r.1) fun i => .ret ([.info i], r.2)

theorem run_cachedStructInfoOf (rec : InfoKey → Cache.WProg Nat) (ok : InfoKey → Prop) (hI : GivesInfo call rec ok) (t : TypeId)
    (ho : ok (.named t)) (w : Walk) :
    runFunc ⟨call, loop, range, body, atoi⟩ D src_cachedStructInfoOf [.type (.ty (.named t))] w = cachedG rec t w := by
  kgo
  refine congrArg _ (funext fun (r : Option Nat) => ?_)
  cases r with
  | some i => krefl
  | none =>
    have hi := hI (.named t) ho Walk.init
    kcall hi
    ksplit p hp
    kgo
    clear hp hi
    induction p with
    | ret a => krefl
    | panic => krefl
    | stuck => krefl
    | op o q ih => kexact (congrArg (Prog.op o) (funext fun r => ih r))

theorem cached_runs (m : Nat) (hm : 2 ≤ m) (hD : ∀ t, DeclFits D m (.named t)) (hn : 3 * m + 5 ≤ n) (d : Nat) (t : TypeId) (w : Walk) :
    run analysis D n d t!"cachedStructInfoOf" [.type (.ty (.named t))] w = cachedG (structInfoG D d) t w := by
  obtain ⟨n, rfl⟩ : ∃ k, n = k + 2 := ⟨n - 2, by omega⟩
  rw [run, invoke_cachedStructInfoOf]
  exact run_cachedStructInfoOf _ (DeclFits D m) (gives_info n _ _ (info_runs m hm hD hn d)) t (hD t) w

/-! ### the model -/

theorem Like.refl {b : Prop} {α : Type} (p : Prog α) : Like b p p := by
  induction p with
  | ret a => exact .ret a
  | panic => exact .panic
  | stuck => exact .stuck
  | op o k ih => exact .op o k k ih

theorem Like.bind {b : Prop} {α β : Type} {p q : Prog α} {f g : α → Prog β} (h : Like b p q) (hf : ∀ a, Like b (f a) (g a)) :
    Like b (p.bind f) (q.bind g) := by
  induction h with
  | ret a => exact hf a
  | panic => exact .panic
  | stuck => exact .stuck
  | op o k k' _ ih => exact .op o _ _ ih
  | alloc h => exact .alloc h

theorem Like.eq {α : Type} {p q : Prog α} (h : Like False p q) : p = q := by
  induction h with
  | ret a => rfl
  | panic => rfl
  | stuck => rfl
  | op o k k' _ ih => exact congrArg (Prog.op o) (funext ih)
  | alloc h => exact h.elim

theorem like_perform {b : Prop} {α : Type} (o : Op) {f g : o.Resp → Prog α} (h : ∀ r, Like b (f r) (g r)) :
    Like b (perform o >>= f) (perform o >>= g) :=
  .op o _ _ h

theorem like_do {b : Prop} {α β : Type} {p q : Prog α} {f g : α → Prog β} (h : Like b p q) (hf : ∀ a, Like b (f a) (g a)) :
    Like b (p >>= f) (q >>= g) := h.bind hf

theorem structCodecP_like {P : Prop} {rec rec' : InfoKey → Cache.WProg Nat} (h : ∀ t w, Like P (rec (.named t) w) (rec' (.named t) w)) (t : TypeId) (w : Walk) :
    Like P (Cache.structCodecP rec t w) (Cache.structCodecP rec' t w) := by
  refine .op _ _ _ fun (r : Option CPtr) => ?_
  cases r with
  | some c => exact .refl _
  | none =>
    simp only
    cases w.codecs (.ptr (.named t)) with
    | some c => exact .refl _
    | none => exact like_perform _ fun c => like_do (h _ _) fun r => .refl _

theorem wCodecP_like {P : Prop} {rec rec' : InfoKey → Cache.WProg Nat} (h : ∀ t w, Like P (rec (.named t) w) (rec' (.named t) w)) (conf : Conf) (t : GoType) :
    ∀ w : Walk, Like P (Cache.wCodecP rec conf t w) (Cache.wCodecP rec' conf t w) := by
  induction t with
  | ptr t ih =>
    intro w
    have step (hn : ∀ i, t ≠ .named i) (rec : InfoKey → Cache.WProg Nat) : Cache.wCodecP rec conf (.ptr t) w =
        match w.codecs (.ptr t) with
        | some c => .ret (c, w)
        | none => .op .newCodec fun p => (Cache.wCodecP rec conf t (w.setCodec (.ptr t) (.heap p))).bind fun r =>
          .op (.setCodec p (.ptr (zeroOf t) r.1)) fun _ => .ret (.heap p, r.2) := by
      cases t <;> first | exact absurd rfl (hn _) | (simp only [Cache.wCodecP]; cases w.codecs (.ptr _) <;> rfl)
    by_cases hn : ∃ i, t = .named i
    · obtain ⟨i, rfl⟩ := hn
      simp only [Cache.wCodecP]
      cases w.codecs (.ptr (.named i)) with
      | some c => exact .refl _
      | none => exact structCodecP_like h i w
    · have hn' : ∀ i, t ≠ .named i := fun i e => hn ⟨i, e⟩
      rw [step hn', step hn']
      cases w.codecs (.ptr t) with
      | some c => exact .refl _
      | none => exact .op _ _ _ fun p => .bind (ih _) fun r => .refl _
  | slice t _ => intro w; exact .refl _
  | _ => intro w; exact .refl _

theorem tyCodecP_like {P : Prop} {rec rec' : InfoKey → Cache.WProg Nat} {ok : InfoKey → Prop}
    (h : ∀ key w, ok key → Like P (rec key w) (rec' key w)) (hok : ∀ t, ok (.named t)) (t : StructTag) (keyTag valTag : Text)
    (ty : GoType) (w : Walk) (hv : ∀ a b x y, ty = .map a b → ok (.anon (Cache.entryDecl a b x y))) :
    Like P (Cache.tyCodecP rec t keyTag valTag ty w) (Cache.tyCodecP rec' t keyTag valTag ty w) := by
  by_cases hm : ∃ a b, ty = .map a b
  · obtain ⟨a, b, rfl⟩ := hm
    have hw := wCodecP_like (P := P) fun t w => h (.named t) w (hok t)
    exact like_do (hw _ a w) fun r => like_do (hw _ b r.2) fun r' => like_perform _ fun m => like_do (h _ _ (hv a b _ _ rfl)) fun i => .refl _
  · have hm' : ∀ a b, ty ≠ .map a b := fun a b e => hm ⟨a, b, e⟩
    rw [tyCodecP_nomap _ _ _ _ _ _ hm', tyCodecP_nomap _ _ _ _ _ _ hm']
    have hw := wCodecP_like (P := P) fun t w => h (.named t) w (hok t)
    cases fixedCodec t.wireType (.ty ty) with
    | some c => exact .refl _
    | none =>
      simp only
      split
      · split
        · exact .refl _
        · exact .bind (hw _ _ _) fun r => .refl _
        · exact .bind (hw _ _ _) fun r => .refl _
        · exact .refl _
      · exact .refl _
      · exact hw _ _ _

/-- All fields of the struct type are. -/
def SoundKey (D : Decls) (key : InfoKey) : Prop := ∀ f ∈ key.decl D, Sound f

theorem sound_entry (a b : GoType) (x y : U64) (ha : ByRef a) (hb : ByRef b) : SoundKey D (.anon (Cache.entryDecl a b x y)) := by
  intro f hf
  simp only [InfoKey.decl, Cache.entryDecl, List.mem_cons, List.not_mem_nil, or_false] at hf
  rcases hf with rfl | rfl
  · exact ha
  · exact hb

theorem fieldCodec_like {P : Prop} {rec rec' : InfoKey → Cache.WProg Nat}
    (h : ∀ key w, P ∨ SoundKey D key → Like P (rec key w) (rec' key w)) (hok : ∀ t, P ∨ SoundKey D (.named t)) (t : StructTag)
    (keyTag valTag : Text) (ty : FieldType) (w : Walk)
    (ho : ∀ b, ty = .opt b → P ∨ fixedCodec t.wireType (.opt b) ≠ none ∨ optionCodec t.zigzag b ≠ none)
    (hv : ∀ u, ty = .ty u → P ∨ ByRef u) :
    Like P (fieldCodecG rec t keyTag valTag ty w) (Cache.fieldCodecP rec' t keyTag valTag ty w) := by
  cases ty with
  | opt b =>
    simp only [fieldCodecG, optionP, Cache.fieldCodecP]
    have ho := ho b rfl
    revert ho
    cases fixedCodec t.wireType (.opt b) with
    | some c => exact fun _ => .refl _
    | none =>
      cases optionCodec t.zigzag b with
      | some c => exact fun _ => .refl _
      | none => exact fun ho => .alloc (by simpa using ho)
  | ty ty =>
    by_cases hn : ∃ i, ty = .named i
    · obtain ⟨i, rfl⟩ := hn
      have e : Cache.fieldCodecP rec' t keyTag valTag (.ty (.named i)) w =
          match w.codecs (.named i) with
          | some c => .ret (c, w)
          | none => .panic := by
        show Cache.tyCodecP rec' t keyTag valTag (.named i) w = _
        rw [tyCodecP_nomap _ _ _ _ _ _ (by simp)]
        have : fixedCodec t.wireType (.ty (.named i)) = none := by
          rcases fixed_cases t.wireType (.named i) with ⟨c, _, h | h | h | h⟩ | h
          · exact absurd h.2.1 (by simp [baseTypeOf, kindOf])
          · exact absurd h.2.1 (by simp [baseTypeOf, kindOf])
          · exact absurd h.2.1 (by simp [baseTypeOf, kindOf])
          · exact absurd h.2.1 (by simp [baseTypeOf, kindOf])
          · exact h.1
        rw [this]
        rfl
      rw [e]
      simp only [fieldCodecG]
      cases w.codecs (.named i) with
      | some c => exact .refl _
      | none => exact .alloc ((hv _ rfl).resolve_right id)
    · have e : fieldCodecG rec t keyTag valTag (.ty ty) w = Cache.tyCodecP rec t keyTag valTag ty w := by
        cases ty <;> first | rfl | exact absurd ⟨_, rfl⟩ hn
      rw [e]
      refine tyCodecP_like h hok t keyTag valTag ty w fun a b x y e => ?_
      subst e
      exact (hv _ rfl).imp_right fun hr => sound_entry a b x y hr.1 hr.2

theorem walkFields_like {P : Prop} {rec rec' : InfoKey → Cache.WProg Nat}
    (h : ∀ key w, P ∨ SoundKey D key → Like P (rec key w) (rec' key w)) (hok : ∀ t, P ∨ SoundKey D (.named t)) (fs : List FieldDecl) (hs : P ∨ ∀ f ∈ fs, Sound f) :
    ∀ (i : Nat) (w : Walk), Like P (walkFieldsG rec i fs w) (Cache.walkFieldsP rec' i fs w) := by
  induction fs with
  | nil => intro i w; exact .refl _
  | cons f fs ih =>
    intro i w
    replace ih := ih (hs.imp_right fun hs g hg => hs g (List.mem_cons_of_mem _ hg))
    replace hs := hs.imp_right fun hs => hs f List.mem_cons_self
    simp only [walkFieldsG, Cache.walkFieldsP]
    cases f.exported with
    | false => exact ih _ _
    | true =>
      simp only [if_true]
      cases ht : f.tag with
      | none => exact ih _ _
      | some text =>
        simp only
        cases (parseStructTag text).2 with
        | true => exact .panic
        | false =>
          refine like_do (fieldCodec_like h hok _ _ _ _ _ (fun b e => hs.imp_right fun hs => ?_) (fun u e => hs.imp_right fun hs => ?_)) fun r => like_do (ih _ _) fun r' => .refl _
          · simp only [Sound, e] at hs
            exact hs text ht
          · simpa only [Sound, e] using hs

theorem structInfo_like {P : Prop} (hok : ∀ t, P ∨ SoundKey D (.named t)) (d : Nat) :
    ∀ (key : InfoKey) (w : Walk), P ∨ SoundKey D key → Like P (structInfoG D d key w) (Cache.structInfoP D d key w) := by
  induction d with
  | zero => intro key w _; exact .stuck
  | succ d ih =>
    intro key w hkey
    refine .op _ _ _ fun (r : Option Nat) => ?_
    cases r with
    | some i => exact .refl _
    | none =>
      simp only
      cases w.infos key with
      | some i => exact .refl _
      | none => exact .op _ _ _ fun i => .bind (walkFields_like ih hok _ hkey _ _) fun r => .refl _

theorem cached_like {P : Prop} (hok : ∀ t, P ∨ SoundKey D (.named t)) (d : Nat) (t : TypeId) (w : Walk) :
    Like P ((cachedG (structInfoG D d) t w).bind infoResult) (Cache.cachedStructInfoOf D d t) := by
  refine .op _ _ _ fun (r : Option Nat) => ?_
  cases r with
  | some i => exact .refl _
  | none =>
    show Like P (Prog.bind (Prog.bind _ _) _) (Prog.bind (Cache.structInfoP D d (.named t) Walk.init) _)
    rw [bind_bind]
    exact .bind (structInfo_like hok d _ _ (hok t)) fun r => .refl _

end Pb.Go.An
