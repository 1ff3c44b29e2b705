import Verif.Proofs.CacheUse
/-
Type analysis ends, and panics only on struct types it does not support, whatever the operations on the caches return.
-/
namespace Pb.Cache
open Spec

/-! ### programs that end -/

/-- Whatever the operations return, the program ends with a result that satisfies `Q`, or else panics and `pan` holds. -/
def Ends {α : Type} (pan : Prop) (Q : α → Prop) : Prog α → Prop
  | .ret a => Q a
  | .panic => pan
  | .stuck => False
  | .op _ k => ∀ r, Ends pan Q (k r)

theorem Ends.bind {α β : Type} {pan : Prop} {Q' : α → Prop} {Q : β → Prop} {f : α → Prog β} : ∀ {p : Prog α}, Ends pan Q' p →
    (∀ a, Q' a → Ends pan Q (f a)) → Ends pan Q (p.bind f)
  | .ret a, h, hf => hf a h
  | .panic, h, _ => h
  | .stuck, h, _ => h
  | .op _ k, h, hf => fun r => Ends.bind (p := k r) (h r) hf

theorem Ends.imp {α : Type} {pan : Prop} {Q' Q : α → Prop} (hq : ∀ a, Q' a → Q a) : ∀ {p : Prog α}, Ends pan Q' p → Ends pan Q p
  | .ret a, h => hq a h
  | .panic, h => h
  | .stuck, h => h
  | .op _ k, h => fun r => Ends.imp hq (p := k r) (h r)

theorem Ends.later {α : Type} {pan : Prop} {Q : α → Prop} {p q : Prog α} (h : Later p q) : Ends pan Q p → Ends pan Q q := by
  induction h with
  | refl p => exact id
  | op o k r q _ ih => exact fun h => ih (h r)

/-! ### keys -/

/-- Keys in `K` that the analysis has not met. -/
def free (K : List InfoKey) (w : Walk) : Nat := (K.filter fun k => (w.infos k).isNone).length

/-- The analysis has met more. -/
def More (w w' : Walk) : Prop := ∀ k, w'.infos k = none → w.infos k = none

theorem More.refl (w : Walk) : More w w := fun _ h => h
theorem More.trans {w w' w'' : Walk} (h : More w w') (h' : More w' w'') : More w w'' := fun k hk => h k (h' k hk)

theorem filter_length_le {α : Type} {p q : α → Bool} (h : ∀ a, q a = true → p a = true) : ∀ l : List α,
    (l.filter q).length ≤ (l.filter p).length
  | [] => Nat.le_refl _
  | a :: l => by
    have ih := filter_length_le h l
    simp only [List.filter_cons]
    cases hq : q a with
    | true => simp only [h a hq, if_true, List.length_cons]; omega
    | false => cases p a <;> simp only [Bool.false_eq_true, if_false, if_true, List.length_cons] <;> omega

theorem filter_length_lt {α : Type} {p q : α → Bool} (h : ∀ a, q a = true → p a = true) {x : α} (hp : p x = true) (hq : q x = false) :
    ∀ {l : List α}, x ∈ l → (l.filter q).length < (l.filter p).length
  | a :: l, hm => by
    have ih := filter_length_le h l
    simp only [List.filter_cons]
    rcases List.mem_cons.mp hm with rfl | hm
    · simp only [hp, hq, Bool.false_eq_true, if_false, if_true, List.length_cons]; omega
    · have ih := filter_length_lt h hp hq hm
      cases hq : q a with
      | true => simp only [h a hq, if_true, List.length_cons]; omega
      | false => cases p a <;> simp only [Bool.false_eq_true, if_false, if_true, List.length_cons] <;> omega

theorem free_more {K : List InfoKey} {w w' : Walk} (h : More w w') : free K w' ≤ free K w := by
  refine filter_length_le (fun k hk => ?_) K
  simp only [Option.isNone_iff_eq_none] at *
  exact h k hk

theorem free_upd {K : List InfoKey} {w : Walk} {k : InfoKey} (hk : k ∈ K) (h : w.infos k = none) (i : Nat) :
    free K { w with infos := upd w.infos k (some i) } < free K w := by
  refine filter_length_lt (x := k) (fun a ha => ?_) (by simp [h]) (by simp [upd]) hk
  simp only [upd, Option.isNone_iff_eq_none] at *
  split at ha
  · cases ha
  · exact ha

/-! ### analysis -/

/-- The struct type is accepted. -/
def Acc (D : Decls) (k : InfoKey) : Prop := ∃ gs, walkFields 0 (k.decl D) = .ok gs

variable {D : Decls} {pan : Prop} {K : List InfoKey}

/-- Analysis of struct types ends while fewer than `n` are left. -/
def RecEnds (D : Decls) (pan : Prop) (K : List InfoKey) (n : Nat) (rec : InfoKey → WProg Nat) : Prop :=
  ∀ k ∈ K, ∀ w, free K w < n → (¬ pan → Acc D k) → Ends pan (fun a => More w a.2) (rec k w)

theorem structCodecP_ends {n : Nat} {rec : InfoKey → WProg Nat} (hrec : RecEnds D pan K n rec) {t : TypeId} (ht : .named t ∈ K)
    (ha : ¬ pan → Acc D (.named t)) {w : Walk} (hw : free K w < n) : Ends pan (fun a => More w a.2) (structCodecP rec t w) := by
  intro r
  cases r with
  | some c => exact More.refl w
  | none =>
    show Ends pan _ (match w.codecs (.ptr (.named t)) with
      | some c => _
      | none => _)
    cases w.codecs (.ptr (.named t)) with
    | some c => exact More.refl w
    | none =>
      intro c
      refine (hrec _ ht (w.setCodec (.ptr (.named t)) (.heap c)) hw ha).bind ?_
      rintro ⟨i, w'⟩ hm _ p
      exact hm

theorem wCodecP_flat {rec : InfoKey → WProg Nat} {conf : Conf} {T : GoType} (hn : ∀ t, T ≠ .ptr t) {w : Walk}
    (hc : ¬ pan → ∃ c, wCodec conf T = .ok c) : Ends pan (fun a => More w a.2) (wCodecP rec conf T w) := by
  cases hwc : w.codecs T with
  | some c => rw [wCodecP_hit hwc]; exact More.refl w
  | none =>
    rcases wCodecP_other (rec := rec) (conf := conf) hn hwc with ⟨c, _, h, _⟩ | ⟨⟨e, he⟩, h⟩
    · rw [h]; exact More.refl w
    · rw [h]
      refine Classical.byContradiction fun hp => ?_
      obtain ⟨c, hc⟩ := hc hp
      rw [he] at hc; cases hc

theorem wCodecP_ends {n : Nat} {rec : InfoKey → WProg Nat} (hrec : RecEnds D pan K n rec) (hacc : ∀ t, .named t ∈ K → ¬ pan → Acc D (.named t))
    {conf : Conf} : ∀ {T : GoType} {w : Walk}, (∀ t, Mentions T t → .named t ∈ K) → free K w < n →
    (¬ pan → ∃ c, wCodec conf T = .ok c) → Ends pan (fun a => More w a.2) (wCodecP rec conf T w) := by
  intro T
  induction T with
  | ptr T ih =>
    intro w hK hw hc
    cases hwc : w.codecs (.ptr T) with
    | some c => rw [wCodecP_hit hwc]; exact More.refl w
    | none =>
      by_cases hn : ∃ t, T = .named t
      · obtain ⟨t, rfl⟩ := hn
        rw [wCodecP_msg hwc]
        have := hK t (.ptr _ _ (.named t))
        exact structCodecP_ends hrec this (hacc t this) hw
      · rw [wCodecP_ptr (fun t ht => hn ⟨t, ht⟩) hwc]
        intro p
        refine (ih (w := w.setCodec (.ptr T) (.heap p)) (fun t ht => hK t (.ptr _ _ ht)) hw fun hp => ?_).bind ?_
        · obtain ⟨c, hc⟩ := hc hp
          rw [wCodec_ptr _ _ (fun t ht => hn ⟨t, ht⟩)] at hc
          cases he : wCodec conf T with
          | ok c' => exact ⟨c', rfl⟩
          | error e => rw [he] at hc; cases hc
        · rintro ⟨c, w'⟩ hm _
          exact hm
  | _ => intro w hK hw hc; exact wCodecP_flat (fun t h => by cases h) hc

theorem sliceCodecP_ends (T : GoType) (z : Val) (c : CPtr) (w : Walk) : Ends pan (fun a => More w a.2) (sliceCodecP T z c w) := by
  intro r
  cases r with
  | some c => exact More.refl w
  | none =>
    show Ends pan _ (match w.codecs T with
      | some c => _
      | none => _)
    cases w.codecs T with
    | some c => exact More.refl w
    | none => exact fun _ _ _ => More.refl w

/-- The entry struct of a map is accepted if the types of keys and values are. -/
theorem entry_acc {K V : GoType} {c c' : Conf} {kc vc : Codec} (keyTag valTag : Text) (hk : wCodec c K = .ok kc) (hv : wCodec c' V = .ok vc) :
    Acc D (.anon (entryDecl K V (parseStructTag keyTag).1.wiretag (parseStructTag valTag).1.wiretag)) := by
  rcases wCodec_accepts c K with ⟨hsK, _⟩ | ⟨_, h⟩
  rotate_left
  · rw [hk] at h; cases h
  rcases wCodec_accepts c' V with ⟨hsV, _⟩ | ⟨_, h⟩
  rotate_left
  · rw [hv] at h; cases h
  have wk := parseStructTag_wire keyTag
  have wv := parseStructTag_wire valTag
  obtain ⟨et, e1, _⟩ := parse_formatWireTag (parseStructTag keyTag).1.wiretag (by rw [wiretag_type _ (by omega)]; exact wk)
  obtain ⟨ft, f1, _⟩ := parse_formatWireTag (parseStructTag valTag).1.wiretag (by rw [wiretag_type _ (by omega)]; exact wv)
  have hk : ∃ kd, tyCodec et [] [] K = .ok kd := by
    rw [tyCodec_eq _ _ _ _ (single_not_map hsK)]
    rcases tyCodec'_accepts et K (single_not_map hsK) with ⟨_, h⟩ | ⟨h, _⟩
    · exact h
    · exact absurd (.inl hsK) h
  have hv : ∃ vd, tyCodec ft [] [] V = .ok vd := by
    rw [tyCodec_eq _ _ _ _ (single_not_map hsV)]
    rcases tyCodec'_accepts ft V (single_not_map hsV) with ⟨_, h⟩ | ⟨h, _⟩
    · exact h
    · exact absurd (.inl hsV) h
  obtain ⟨kd, hk⟩ := hk
  obtain ⟨vd, hv⟩ := hv
  refine ⟨[⟨0, ⟨et.wiretag, sizeOfVarint et.wiretag⟩, kd⟩, ⟨1, ⟨ft.wiretag, sizeOfVarint ft.wiretag⟩, vd⟩], ?_⟩
  · simp only [InfoKey.decl, entryDecl, walkFields, fieldCodec, bind, Except.bind, pure, Except.pure, throw, throwThe, MonadExceptOf.throw, if_true,
      e1, f1, hk, hv, Bool.false_eq_true, if_false]

/-- A map is accepted only if the types of keys and values are. -/
theorem map_acc {t : StructTag} {keyTag valTag : Text} {K V : GoType} {c : Codec} (h : tyCodec t keyTag valTag (.map K V) = .ok c) :
    (∃ kc, wCodec { zigzag := (parseStructTag keyTag).1.zigzag, required := true } K = .ok kc) ∧
    ∃ vc, wCodec { zigzag := (parseStructTag valTag).1.zigzag, required := true } V = .ok vc := by
  simp only [tyCodec, bind, Except.bind] at h
  cases hk : wCodec { zigzag := (parseStructTag keyTag).1.zigzag, required := true } K with
  | error e => rw [hk] at h; cases h
  | ok kc =>
    cases hv : wCodec { zigzag := (parseStructTag valTag).1.zigzag, required := true } V with
    | error e => rw [hk, hv] at h; cases h
    | ok vc => exact ⟨⟨_, rfl⟩, _, rfl⟩

/-- The keys a field refers to. -/
def FieldIn (K : List InfoKey) (f : FieldDecl) : Prop := ∀ T, f.ty = .ty T → (∀ t, Mentions T t → .named t ∈ K) ∧
  ∀ k v, T = .map k v → .anon (entryDecl k v (parseStructTag f.keyTag).1.wiretag (parseStructTag f.valTag).1.wiretag) ∈ K

theorem tyCodecP_ends {n : Nat} {rec : InfoKey → WProg Nat} (hrec : RecEnds D pan K n rec) (hacc : ∀ t, .named t ∈ K → ¬ pan → Acc D (.named t))
    {f : FieldDecl} {t : StructTag} {T : GoType} (hf : FieldIn K f) (hT : f.ty = .ty T) {w : Walk} (hw : free K w < n)
    (hc : ¬ pan → ∃ c, tyCodec t f.keyTag f.valTag T = .ok c) :
    Ends pan (fun a => More w a.2) (tyCodecP rec t f.keyTag f.valTag T w) := by
  obtain ⟨hK, hE⟩ := hf T hT
  by_cases hm : ∃ k v, T = .map k v
  · obtain ⟨k, v, rfl⟩ := hm
    refine (wCodecP_ends hrec hacc (w := w) (fun t ht => hK t (.key _ _ _ ht)) hw fun hp => ?_).bind ?_
    · obtain ⟨c, hc⟩ := hc hp
      exact (map_acc hc).1
    rintro ⟨kc, w₁⟩ hm₁
    refine (wCodecP_ends hrec hacc (w := w₁) (fun t ht => hK t (.val _ _ _ ht)) (Nat.lt_of_le_of_lt (free_more hm₁) hw) fun hp => ?_).bind ?_
    · obtain ⟨c, hc⟩ := hc hp
      exact (map_acc hc).2
    rintro ⟨vc, w₂⟩ hm₂ m
    have hm := hm₁.trans hm₂
    refine (hrec _ (hE k v rfl) (w₂.setCodec (.map k v) (.heap m)) (Nat.lt_of_le_of_lt (free_more hm) hw) fun hp => ?_).bind ?_
    · obtain ⟨c, hc⟩ := hc hp
      obtain ⟨⟨_, h1⟩, _, h2⟩ := map_acc hc
      exact entry_acc _ _ h1 h2
    rintro ⟨i, w₃⟩ hm₃ _
    exact hm.trans hm₃
  · have hm' : ∀ k v, T ≠ .map k v := fun k v h => hm ⟨k, v, h⟩
    rw [tyCodecP_eq _ _ _ _ _ hm']
    rw [tyCodec_eq _ _ _ _ hm'] at hc
    unfold tyCodecP'
    unfold tyCodec' at hc
    cases hfx : fixedCodec t.wireType (.ty T) with
    | some c => exact More.refl w
    | none =>
      rw [hfx] at hc
      dsimp only at hc ⊢
      have collect : ∀ E, (∀ t, Mentions E t → .named t ∈ K) →
          (¬ pan → ∃ c, ((wCodec { zigzag := t.zigzag, required := true } E).bind fun c => .ok (Codec.slice (zeroOf E) c)) = .ok c) →
          Ends pan (fun a => More w a.2) ((wCodecP rec { zigzag := t.zigzag, required := true } E w).bind fun a =>
              sliceCodecP T (zeroOf E) a.1 a.2) := by
        intro E hK hc
        refine (wCodecP_ends hrec hacc (w := w) hK hw fun hp => ?_).bind ?_
        · obtain ⟨c, hc⟩ := hc hp
          cases he : wCodec { zigzag := t.zigzag, required := true } E with
          | error e => rw [he] at hc; cases hc
          | ok c' => exact ⟨_, rfl⟩
        · rintro ⟨c, w₁⟩ hm₁
          exact (sliceCodecP_ends T (zeroOf E) c w₁).imp fun a h => hm₁.trans h
      cases hb : baseTypeOf T with
      | map k v =>
        rw [hb] at hc
        refine Classical.byContradiction fun hp => ?_
        obtain ⟨c, hc⟩ := hc hp
        cases hc
      | slice B =>
        rw [hb] at hc
        dsimp only at hc ⊢
        rcases base_ptr_of_slice hb with rfl | ⟨E, rfl, hE⟩
        · by_cases hu : B = .uint8
          · subst hu
            exact More.refl w
          · have := collect B fun t ht => hK t (.slice _ _ ht)
            cases B <;> first | exact absurd rfl hu | exact this hc
        · exact collect E (fun t ht => hK t (.ptr _ _ ht)) hc
      | _ =>
        rw [hb] at hc
        exact wCodecP_ends hrec hacc hK hw hc

theorem fieldCodecP_ends {n : Nat} {rec : InfoKey → WProg Nat} (hrec : RecEnds D pan K n rec) (hacc : ∀ t, .named t ∈ K → ¬ pan → Acc D (.named t))
    {f : FieldDecl} {t : StructTag} (hf : FieldIn K f) {w : Walk} (hw : free K w < n)
    (hc : ¬ pan → ∃ c, fieldCodec t f.keyTag f.valTag f.ty = .ok c) :
    Ends pan (fun a => More w a.2) (fieldCodecP rec t f.keyTag f.valTag f.ty w) := by
  cases hT : f.ty with
  | ty T => rw [hT] at hc; exact tyCodecP_ends hrec hacc hf hT hw hc
  | opt b =>
    rw [hT] at hc
    unfold fieldCodecP
    unfold fieldCodec at hc
    dsimp only at hc ⊢
    cases hfx : fixedCodec t.wireType (.opt b) with
    | some c => exact More.refl w
    | none =>
      rw [hfx] at hc
      dsimp only at hc ⊢
      cases hox : optionCodec t.zigzag b with
      | some c => exact More.refl w
      | none =>
        rw [hox] at hc
        refine Classical.byContradiction fun hp => ?_
        obtain ⟨c, hc⟩ := hc hp
        cases hc

theorem walkFieldsP_ends {n : Nat} {rec : InfoKey → WProg Nat} (hrec : RecEnds D pan K n rec) (hacc : ∀ t, .named t ∈ K → ¬ pan → Acc D (.named t)) :
    ∀ {d : StructDecl} {i : Nat} {w : Walk}, (∀ f ∈ d, f.Active → FieldIn K f) → free K w < n →
    (¬ pan → ∃ gs, walkFields i d = .ok gs) → Ends pan (fun a => More w a.2) (walkFieldsP rec i d w) := by
  intro d
  induction d with
  | nil => intro i w _ _ _; exact More.refl w
  | cons f fs ih =>
    intro i w hd hw hc
    have hd' : ∀ f ∈ fs, f.Active → FieldIn K f := fun f hf => hd f (List.mem_cons_of_mem _ hf)
    unfold walkFieldsP
    simp only [walkFields] at hc
    by_cases he : f.exported = true
    · simp only [he, if_true] at hc ⊢
      cases ht : f.tag with
      | none => simp only [ht] at hc ⊢; exact ih hd' hw hc
      | some text =>
        simp only [ht, bind, Except.bind, pure, Except.pure, throw, throwThe, MonadExceptOf.throw] at hc ⊢
        have hin := hd f List.mem_cons_self ⟨he, by rw [ht]; simp⟩
        by_cases hp : (parseStructTag text).2 = true
        · simp only [hp, if_true] at hc ⊢
          refine Classical.byContradiction fun hp => ?_
          obtain ⟨c, hc⟩ := hc hp
          cases hc
        · simp only [hp] at hc ⊢
          refine (fieldCodecP_ends hrec hacc hin hw fun hp => ?_).bind ?_
          · obtain ⟨c, hc⟩ := hc hp
            cases hfc : fieldCodec (parseStructTag text).1 f.keyTag f.valTag f.ty with
            | error e => simp [hfc] at hc
            | ok c => exact ⟨_, rfl⟩
          · rintro ⟨c, w₁⟩ hm₁
            refine (ih (i := i + 1) (w := w₁) hd' (Nat.lt_of_le_of_lt (free_more hm₁) hw) fun hp => ?_).bind ?_
            · obtain ⟨c, hc⟩ := hc hp
              cases hfc : fieldCodec (parseStructTag text).1 f.keyTag f.valTag f.ty with
              | error e => simp [hfc] at hc
              | ok c =>
                cases hr : walkFields (i + 1) fs with
                | error e => simp [hfc, hr] at hc
                | ok gs => exact ⟨_, rfl⟩
            · rintro ⟨rest, w₂⟩ hm₂
              exact hm₁.trans hm₂
    · simp only [he] at hc ⊢
      exact ih hd' hw hc

theorem structInfoP_ends (hacc : ∀ t, .named t ∈ K → ¬ pan → Acc D (.named t)) (hcl : ∀ k ∈ K, ∀ f ∈ k.decl D, f.Active → FieldIn K f) :
    ∀ d, RecEnds D pan K d (structInfoP D d)
  | 0 => fun _ _ _ h => absurd h (Nat.not_lt_zero _)
  | d + 1 => by
    intro k hk w hw ha r
    cases r with
    | some i => exact More.refl w
    | none =>
      show Ends pan _ (match w.infos k with
        | some c => _
        | none => _)
      cases hwi : w.infos k with
      | some i => exact More.refl w
      | none =>
        intro i
        have hlt := free_upd hk hwi i
        refine (walkFieldsP_ends (structInfoP_ends hacc hcl d) hacc (hcl k hk) (i := 0)
          (w := { w with infos := upd w.infos k (some i) }) (by omega) ha).bind ?_
        rintro ⟨fs, w'⟩ hm _ _
        intro k' h'
        have := hm k' h'
        simp only [upd] at this
        split at this
        · cases this
        · exact this

theorem cachedStructInfoOf_ends (hacc : ∀ t, .named t ∈ K → ¬ pan → Acc D (.named t)) (hcl : ∀ k ∈ K, ∀ f ∈ k.decl D, f.Active → FieldIn K f)
    {r : TypeId} (hr : .named r ∈ K) {d : Nat} (hd : K.length < d) : Ends pan (fun _ => True) (cachedStructInfoOf D d r) := by
  intro i
  cases i with
  | some i => trivial
  | none =>
    refine (structInfoP_ends hacc hcl d (.named r) hr Walk.init (Nat.lt_of_le_of_lt (List.length_filter_le _ _) hd) (hacc r hr)).bind ?_
    intro a _ j
    trivial

/-! ### the struct types an analysis meets -/

/-- The entry structs for maps in a type, within entry structs. -/
def nest : GoType → List InfoKey
  | .map k v => .anon (entryDecl k v (parseStructTag []).1.wiretag (parseStructTag []).1.wiretag) :: (nest k ++ nest v)
  | _ => []

/-- The entry structs for a field. -/
def nestF (f : FieldDecl) : List InfoKey :=
  match f.ty with
  | .ty (.map k v) => .anon (entryDecl k v (parseStructTag f.keyTag).1.wiretag (parseStructTag f.valTag).1.wiretag) :: (nest k ++ nest v)
  | _ => []

/-- Struct types and their entry structs. -/
def keysOf (D : Decls) (ts : List TypeId) : List InfoKey := ts.map .named ++ ts.flatMap fun t => (D t).flatMap fun f =>
  if f.exported && f.tag.isSome then nestF f else []

theorem entry_fields {k v : GoType} {a b : U64} (hk : ∀ x ∈ nest k, x ∈ K) (hv : ∀ x ∈ nest v, x ∈ K)
    (hm : ∀ t, Mentions k t ∨ Mentions v t → .named t ∈ K) : ∀ f ∈ entryDecl k v a b, FieldIn K f := by
  intro f hf T hT
  have base : ∀ T, (∀ x ∈ nest T, x ∈ K) → ∀ k v, T = .map k v →
      .anon (entryDecl k v (parseStructTag []).1.wiretag (parseStructTag []).1.wiretag) ∈ K := by
    rintro T h k v rfl
    exact h _ List.mem_cons_self
  simp only [entryDecl, List.mem_cons, List.not_mem_nil, or_false] at hf
  rcases hf with rfl | rfl
  · cases hT
    exact ⟨fun t ht => hm t (.inl ht), base _ hk⟩
  · cases hT
    exact ⟨fun t ht => hm t (.inr ht), base _ hv⟩

/-- Keys whose fields refer to keys in `K`. -/
def Fine (D : Decls) (K : List InfoKey) (x : InfoKey) : Prop := ∀ f ∈ x.decl D, f.Active → FieldIn K f

theorem nest_fine : ∀ {T : GoType}, (∀ x ∈ nest T, x ∈ K) → (∀ t, Mentions T t → .named t ∈ K) → ∀ x ∈ nest T, Fine D K x := by
  intro T
  induction T with
  | map k v ih1 ih2 =>
    intro hn hm x hx
    simp only [nest, List.mem_cons, List.mem_append] at hn hx
    rcases hx with rfl | hx | hx
    · exact fun f hf _ => entry_fields (fun x h => hn x (.inr (.inl h))) (fun x h => hn x (.inr (.inr h)))
        (fun t ht => hm t (ht.elim (.key _ _ _) (.val _ _ _))) f hf
    · exact ih1 (fun x h => hn x (.inr (.inl h))) (fun t ht => hm t (.key _ _ _ ht)) x hx
    · exact ih2 (fun x h => hn x (.inr (.inr h))) (fun t ht => hm t (.val _ _ _ ht)) x hx
  | _ => intro _ _ x hx; cases hx

theorem keysOf_closed {ts : List TypeId} (hts : ∀ t ∈ ts, ∀ f ∈ D t, f.Active → ∀ T u, f.ty = .ty T → Mentions T u → u ∈ ts) :
    ∀ k ∈ keysOf D ts, Fine D (keysOf D ts) k := by
  intro k hk
  have name : ∀ t ∈ ts, .named t ∈ keysOf D ts := fun t ht => List.mem_append_left _ (List.mem_map_of_mem ht)
  have ent : ∀ t ∈ ts, ∀ f ∈ D t, f.Active → ∀ x ∈ nestF f, x ∈ keysOf D ts := fun t ht f hf ha x hx =>
    List.mem_append_right _ (List.mem_flatMap.mpr ⟨t, ht, List.mem_flatMap.mpr ⟨f, hf, by
      rw [if_pos (by simp [ha.1, Option.isSome_iff_ne_none, ha.2])]; exact hx⟩⟩)
  rcases List.mem_append.mp hk with h | h
  · obtain ⟨t, ht, rfl⟩ := List.mem_map.mp h
    intro f hf ha T hT
    refine ⟨fun u hu => name u (hts t ht f hf ha T u hT hu), ?_⟩
    rintro k v rfl
    refine ent t ht f hf ha _ ?_
    unfold nestF
    rw [hT]
    exact List.mem_cons_self
  · obtain ⟨t, ht, h⟩ := List.mem_flatMap.mp h
    obtain ⟨f, hf, h⟩ := List.mem_flatMap.mp h
    have ha : f.Active := by
      by_cases hc : (f.exported && f.tag.isSome) = true
      · simp only [Bool.and_eq_true, Option.isSome_iff_ne_none] at hc
        exact hc
      · rw [if_neg hc] at h; cases h
    rw [if_pos (by simp [ha.1, Option.isSome_iff_ne_none, ha.2])] at h
    have he := ent t ht f hf ha
    cases hty : f.ty with
    | opt b => unfold nestF at h; rw [hty] at h; cases h
    | ty T =>
      cases T with
      | map k v =>
        unfold nestF at h he
        rw [hty] at h he
        simp only [List.mem_cons, List.mem_append] at h he
        have hm : ∀ u, Mentions (.map k v) u → .named u ∈ keysOf D ts := fun u hu => name u (hts t ht f hf ha _ u hty hu)
        rcases h with rfl | h | h
        · exact fun f hf _ => entry_fields (fun x h => he x (.inr (.inl h))) (fun x h => he x (.inr (.inr h)))
            (fun t ht => hm t (ht.elim (.key _ _ _) (.val _ _ _))) f hf
        · exact nest_fine (fun x h => he x (.inr (.inl h))) (fun t ht => hm t (.key _ _ _ ht)) _ h
        · exact nest_fine (fun x h => he x (.inr (.inr h))) (fun t ht => hm t (.val _ _ _ ht)) _ h
      | _ => unfold nestF at h; rw [hty] at h; cases h

theorem analysis_ends {r : TypeId} {ts : List TypeId} (hfin : ∀ u, Needs D r u → u ∈ ts)
    (hacc : ¬ pan → ∀ u, Needs D r u → Acc D (.named u)) : ∃ d₀, ∀ d, d₀ ≤ d → Ends pan (fun _ => True) (cachedStructInfoOf D d r) := by
  classical
  let ts' := ts.filter fun u => decide (Needs D r u)
  have hts : ∀ u, u ∈ ts' ↔ Needs D r u := by
    intro u
    simp only [ts', List.mem_filter, decide_eq_true_eq]
    exact ⟨fun h => h.2, fun h => ⟨hfin u h, h⟩⟩
  have hnamed : ∀ u, .named u ∈ keysOf D ts' → u ∈ ts' := by
    intro u hu
    rcases List.mem_append.mp hu with h | h
    · obtain ⟨t, ht, h⟩ := List.mem_map.mp h
      cases h; exact ht
    · obtain ⟨t, ht, h⟩ := List.mem_flatMap.mp h
      obtain ⟨f, hf, h⟩ := List.mem_flatMap.mp h
      have no : ∀ T, .named u ∉ nest T := by
        intro T
        induction T with
        | map k v ih1 ih2 =>
          intro h
          simp only [nest, List.mem_cons, List.mem_append] at h
          rcases h with h | h | h
          · cases h
          · exact ih1 h
          · exact ih2 h
        | _ => intro h; cases h
      split at h
      · unfold nestF at h
        split at h
        · simp only [List.mem_cons, List.mem_append] at h
          rcases h with h | h | h
          · cases h
          · exact absurd h (no _)
          · exact absurd h (no _)
        · cases h
      · cases h
  refine ⟨(keysOf D ts').length + 1, fun d hd => cachedStructInfoOf_ends (K := keysOf D ts') ?_ ?_ ?_ hd⟩
  · intro t ht hp
    exact hacc hp t ((hts t).mp (hnamed t ht))
  · refine keysOf_closed fun t ht f hf ha T u hT hu => ?_
    rw [hts] at ht ⊢
    exact .field t f T u ht hf ha hT hu
  · exact List.mem_append_left _ (List.mem_map_of_mem ((hts r).mpr .root))

/-! ### what has been analysed is accepted -/

/-- The message type occurs in the codec. -/
inductive CMentions : Codec → TypeId → Prop
  | msg (t) : CMentions (.msg t) t
  | ptr (z c t) : CMentions c t → CMentions (.ptr z c) t
  | slice (z c t) : CMentions c t → CMentions (.slice z c) t
  | key (i kc vc kd vd t) : CMentions kc t → CMentions (.map i kc vc kd vd) t
  | val (i kc vc kd vd t) : CMentions vc t → CMentions (.map i kc vc kd vd) t

theorem wCodec_mentions {conf : Conf} : ∀ {T : GoType} {c : Codec} {u : TypeId}, wCodec conf T = .ok c → Mentions T u → CMentions c u := by
  intro T
  induction T with
  | ptr T ih =>
    intro c u h hm
    by_cases hn : ∃ t, T = .named t
    · obtain ⟨t, rfl⟩ := hn
      cases h
      cases hm with
      | ptr _ _ hm => cases hm; exact .msg _
    · rw [wCodec_ptr _ _ (fun t ht => hn ⟨t, ht⟩)] at h
      cases he : wCodec conf T with
      | error e => rw [he] at h; cases h
      | ok c' =>
        rw [he] at h
        cases h
        cases hm with
        | ptr _ _ hm => exact .ptr _ _ _ (ih he hm)
  | slice T =>
    intro c u h hm
    by_cases hu : T = .uint8
    · subst hu
      cases hm with
      | slice _ _ hm => cases hm
    · rw [wCodec_slice _ _ hu] at h; cases h
  | named t => intro c u h; cases h
  | map k v => intro c u h; cases h
  | _ => intro c u _ hm; cases hm

theorem base_mentions {u : TypeId} : ∀ {T : GoType}, Mentions T u → Mentions (baseTypeOf T) u := by
  intro T
  induction T with
  | ptr T ih =>
    intro h
    cases h with
    | ptr _ _ h => exact ih h
  | _ => exact id

theorem fixed_mentions {e : Nat} {T : GoType} {c : Codec} {u : TypeId} (h : fixedCodec e (.ty T) = some c) : ¬ Mentions T u := by
  intro hm
  have hm := base_mentions hm
  unfold fixedCodec at h
  dsimp only at h
  generalize baseTypeOf T = B at h hm
  cases B with
  | uint32 | uint64 | float32 | float64 => cases hm
  | _ =>
    split at h
    · cases h
    · split at h <;> cases h

theorem tyCodec_mentions {t : StructTag} {kt vt : Text} {T : GoType} {c : Codec} {u : TypeId} (h : tyCodec t kt vt T = .ok c)
    (hm : Mentions T u) : CMentions c u := by
  by_cases hmap : ∃ k v, T = .map k v
  · obtain ⟨k, v, rfl⟩ := hmap
    obtain ⟨⟨kc, hk⟩, vc, hv⟩ := map_acc h
    simp only [tyCodec, bind, Except.bind, pure, Except.pure, hk, hv] at h
    repeat' split at h
    all_goals try cases h
    all_goals
      cases hm with
      | key _ _ _ hm => exact .key _ _ _ _ _ _ (wCodec_mentions hk hm)
      | val _ _ _ hm => exact .val _ _ _ _ _ _ (wCodec_mentions hv hm)
  · have hm' : ∀ k v, T ≠ .map k v := fun k v h => hmap ⟨k, v, h⟩
    rw [tyCodec_eq _ _ _ _ hm'] at h
    unfold tyCodec' at h
    cases hfx : fixedCodec t.wireType (.ty T) with
    | some c' => exact absurd hm (fixed_mentions hfx)
    | none =>
      rw [hfx] at h
      dsimp only at h
      have collect : ∀ E, Mentions E u → ((wCodec { zigzag := t.zigzag, required := true } E).bind fun c => .ok (Codec.slice (zeroOf E) c)) = .ok c →
          CMentions c u := by
        intro E hE h
        cases he : wCodec { zigzag := t.zigzag, required := true } E with
        | error e => rw [he] at h; cases h
        | ok c' =>
          rw [he] at h
          cases h
          exact .slice _ _ _ (wCodec_mentions he hE)
      cases hb : baseTypeOf T with
      | map k v => rw [hb] at h; cases h
      | slice B =>
        rw [hb] at h
        dsimp only at h
        rcases base_ptr_of_slice hb with rfl | ⟨E, rfl, hE⟩
        · cases hm with
          | slice _ _ hm =>
            have := collect B hm
            cases B <;> first | exact this h | cases hm
        · cases hm with
          | ptr _ _ hm => exact collect E hm h
      | _ => rw [hb] at h; exact wCodec_mentions h hm

theorem codec_at {s : State} {G : Ghost} (hI : Inv D True s G) {c : Codec} {u : TypeId} (hm : CMentions c u) :
    ∀ {p : CPtr}, s.filled p → lab G p = c → ∃ j, At s j u := by
  induction hm with
  | msg t =>
    intro p hp hl
    cases p with
    | glob g => cases g <;> cases hl
    | heap n =>
      obtain ⟨b, hb⟩ := hp
      have := hI.body n b hb
      rw [show G n = _ from hl] at this
      cases b with
      | msg t' i => obtain ⟨h1, h2, h3⟩ := this; cases h1; exact ⟨i, h2, h3 trivial⟩
      | ptr | slice => cases this.1
      | map => obtain ⟨_, _, _, _, _, _, _, _, h⟩ := this; cases h
  | ptr z c t _ ih =>
    intro p hp hl
    cases p with
    | glob g => cases g <;> cases hl
    | heap n =>
      obtain ⟨b, hb⟩ := hp
      have := hI.body n b hb
      rw [show G n = _ from hl] at this
      cases b with
      | ptr z' p => obtain ⟨h1, h2, h3⟩ := this; cases h1; exact ih (h3 trivial) rfl
      | msg | slice => cases this.1
      | map => obtain ⟨_, _, _, _, _, _, _, _, h⟩ := this; cases h
  | slice z c t _ ih =>
    intro p hp hl
    cases p with
    | glob g => cases g <;> cases hl
    | heap n =>
      obtain ⟨b, hb⟩ := hp
      have := hI.body n b hb
      rw [show G n = _ from hl] at this
      cases b with
      | slice z' p => obtain ⟨h1, h2, h3⟩ := this; cases h1; exact ih (h3 trivial) rfl
      | msg | ptr => cases this.1
      | map => obtain ⟨_, _, _, _, _, _, _, _, h⟩ := this; cases h
  | key i kc vc kd vd t _ ih =>
    intro p hp hl
    cases p with
    | glob g => cases g <;> cases hl
    | heap n =>
      obtain ⟨b, hb⟩ := hp
      have := hI.body n b hb
      rw [show G n = _ from hl] at this
      cases b with
      | msg | ptr | slice => cases this.1
      | map => obtain ⟨_, _, h3, _, _, _, _, _, h⟩ := this; cases h; exact ih (h3 trivial).1 rfl
  | val i kc vc kd vd t _ ih =>
    intro p hp hl
    cases p with
    | glob g => cases g <;> cases hl
    | heap n =>
      obtain ⟨b, hb⟩ := hp
      have := hI.body n b hb
      rw [show G n = _ from hl] at this
      cases b with
      | msg | ptr | slice => cases this.1
      | map => obtain ⟨_, _, h3, _, _, _, _, _, h⟩ := this; cases h; exact ih (h3 trivial).2.1 rfl

theorem needs_at {s : State} {G : Ghost} (hI : Inv D True s G) {i : Nat} {r : TypeId} (h : At s i r) {u : TypeId} (hn : Needs D r u) :
    ∃ j, At s j u := by
  induction hn with
  | root => exact ⟨i, h⟩
  | field t f T u _ hf ha hT hm ih =>
    obtain ⟨j, ⟨o, ho⟩, k, fs, hk⟩ := ih
    rw [hk] at ho
    cases ho
    obtain ⟨h1, h2⟩ := hI.info j _ fs hk
    obtain ⟨n, hn⟩ := List.getElem?_of_mem hf
    obtain ⟨g, hg, _, _, text, t', ht, hp, _, hc⟩ := (walkFields_spec _ _ _ h1).2.1 n f hn ha
    obtain ⟨fh, hfh, rfl⟩ := List.mem_map.mp hg
    rw [hT] at hc
    exact codec_at hI (tyCodec_mentions hc hm) ((h2 fh hfh).2 trivial) rfl

theorem acc_iff {u : TypeId} : Acc D (.named u) ↔ ∃ i, walkStruct (D u) = .ok i := by
  unfold Acc walkStruct
  simp only [InfoKey.decl]
  cases walkFields 0 (D u) with
  | error e => exact ⟨fun ⟨_, h⟩ => (by cases h), fun ⟨_, h⟩ => (by cases h)⟩
  | ok gs => exact ⟨fun _ => ⟨_, rfl⟩, fun _ => ⟨_, rfl⟩⟩

/-- Whoever has got a type info while nothing can be incomplete has an accepted message type. -/
theorem needs_accepted {s : Sys} (h : Reachable D s) (hC : ∀ t ∈ s.threads, Consistent D t.root)
    (hA : (∃ rank, Acyclic D rank) ∨ Settled s) {n : Nat} {t : TypeId} {i : Nat} (ht : s.threads[n]? = some ⟨t, .ret i⟩) {u : TypeId}
    (hn : Needs D t u) : ∃ info, walkStruct (D u) = .ok info := by
  rcases hA with ⟨rank, hA⟩ | hS
  · obtain ⟨G, Ps, hI⟩ := sysInv (must := True) (fun _ => hA) h hC
    obtain ⟨j, hj⟩ := needs_at hI.inv (returned hI ht).1 hn
    exact accepted_of hI.inv hj
  · obtain ⟨G, hI, hat⟩ := settled_inv h hC hS
    obtain ⟨j, hj⟩ := needs_at hI (hat n t i ht) hn
    exact accepted_of hI hj

end Pb.Cache
