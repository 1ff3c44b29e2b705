import Verif.Proofs.Program
/-
Which declarations type analysis accepts, and for which of them it gets the memory right.
-/
namespace Pb
open Spec

theorem single_not_named {T : GoType} (h : Single T) (t : TypeId) : T ≠ .named t := by
  rintro rfl
  generalize hT : GoType.named t = T at h
  cases h with
  | scalar _ h => subst hT; cases h
  | _ => cases hT

theorem single_not_map {T : GoType} (h : Single T) (k v : GoType) : T ≠ .map k v := by
  rintro rfl
  generalize hT : GoType.map k v = T at h
  cases h with
  | scalar _ h => subst hT; cases h
  | _ => cases hT

theorem single_slice {E : GoType} (h : Single (.slice E)) : E = .uint8 := by
  generalize hT : GoType.slice E = T at h
  cases h with
  | scalar _ h => subst hT; cases h
  | bytes => cases hT; rfl
  | _ => cases hT

theorem wCodec_single (conf : Conf) : ∀ {T : GoType}, Single T → ∃ c, wCodec conf T = .ok c
  | _, .scalar _ h => by
    cases conf with
    | mk z r => cases h <;> exact ⟨_, rfl⟩
  | _, .bytes => ⟨_, rfl⟩
  | _, .msg t => ⟨_, rfl⟩
  | _, .ptr T h => by
    obtain ⟨c, hc⟩ := wCodec_single conf h
    exact ⟨.ptr (zeroOf T) c, by rw [wCodec_ptr _ _ (single_not_named h), hc]; rfl⟩

theorem wCodec_accepts (conf : Conf) : ∀ (T : GoType), (Single T ∧ ∃ c, wCodec conf T = .ok c) ∨ (¬ Single T ∧ wCodec conf T = .error .panic) := by
  intro T
  induction T with
  | ptr T ih =>
    by_cases hn : ∃ t, T = .named t
    · obtain ⟨t, rfl⟩ := hn
      exact .inl ⟨.msg t, _, rfl⟩
    · have hn' : ∀ t, T ≠ .named t := fun t ht => hn ⟨t, ht⟩
      rw [wCodec_ptr _ _ hn']
      rcases ih with ⟨h1, c, h2⟩ | ⟨h1, h2⟩
      · exact .inl ⟨.ptr _ h1, .ptr (zeroOf T) c, by rw [h2]; rfl⟩
      · refine .inr ⟨fun h => ?_, by rw [h2]; rfl⟩
        generalize hT : GoType.ptr T = T' at h
        cases h with
        | scalar _ h => subst hT; cases h
        | bytes => cases hT
        | msg t => cases hT; exact hn ⟨t, rfl⟩
        | ptr _ h => cases hT; exact h1 h
  | slice T ih =>
    by_cases hu : T = .uint8
    · subst hu; exact .inl ⟨.bytes, _, rfl⟩
    · exact .inr ⟨fun h => hu (single_slice h), wCodec_slice _ _ hu⟩
  | named t => exact .inr ⟨fun h => single_not_named h t rfl, rfl⟩
  | map k v _ _ =>
    refine .inr ⟨fun h => single_not_map h k v rfl, ?_⟩
    cases conf with | mk z r => rfl
  | uint8 | other =>
    refine .inr ⟨fun h => ?_, by cases conf with | mk z r => rfl⟩
    first
      | (generalize hT : GoType.uint8 = T' at h
         cases h with
         | scalar _ h => subst hT; cases h
         | _ => cases hT)
      | (generalize hT : GoType.other = T' at h
         cases h with
         | scalar _ h => subst hT; cases h
         | _ => cases hT)
  | bool => exact .inl ⟨.scalar _ .bool, wCodec_single conf (.scalar _ .bool)⟩
  | int32 => exact .inl ⟨.scalar _ .int32, wCodec_single conf (.scalar _ .int32)⟩
  | int64 => exact .inl ⟨.scalar _ .int64, wCodec_single conf (.scalar _ .int64)⟩
  | uint32 => exact .inl ⟨.scalar _ .uint32, wCodec_single conf (.scalar _ .uint32)⟩
  | uint64 => exact .inl ⟨.scalar _ .uint64, wCodec_single conf (.scalar _ .uint64)⟩
  | float32 => exact .inl ⟨.scalar _ .float32, wCodec_single conf (.scalar _ .float32)⟩
  | float64 => exact .inl ⟨.scalar _ .float64, wCodec_single conf (.scalar _ .float64)⟩
  | string => exact .inl ⟨.scalar _ .string, wCodec_single conf (.scalar _ .string)⟩

/-- Single values and byte slices end in a scalar, bytes, or a struct. -/
theorem single_base {T : GoType} (h : Single T) : (∀ k v, baseTypeOf T ≠ .map k v) ∧
    (∀ E, baseTypeOf T = .slice E → E = .uint8) := by
  induction h with
  | scalar T h => cases h <;> exact ⟨(by intro k v h; cases h), (by intro E h; cases h)⟩
  | bytes => exact ⟨(by intro k v h; cases h), (by intro E h; cases h; rfl)⟩
  | msg t => exact ⟨(by intro k v h; cases h), (by intro E h; cases h)⟩
  | ptr T h ih => simpa only [baseTypeOf] using ih

/-- Types with a fixed-width codec are single values. -/
theorem single_of_base {T : GoType} (h : ScalarType (baseTypeOf T)) : Single T := by
  induction T with
  | ptr T ih => exact .ptr _ (ih (by simpa only [baseTypeOf] using h))
  | _ => exact .scalar _ (by simpa only [baseTypeOf] using h)

theorem fixedCodec_single {e : Nat} {T : GoType} {c : Codec} (h : fixedCodec e (.ty T) = some c) : Single T := by
  simp only [fixedCodec] at h
  apply single_of_base
  split at h
  · split at h
    · rename_i hb; rw [hb]; exact .uint32
    · rename_i hb; rw [hb]; exact .float32
    · cases h
  · split at h
    · split at h
      · rename_i hb; rw [hb]; exact .uint64
      · rename_i hb; rw [hb]; exact .float64
      · cases h
    · cases h

/-- Analysis of a field that is not a map. -/
theorem tyCodec'_accepts (t : StructTag) (T : GoType) (hm : ∀ k v, T ≠ .map k v) :
    ((Single T ∨ ∃ E, T = .slice E ∧ Single E) ∧ ∃ c, tyCodec' t T = .ok c) ∨
    (¬ (Single T ∨ ∃ E, T = .slice E ∧ Single E) ∧ tyCodec' t T = .error .panic) := by
  simp only [tyCodec']
  cases hf : fixedCodec t.wireType (.ty T) with
  | some c => exact .inl ⟨.inl (fixedCodec_single hf), c, rfl⟩
  | none =>
    simp only
    have dflt : (∀ E, baseTypeOf T ≠ .slice E) → (∀ k v, baseTypeOf T ≠ .map k v) →
        ((Single T ∨ ∃ E, T = .slice E ∧ Single E) ∧ ∃ c, wCodec { zigzag := t.zigzag, required := false } T = .ok c) ∨
        (¬ (Single T ∨ ∃ E, T = .slice E ∧ Single E) ∧ wCodec { zigzag := t.zigzag, required := false } T = .error .panic) := by
      intro hns hnm
      rcases wCodec_accepts { zigzag := t.zigzag, required := false } T with ⟨h1, h2⟩ | ⟨h1, h2⟩
      · exact .inl ⟨.inl h1, h2⟩
      · refine .inr ⟨?_, h2⟩
        rintro (h | ⟨E, rfl, _⟩)
        · exact h1 h
        · exact hns E rfl
    cases hb : baseTypeOf T with
    | map k v =>
      refine .inr ⟨?_, rfl⟩
      rintro (h | ⟨E, rfl, _⟩)
      · exact (single_base h).1 k v hb
      · simp [baseTypeOf] at hb
    | slice E =>
      simp only
      cases T with
      | slice E' =>
        by_cases hu : E' = .uint8
        · subst hu; exact .inl ⟨.inl .bytes, _, rfl⟩
        · rcases wCodec_accepts { zigzag := t.zigzag, required := true } E' with ⟨h1, c, h2⟩ | ⟨h1, h2⟩
          · refine .inl ⟨.inr ⟨E', rfl, h1⟩, .slice (zeroOf E') c, ?_⟩
            cases E' <;> first | exact absurd rfl hu | (simp only [h2]; rfl)
          · refine .inr ⟨?_, ?_⟩
            · rintro (h | ⟨E, hE, h⟩)
              · exact hu (single_slice h)
              · cases hE; exact h1 h
            · cases E' <;> first | exact absurd rfl hu | (simp only [h2]; rfl)
      | ptr T' =>
        simp only
        have hfin : Single (.ptr T') ↔ Single T' := by
          constructor
          · intro h
            generalize hT : GoType.ptr T' = T at h
            cases h with
            | scalar _ h => subst hT; cases h
            | bytes => cases hT
            | msg t => cases hT; simp [baseTypeOf] at hb
            | ptr _ h => cases hT; exact h
          · exact .ptr _
        rcases wCodec_accepts { zigzag := t.zigzag, required := true } T' with ⟨h1, c, h2⟩ | ⟨h1, h2⟩
        · exact .inl ⟨.inl (.ptr _ h1), .slice (zeroOf T') c, by rw [h2]; rfl⟩
        · refine .inr ⟨?_, by rw [h2]; rfl⟩
          rintro (h | ⟨E, hE, h⟩)
          · exact h1 (hfin.mp h)
          · cases hE
      | _ => simp [baseTypeOf] at hb
    | _ => exact dflt (by intro E h; rw [hb] at h; cases h) (by intro k v h; rw [hb] at h; cases h)

theorem parseStructTag_wire (s : Text) : (parseStructTag s).1.wireType = 0 ∨ (parseStructTag s).1.wireType = 1 ∨
    (parseStructTag s).1.wireType = 2 ∨ (parseStructTag s).1.wireType = 5 := by
  have step : ∀ (ps : List Text) (i : Nat) (t : StructTag),
      (t.wireType = 0 ∨ t.wireType = 1 ∨ t.wireType = 2 ∨ t.wireType = 5) →
      ((parseFields i t ps).1.wireType = 0 ∨ (parseFields i t ps).1.wireType = 1 ∨
        (parseFields i t ps).1.wireType = 2 ∨ (parseFields i t ps).1.wireType = 5) := by
    intro ps
    induction ps with
    | nil => intro i t h; exact h
    | cons p ps ih =>
      intro i t h
      match i with
      | 0 =>
        simp only [parseFields]
        cases hw : parseWireType t p with
        | none => exact h
        | some t' =>
          refine ih _ _ ?_
          simp only [parseWireType, wtVarint, wtVarlen, wtFixed32, wtFixed64] at hw
          repeat' split at hw
          all_goals first | (cases hw; simp) | cases hw
      | 1 =>
        simp only [parseFields]
        cases hw : atoi p with
        | none => exact h
        | some n => exact ih _ _ h
      | 2 =>
        simp only [parseFields]
        cases hw : parseOption t p with
        | none => exact h
        | some t' =>
          refine ih _ _ ?_
          simp only [parseOption] at hw
          repeat' split at hw
          all_goals first | (cases hw; exact h) | cases hw
      | i + 3 => simp only [parseFields]; exact ih _ _ h
  exact step _ _ _ (.inl rfl)

theorem wiretag_type (t : StructTag) (he : t.wireType < 8) : keyType t.wiretag = t.wireType := by
  unfold keyType StructTag.wiretag
  rw [BitVec.toNat_or]
  have h7 : 8 = 2 ^ 3 := rfl
  rw [h7, Nat.or_mod_two_pow]
  have h1 : (t.fieldNumber <<< 3).toNat % 2 ^ 3 = 0 := by
    rw [BitVec.toNat_shiftLeft, Nat.shiftLeft_eq]; omega
  have h2 : (BitVec.ofNat 64 t.wireType).toNat % 2 ^ 3 = t.wireType := by
    rw [BitVec.toNat_ofNat]; omega
  rw [h1, h2]; simp

theorem scalar_opt (b : OptBase) (h : b ≠ .other) : ScalarType b.goType := by
  cases b <;> first | exact absurd rfl h | constructor

/-- Analysis of any field: which types are accepted. -/
theorem fieldCodec_accepts (t : StructTag) (kt vt : Text) (T : FieldType) :
    (Accepted t.wireType T ∧ ∃ c, fieldCodec t kt vt T = .ok c) ∨ (¬ Accepted t.wireType T ∧ fieldCodec t kt vt T = .error .panic) := by
  cases T with
  | opt b =>
    by_cases h5 : t.wireType = 5
    · cases b <;> simp [fieldCodec, fixedCodec, optionCodec, h5, wtFixed32]
      all_goals first
        | (exact .option _ (scalar_opt _ (by decide)) (by intro h; first | rfl | cases h) (by intro h; cases h))
        | (intro h; cases h with | option _ h1 h2 h3 => first | (cases h1; done) | (exact absurd (h3 rfl) (by decide)))
    · by_cases h1 : t.wireType = 1
      · cases b <;> simp [fieldCodec, fixedCodec, optionCodec, h1, wtFixed32, wtFixed64]
        all_goals first
          | (exact .option _ (scalar_opt _ (by decide)) (by intro h; cases h) (by intro h; first | rfl | cases h))
          | (intro h; cases h with | option _ h1 h2 h3 => first | (cases h1; done) | (exact absurd (h2 rfl) (by decide)))
      · cases b <;> simp [fieldCodec, fixedCodec, optionCodec, h1, h5, wtFixed32, wtFixed64]
        all_goals first
          | (exact .option _ (scalar_opt _ (by decide)) (by intro h; cases h) (by intro h; cases h))
          | (intro h; cases h with
              | option _ h1' h2 h3 => first | (cases h1'; done) | (exact absurd (h2 rfl) h5) | (exact absurd (h3 rfl) h1))
  | ty T =>
    by_cases hm : ∃ K V, T = .map K V
    · obtain ⟨K, V, rfl⟩ := hm
      have acc : Accepted t.wireType (.ty (.map K V)) ↔ Single K ∧ Single V := by
        constructor
        · intro h
          cases h with
          | single _ h => exact absurd rfl (single_not_map h K V)
          | map _ _ h1 h2 => exact ⟨h1, h2⟩
        · exact fun h => .map K V h.1 h.2
      rw [acc]
      simp only [fieldCodec, tyCodec, bind, Except.bind, pure, Except.pure, throw, throwThe, MonadExceptOf.throw]
      have wk := parseStructTag_wire kt
      have wv := parseStructTag_wire vt
      obtain ⟨et, e1, _⟩ := parse_formatWireTag (parseStructTag kt).1.wiretag (by rw [wiretag_type _ (by omega)]; exact wk)
      obtain ⟨ft, f1, _⟩ := parse_formatWireTag (parseStructTag vt).1.wiretag (by rw [wiretag_type _ (by omega)]; exact wv)
      rcases wCodec_accepts { zigzag := (parseStructTag kt).1.zigzag, required := true } K with ⟨h1, c, h2⟩ | ⟨h1, h2⟩
      · rcases wCodec_accepts { zigzag := (parseStructTag vt).1.zigzag, required := true } V with ⟨h3, c', h4⟩ | ⟨h3, h4⟩
        · left
          refine ⟨⟨h1, h3⟩, ?_⟩
          have hk : ∃ kd, tyCodec et [] [] K = .ok kd := by
            rw [tyCodec_eq _ _ _ _ (single_not_map h1)]
            rcases tyCodec'_accepts et K (single_not_map h1) with ⟨_, h⟩ | ⟨h, _⟩
            · exact h
            · exact absurd (.inl h1) h
          have hv : ∃ vd, tyCodec ft [] [] V = .ok vd := by
            rw [tyCodec_eq _ _ _ _ (single_not_map h3)]
            rcases tyCodec'_accepts ft V (single_not_map h3) with ⟨_, h⟩ | ⟨h, _⟩
            · exact h
            · exact absurd (.inl h3) h
          obtain ⟨kd, hk⟩ := hk
          obtain ⟨vd, hv⟩ := hv
          simp only [h2, h4, e1, f1, hk, hv, Bool.false_eq_true, if_false]
          exact ⟨_, rfl⟩
        · right
          exact ⟨fun h => h3 h.2, by simp only [h2, h4]⟩
      · right
        exact ⟨fun h => h1 h.1, by simp only [h2]⟩
    · have hm' : ∀ k v, T ≠ .map k v := fun k v h => hm ⟨k, v, h⟩
      rw [fieldCodec, tyCodec_eq _ _ _ _ hm']
      rcases tyCodec'_accepts t T hm' with ⟨h1, h2⟩ | ⟨h1, h2⟩
      · left
        refine ⟨?_, h2⟩
        rcases h1 with h | ⟨E, rfl, h⟩
        · exact .single _ h
        · exact .repeated _ h
      · right
        refine ⟨fun h => h1 ?_, h2⟩
        cases h with
        | single _ h => exact .inl h
        | repeated E h => exact .inr ⟨E, rfl, h⟩
        | map k v _ _ => exact absurd rfl (hm' k v)

/-! ### memory -/

theorem pointee_base : ∀ (T : GoType), Pointee (.ptr T) (baseTypeOf T) := by
  intro T
  induction T with
  | ptr T ih => exact .more _ _ ih
  | _ => exact .one _

theorem not_ptr_base {T : GoType} (h : ∀ T', T ≠ .ptr T') : baseTypeOf T = T := by
  cases T with
  | ptr T' => exact absurd rfl (h T')
  | _ => rfl

theorem tyCodec'_shape {t : StructTag} {T : GoType} {c : Codec} (hs : PointersSane t.wireType T) (hm : ∀ k v, T ≠ .map k v)
    (h : tyCodec' t T = .ok c) : c.shape = T.shape ∧ c.WF ∧ c.TagsOK := by
  simp only [tyCodec'] at h
  cases hf : fixedCodec t.wireType (.ty T) with
  | some d =>
    simp only [hf, Except.ok.injEq] at h
    subst h
    have hnp : ∀ T', T ≠ .ptr T' := by
      rintro T' rfl
      have hp := hs _ (pointee_base T')
      simp only [fixedCodec, baseTypeOf, wtFixed32, wtFixed64] at hf
      split at hf
      · rename_i he
        split at hf
        · rename_i hb; exact (hp.2.1 he).1 hb
        · rename_i hb; exact (hp.2.1 he).2 hb
        · cases hf
      · split at hf
        · rename_i he
          split at hf
          · rename_i hb; exact (hp.2.2 he).1 hb
          · rename_i hb; exact (hp.2.2 he).2 hb
          · cases hf
        · cases hf
    have hb := not_ptr_base hnp
    simp only [fixedCodec, hb] at hf
    split at hf
    · split at hf <;> first | (cases hf; exact ⟨rfl, trivial, trivial⟩) | cases hf
    · split at hf
      · split at hf <;> first | (cases hf; exact ⟨rfl, trivial, trivial⟩) | cases hf
      · cases hf
  | none =>
    simp only [hf] at h
    cases T with
    | ptr T' =>
      have hp := hs _ (pointee_base T')
      cases hb : baseTypeOf (.ptr T') with
      | slice E => exact absurd hb (hp.1 E)
      | map k v => simp only [hb] at h; cases h
      | _ => simp only [hb] at h; exact wCodec_shape _ _ _ h
    | slice E =>
      simp only [baseTypeOf] at h
      by_cases hu : E = .uint8
      · subst hu; simp only [Except.ok.injEq] at h; subst h; exact ⟨rfl, trivial, trivial⟩
      · have key : ∀ c', wCodec { zigzag := t.zigzag, required := true } E = .ok c' → c = .slice (zeroOf E) c' →
            c.shape = (GoType.slice E).shape ∧ c.WF ∧ c.TagsOK := by
          rintro c' h1 rfl
          obtain ⟨g1, g2, g3⟩ := wCodec_shape _ _ _ h1
          refine ⟨?_, ⟨by rw [zeroOf_shape, g1], g2⟩, g3⟩
          simp only [Codec.shape, g1]
          cases E <;> first | exact absurd rfl hu | rfl
        cases hw : wCodec { zigzag := t.zigzag, required := true } E with
        | error e => exfalso; cases E <;> first | exact absurd rfl hu | (simp only [hw] at h; cases h)
        | ok c' =>
          refine key c' hw ?_
          cases E <;> first | exact absurd rfl hu | (simp only [hw] at h; cases h; rfl)
    | map k v => exact absurd rfl (hm k v)
    | _ => simp only [baseTypeOf] at h; exact wCodec_shape _ _ _ h

theorem mapTagWire_parse {s : Text} {e : Nat} (h : MapTagWire s e) : (parseStructTag s).1.wireType = e := by
  cases h with
  | says _ _ _ _ _ h => rw [parseStructTag_of_says h]
  | absent => rfl

theorem wCodec_key {z : Bool} {K : GoType} {c : Codec} (h : ScalarType K) (hc : wCodec ⟨z, true⟩ K = .ok c) : c.shape.isKey := by
  have := (wCodec_shape _ _ _ hc).1
  rw [this]
  cases h <;> trivial

theorem fieldCodec_shape {t : StructTag} {kt vt : Text} {T : FieldType} {c : Codec} (hs : Sane kt vt t.wireType T)
    (h : fieldCodec t kt vt T = .ok c) : c.shape = T.shape ∧ c.WF ∧ c.TagsOK := by
  cases hs with
  | option b =>
    simp only [fieldCodec] at h
    cases hf : fixedCodec t.wireType (.opt b) with
    | some d =>
      simp only [hf, Except.ok.injEq] at h
      subst h
      cases b <;> simp only [fixedCodec] at hf <;> repeat' split at hf
      all_goals first | (cases hf; exact ⟨rfl, trivial, trivial⟩) | cases hf
    | none =>
      simp only [hf] at h
      cases hz : t.zigzag <;> cases b <;> simp [optionCodec, hz] at h <;> subst h <;> exact ⟨rfl, trivial, trivial⟩
  | ty T hm hp =>
    rw [fieldCodec, tyCodec_eq _ _ _ _ hm] at h
    exact tyCodec'_shape hp hm h
  | map K V ke ve hK _ _ hke hve hp =>
    simp only [fieldCodec, tyCodec, bind, Except.bind, pure, Except.pure, throw, throwThe, MonadExceptOf.throw] at h
    have wk := parseStructTag_wire kt
    have wv := parseStructTag_wire vt
    obtain ⟨et, e1, e2, _⟩ := parse_formatWireTag (parseStructTag kt).1.wiretag (by rw [wiretag_type _ (by omega)]; exact wk)
    obtain ⟨ft, f1, f2, _⟩ := parse_formatWireTag (parseStructTag vt).1.wiretag (by rw [wiretag_type _ (by omega)]; exact wv)
    rw [wiretag_type _ (by omega), mapTagWire_parse hve] at f2
    cases h1 : wCodec { zigzag := (parseStructTag kt).1.zigzag, required := true } K with
    | error e => simp [h1] at h
    | ok kc =>
      cases h2 : wCodec { zigzag := (parseStructTag vt).1.zigzag, required := true } V with
      | error e => simp [h1, h2] at h
      | ok vc =>
        simp only [h1, h2, e1, f1, Bool.false_eq_true, if_false] at h
        have hKm : ∀ k v, K ≠ .map k v := by rintro k v rfl; cases hK
        have hKp : PointersSane et.wireType K := by
          intro B hB
          cases hK <;> cases hB
        have hVm : ∀ k v, V ≠ .map k v := by
          rintro k v rfl
          rcases wCodec_accepts { zigzag := (parseStructTag vt).1.zigzag, required := true } (.map k v) with ⟨h, _⟩ | ⟨_, h⟩
          · exact single_not_map h k v rfl
          · rw [h] at h2; cases h2
        rw [tyCodec_eq _ _ _ _ hKm, tyCodec_eq _ _ _ _ hVm] at h
        cases h3 : tyCodec' et K with
        | error e => simp [h3] at h
        | ok kd =>
          cases h4 : tyCodec' ft V with
          | error e => simp [h3, h4] at h
          | ok vd =>
            simp only [h3, h4, Except.ok.injEq] at h
            subst h
            obtain ⟨a1, a2, a3⟩ := wCodec_shape _ _ _ h1
            obtain ⟨b1, b2, b3⟩ := wCodec_shape _ _ _ h2
            obtain ⟨c1, c2, c3⟩ := tyCodec'_shape hKp hKm h3
            obtain ⟨d1, d2, d3⟩ := tyCodec'_shape (by rw [f2]; exact hp) hVm h4
            refine ⟨by simp only [Codec.shape, FieldType.shape, GoType.shape, a1, b1], ?_, ⟨rfl, rfl, a3, b3, c3, d3⟩⟩
            exact ⟨wCodec_key hK h1, by rw [c1, a1], by rw [d1, b1], by simp only [zeroOf_shape, a1], by simp only [zeroOf_shape, b1], a2, b2, c2, d2⟩

/-- Programs that are accepted and sane: analysis succeeds and its result fits the memory. -/
theorem wf_of_sane {D : Decls} (h : ProgramSane D) : (∀ t, ∃ i, walkStruct (D t) = .ok i) ∧ WFEnv (layoutOf D) (envOf D) ∧
    TagsOK (envOf D) := by
  have key : ∀ t, ∃ i, walkStruct (D t) = .ok i := by
    intro t
    obtain ⟨gs, hgs⟩ := walkFields_ok (D t) 0 fun f hf ha => by
      obtain ⟨s, e, n, c, z, h1, h2, h3⟩ := h.accepted t f hf ha
      have hp := parseStructTag_of_says h2
      rcases fieldCodec_accepts { wireType := e, fieldNumber := BitVec.ofInt 64 n, repeated := c, zigzag := z } f.keyTag f.valTag f.ty with
        ⟨_, c, hc⟩ | ⟨hno, _⟩
      · exact ⟨s, _, c, h1, hp, hc⟩
      · exact absurd h3 hno
    exact ⟨⟨gs, zeroStruct (D t)⟩, by simp only [walkStruct, hgs, bind, Except.bind, pure, Except.pure]⟩
  have ent : ∀ t, ∀ g ∈ (envOf D t).fields, ∃ j f, (D t)[j]? = some f ∧ g.offset = j ∧ g.codec.shape = f.ty.shape ∧ g.codec.WF ∧
      g.codec.TagsOK ∧ g.tag.OK := by
    intro t g hg
    obtain ⟨i, hi⟩ := key t
    have he : envOf D t = i := by simp only [envOf, hi]
    rw [he] at hg
    obtain ⟨j, f, hj, hE⟩ := (walkFields_spec _ _ _ (walkStruct_fields hi).1).1 g hg
    rw [Nat.zero_add] at hE
    obtain ⟨h1, h2, s, tag, h3, h4, h5, h6⟩ := hE
    obtain ⟨e, n, c, z, h7⟩ := says_of_parseStructTag h4
    have hp := parseStructTag_of_says h7
    have hsane := h.sane t f (List.mem_of_getElem? hj) ⟨h2, by rw [h3]; simp⟩ s e n c z h3 h7
    have hw : tag.wireType = e := by rw [hp] at h4; cases h4; rfl
    rw [← hw] at hsane
    obtain ⟨k1, k2, k3⟩ := fieldCodec_shape hsane h6
    exact ⟨j, f, hj, h1, k1, k2, k3, by rw [h5]; rfl⟩
  refine ⟨key, ⟨fun t => ?_, fun t g hg => ?_, fun t g hg => ?_⟩, fun t g hg => ?_⟩
  · obtain ⟨i, hi⟩ := key t
    have he : envOf D t = i := by simp only [envOf, hi]
    rw [he, (walkStruct_fields hi).2, zeroStruct_layout]
  · obtain ⟨j, f, hj, h1, h2, _⟩ := ent t g hg
    rw [h1, h2]; simp [layoutOf, hj]
  · obtain ⟨j, f, hj, _, _, h3, _⟩ := ent t g hg
    exact h3
  · obtain ⟨j, f, hj, _, _, _, h4, h5⟩ := ent t g hg
    exact ⟨h5, h4⟩

end Pb
