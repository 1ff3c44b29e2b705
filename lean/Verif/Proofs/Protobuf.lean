import Verif.Proofs.Analyse
import Verif.Spec.Protobuf
/-
What the codecs write is what the declarations say.
-/
namespace Pb
open Spec

/-- The codecs of supported values. -/
inductive CodecV (e : Nat) (z : Bool) : Bool → GoType → Codec → Prop
  | normal (T s) : Means e z T s → CodecV e z false T (.normal s)
  | required (T s) : Means e z T s → CodecV e z true T (.required s)
  | bytes (r) : e = 2 → CodecV e z r (.slice .uint8) .bytes
  | msg (r t) : e = 2 → CodecV e z r (.ptr (.named t)) (.msg t)
  | ptr (r T zero c) : (∀ t, T ≠ .named t) → CodecV e z r T c → CodecV e z r (.ptr T) (.ptr zero c)

theorem codecV_not_uint8 {e : Nat} {z r : Bool} {T : GoType} {c : Codec} (h : CodecV e z r T c) : T ≠ .uint8 := by
  cases h with
  | normal _ _ h => cases h <;> simp
  | required _ _ h => cases h <;> simp
  | _ => simp

/-- The codecs of supported fields. -/
inductive CodecF (e : Nat) (z : Bool) (kt vt : Text) : FieldType → Codec → Prop
  | value (T c) : CodecV e z false T c → CodecF e z kt vt (.ty T) c
  | option (b s) : Means e z (OptBase.goType b) s → CodecF e z kt vt (.opt b) (.option s)
  | slice (T zero c) : CodecV e z true T c → CodecF e z kt vt (.ty (.slice T)) (.slice zero c)
  | map (K V) (ke kn : Nat) (kp : Bool) (ve vn : Nat) (vp : Bool) (i kc vc kd vd) : e = 2 → SaysTag kt ke kn kp false →
      SaysTag vt ve vn vp false → i.key.wiretag.toNat = 8 * kn + ke → i.val.wiretag.toNat = 8 * vn + ve →
      CodecV ke false true K kc → CodecV ve false true V vc → CodecF e z kt vt (.ty (.map K V)) (.map i kc vc kd vd)

theorem codecV_of {e : Nat} {z : Bool} : ∀ {T : GoType}, ValueOK e z T → ∀ r c, wCodec ⟨z, r⟩ T = .ok c → CodecV e z r T c
  | T, .scalar _ s h h1 h2 => fun r c hc => by
    rw [wCodec_scalar h h1 h2] at hc
    cases hc
    cases r
    · exact .normal T s h
    · exact .required T s h
  | _, .bytes h => fun r c hc => by cases hc; exact .bytes r h
  | _, .msg t h => fun r c hc => by cases hc; exact .msg r t h
  | _, .ptr T h hnb => fun r c hc => by
    rw [wCodec_ptr _ _ (valueOK_not_named h)] at hc
    cases hc' : wCodec ⟨z, r⟩ T with
    | error e => simp [hc', Except.map] at hc
    | ok c' =>
      simp [hc', Except.map] at hc
      subst hc
      exact .ptr r T _ c' (valueOK_not_named h) (codecV_of h r c' hc')

theorem codecF_of {t : StructTag} {kt vt : Text} {T : FieldType} {c : Codec} (h : FieldOK t.wireType t.zigzag kt vt T)
    (hc : fieldCodec t kt vt T = .ok c) : CodecF t.wireType t.zigzag kt vt T c := by
  cases h with
  | scalar T s h =>
    rw [fieldCodec, tyCodec_scalar _ _ h] at hc
    cases hc
    exact .value _ _ (.normal _ _ h)
  | option b s h =>
    obtain ⟨w, n, r, z⟩ := t
    simp only at h
    have : c = .option s := by
      cases b <;> simp only [OptBase.goType] at h <;> cases h <;> cases hc <;> rfl
    subst this
    exact .option b s h
  | value T h h1 h5 =>
    rw [fieldCodec, tyCodec_value _ _ h h1 h5] at hc
    exact .value _ _ (codecV_of h _ _ hc)
  | repeated T h =>
    have hu := valueOK_not_uint8 h
    rw [fieldCodec, tyCodec_eq _ _ _ _ (by intro k v h; cases h)] at hc
    have hf : fixedCodec t.wireType (.ty (.slice T)) = none := by
      simp only [fixedCodec, baseTypeOf]; repeat' split
      all_goals rfl
    obtain ⟨c', hc', _⟩ := wCodec_value h true
    have : c = .slice (zeroOf T) c' := by
      simp only [tyCodec', hf, baseTypeOf] at hc
      cases T with
      | uint8 => exact absurd rfl hu
      | _ => simp only [hc', bind, Except.bind, pure, Except.pure] at hc; cases hc; rfl
    subst this
    exact .slice T _ c' (codecV_of h _ _ hc')
  | map K V ke kn kc ve vn vc he hkt hvt hk0 hv0 hk1 hv1 hne hK hV =>
    have pk := parseStructTag_of_says hkt
    have pv := parseStructTag_of_says hvt
    have wk := saysTag_wire hkt
    have wv := saysTag_wire hvt
    obtain ⟨a, rfl⟩ := Int.eq_ofNat_of_zero_le hk0
    obtain ⟨b, rfl⟩ := Int.eq_ofNat_of_zero_le hv0
    have qk := wiretag_toNat (parseStructTag kt).1 a (by omega) (by rw [pk]; simp) (by rw [pk]; simp only; omega)
    have qv := wiretag_toNat (parseStructTag vt).1 b (by omega) (by rw [pv]; simp) (by rw [pv]; simp only; omega)
    rw [pk] at qk
    rw [pv] at qv
    simp only at qk qv
    obtain ⟨s, hm, hs1, hs2, hkey⟩ := keyOK_codec hK
    have hV' : ValueOK ve false V := by
      cases hV with
      | scalar s h h1 h2 => exact .scalar _ s h h1 h2
      | value h _ _ => exact h
    obtain ⟨vc', hvc, _⟩ := wCodec_value hV' true
    have hcv := codecV_of hV' _ _ hvc
    simp only [fieldCodec, tyCodec, pk, pv, wCodec_scalar hm hs1 hs2, hvc, bind, Except.bind, pure, Except.pure,
        throw, throwThe, MonadExceptOf.throw] at hc
    split at hc
    · cases hc
    · split at hc
      · cases hc
      · split at hc
        · cases hc
        · split at hc
          · cases hc
          · cases hc
            exact .map K V ke a kc ve b vc _ _ _ _ _ he hkt hvt qk qv (.required _ _ hm) hcv

theorem recordsFor_eq {w : U64} {n e : Nat} (h : w.toNat = 8 * n + e) (ds : List Bytes) : recordsOf w ds = recordsFor n e ds := by
  simp only [recordsOf, recordsFor, h]

/-- The entries up to the first one. -/
theorem walkFields_cons : ∀ (d : List FieldDecl) (i : Nat) (g : Field) (gs : List Field), walkFields i d = .ok (g :: gs) →
    ∃ d1 f d2, d = d1 ++ f :: d2 ∧ (∀ f ∈ d1, ¬ f.Active) ∧ EntryOf (i + d1.length) f g ∧ walkFields (i + d1.length + 1) d2 = .ok gs := by
  intro d
  induction d with
  | nil => intro i g gs h; cases h
  | cons f fs ih =>
    intro i g gs h
    have skip : walkFields (i + 1) fs = .ok (g :: gs) → ¬ f.Active →
        ∃ d1 f' d2, f :: fs = d1 ++ f' :: d2 ∧ (∀ f ∈ d1, ¬ f.Active) ∧ EntryOf (i + d1.length) f' g ∧
          walkFields (i + d1.length + 1) d2 = .ok gs := by
      intro h ha
      obtain ⟨d1, f', d2, rfl, h2, h3, h4⟩ := ih _ _ _ h
      refine ⟨f :: d1, f', d2, rfl, ?_, ?_, ?_⟩
      · intro x hx
        rcases List.mem_cons.mp hx with rfl | hx
        · exact ha
        · exact h2 x hx
      · rw [List.length_cons, show i + (d1.length + 1) = i + 1 + d1.length by omega]; exact h3
      · rw [List.length_cons, show i + (d1.length + 1) = i + 1 + d1.length by omega]; exact h4
    simp only [walkFields] at h
    by_cases he : f.exported = true
    · simp only [he, if_true] at h
      cases ht : f.tag with
      | none =>
        simp only [ht] at h
        exact skip h (fun ha => ha.2 ht)
      | some s =>
        simp only [ht, bind, Except.bind, pure, Except.pure, throw, throwThe, MonadExceptOf.throw] at h
        cases hp : parseStructTag s with
        | mk t err =>
          simp only [hp] at h
          cases err with
          | true => simp at h
          | false =>
            simp only [Bool.false_eq_true, if_false] at h
            cases hc : fieldCodec t f.keyTag f.valTag f.ty with
            | error e => simp [hc] at h
            | ok c =>
              simp only [hc] at h
              cases hr : walkFields (i + 1) fs with
              | error e => simp [hr] at h
              | ok rest =>
                simp only [hr, Except.ok.injEq, List.cons.injEq] at h
                obtain ⟨rfl, rfl⟩ := h
                exact ⟨[], f, fs, rfl, by simp, ⟨rfl, he, s, t, ht, hp, rfl, hc⟩, hr⟩
    · simp only [he] at h
      exact skip h (fun ha => he ha.1)

theorem walkFields_nil {d : List FieldDecl} {i : Nat} (h : walkFields i d = .ok []) : ∀ f ∈ d, ¬ f.Active := by
  intro f hf ha
  obtain ⟨j, hj, rfl⟩ := List.mem_iff_getElem.mp hf
  obtain ⟨g, hg, _⟩ := (walkFields_spec d i [] h).2.1 j d[j] (List.getElem?_eq_getElem hj) ha
  cases hg

theorem wireMsg_skip {D : Decls} {d1 d2 : StructDecl} {vs ws : List Val} {b : Bytes} (h : ∀ f ∈ d1, ¬ f.Active)
    (hl : vs.length = d1.length) (hw : WireMsg D d2 ws b) : WireMsg D (d1 ++ d2) (vs ++ ws) b := by
  induction d1 generalizing vs with
  | nil => cases vs with
    | nil => exact hw
    | cons => simp at hl
  | cons f fs ih => cases vs with
    | nil => simp at hl
    | cons v vs => exact .skip f _ v _ b (h f (by simp)) (ih (fun g hg => h g (by simp [hg])) (by simpa using hl))

/-- What a field says, in a handled program. -/
theorem entry_codecF {i : Nat} {f : FieldDecl} {g : Field} (h : EntryOf i f g) (hd : DeclOK f) :
    ∃ s e n c z, f.tag = some s ∧ SaysTag s e (n : Nat) c z ∧ g.tag.wiretag.toNat = 8 * n + e ∧
      CodecF e z f.keyTag f.valTag f.ty g.codec := by
  obtain ⟨_, _, s, t, h1, h2, h3, h4⟩ := h
  obtain ⟨s', e, n, c, z, k1, k2, k3, k4, k5⟩ := hd
  rw [h1] at k1; cases k1
  rw [parseStructTag_of_says k2] at h2
  simp only [Prod.mk.injEq, and_true] at h2
  subst h2
  obtain ⟨m, rfl⟩ := Int.eq_ofNat_of_zero_le k3
  have hw := saysTag_wire k2
  refine ⟨s, e, m, c, z, h1, k2, ?_, codecF_of (t := { wireType := e, fieldNumber := _, repeated := c, zigzag := z }) k5 h4⟩
  rw [h3]
  exact wiretag_toNat _ m (by omega) (by simp) (by simp only; omega)

mutual
theorem wireValue_of {D : Decls} (hp : ProgramOK D) {c : Codec} {v : Val} {ds : List Bytes} :
    Encodes (envOf D) c v ds → Fits (layoutOf D) c.shape v →
      (∀ e z r T, CodecV e z r T c → WireValue D e z r T v ds) ∧
      (∀ e z kt vt T, CodecF e z kt vt T c → WireField D e z kt vt T v ds)
  | .zero s => fun hv => by
    have h : ∀ e z r T, CodecV e z r T (.normal s) → WireValue D e z r T s.shape.zero [] := fun e z r T hc => by
      cases hc with | normal _ _ h => exact .zero e z T s h
    exact ⟨h, fun e z kt vt T hc => by cases hc with | value T _ hc => exact .single _ _ _ _ _ _ _ (h _ _ _ _ hc)⟩
  | .nonzero s v hz => fun hv => by
    have h : ∀ e z r T, CodecV e z r T (.normal s) → WireValue D e z r T v [payload s v] := fun e z r T hc => by
      cases hc with | normal _ _ h => exact .scalar e z _ T s v h (.inr hz)
    exact ⟨h, fun e z kt vt T hc => by cases hc with | value T _ hc => exact .single _ _ _ _ _ _ _ (h _ _ _ _ hc)⟩
  | .required s v => fun hv => by
    have h : ∀ e z r T, CodecV e z r T (.required s) → WireValue D e z r T v [payload s v] := fun e z r T hc => by
      cases hc with | required _ _ h => exact .scalar e z _ T s v h (.inl rfl)
    exact ⟨h, fun e z kt vt T hc => by cases hc with | value T _ hc => exact .single _ _ _ _ _ _ _ (h _ _ _ _ hc)⟩
  | .none s v => fun hv => ⟨(fun e z r T hc => by cases hc), fun e z kt vt T hc => by
      cases hc with
      | value T _ hc => cases hc
      | option b _ h => exact .none e z kt vt b v⟩
  | .some s v => fun hv => ⟨(fun e z r T hc => by cases hc), fun e z kt vt T hc => by
      cases hc with
      | value T _ hc => cases hc
      | option b _ h => exact .some e z kt vt b s v h⟩
  | .bytesNil => fun hv => by
    have h : ∀ e z r T, CodecV e z r T .bytes → WireValue D e z r T (.bytes none) [] := fun e z r T hc => by
      cases hc with | bytes _ h => subst h; exact .bytesNil z r
    exact ⟨h, fun e z kt vt T hc => by cases hc with | value T _ hc => exact .single _ _ _ _ _ _ _ (h _ _ _ _ hc)⟩
  | .bytes s => fun hv => by
    have h : ∀ e z r T, CodecV e z r T .bytes → WireValue D e z r T (.bytes (some s)) [delimited s] := fun e z r T hc => by
      cases hc with | bytes _ h => subst h; exact .bytes z r s
    exact ⟨h, fun e z kt vt T hc => by cases hc with | value T _ hc => exact .single _ _ _ _ _ _ _ (h _ _ _ _ hc)⟩
  | .ptrNil z' c => fun hv => by
    have h : ∀ e z r T, CodecV e z r T (.ptr z' c) → WireValue D e z r T .nilp [] := fun e z r T hc => by
      cases hc with | ptr _ T _ _ _ h => exact .nil e z r T
    exact ⟨h, fun e z kt vt T hc => by cases hc with | value T _ hc => exact .single _ _ _ _ _ _ _ (h _ _ _ _ hc)⟩
  | .ptr z' c v ds he => fun hv => by
    simp only [Codec.shape] at hv
    have hv : Fits (layoutOf D) c.shape v := by cases hv; assumption
    have h : ∀ e z r T, CodecV e z r T (.ptr z' c) → WireValue D e z r T (.ptr v) ds := fun e z r T hc => by
      cases hc with | ptr _ T _ _ hn h => exact .ptr e z r T v ds hn ((wireValue_of hp he hv).1 _ _ _ _ h)
    exact ⟨h, fun e z kt vt T hc => by cases hc with | value T _ hc => exact .single _ _ _ _ _ _ _ (h _ _ _ _ hc)⟩
  | .msgNil t => fun hv => by
    have h : ∀ e z r T, CodecV e z r T (.msg t) → WireValue D e z r T .nilp [] := fun e z r T hc => by
      cases hc with | msg _ _ h => exact .nil e z r _
    exact ⟨h, fun e z kt vt T hc => by cases hc with | value T _ hc => exact .single _ _ _ _ _ _ _ (h _ _ _ _ hc)⟩
  | .msg t vs body he => fun hv => by
    have h : ∀ e z r T, CodecV e z r T (.msg t) → WireValue D e z r T (.ptr (.struct vs)) [delimited body] := fun e z r T hc => by
      cases hc with
      | msg _ _ h =>
        subst h
        have hfl := fitsL_of_msg (L := layoutOf D) (t := t) (vs := vs) hv
        obtain ⟨i, hi⟩ := walkStruct_ok (hp t)
        have hei : envOf D t = i := by simp only [envOf, hi]
        have hw : walkFields 0 (D t) = .ok (envOf D t).fields := by rw [hei]; exact (walkStruct_fields hi).1
        exact .msg z r t vs body (wireMsg_of hp he t (D t) [] 0 [] vs hw rfl rfl rfl (by simp) hfl)
    exact ⟨h, fun e z kt vt T hc => by cases hc with | value T _ hc => exact .single _ _ _ _ _ _ _ (h _ _ _ _ hc)⟩
  | .slice z' c n es sp ds he => fun hv => by
    simp only [Codec.shape] at hv
    have hv : ∀ e ∈ es, Fits (layoutOf D) c.shape e := by cases hv; assumption
    refine ⟨(fun e z r T hc => by cases hc), fun e z kt vt T hc => ?_⟩
    cases hc with
    | value T _ hc => cases hc
    | slice T _ _ h => exact .repeated e z kt vt T n es sp ds (codecV_not_uint8 h) (wireList_of hp he hv e z T h)
  | .mapEmpty i kc vc kd vd n => fun hv => by
    refine ⟨(fun e z r T hc => by cases hc), fun e z kt vt T hc => ?_⟩
    cases hc with
    | value T _ hc => cases hc
    | map K V ke kn kp ve vn vp i kc vc kd vd he => subst he; exact .mapEmpty z kt vt K V n
  | .map i kc vc kd vd n m ds hne he => fun hv => by
    simp only [Codec.shape] at hv
    obtain ⟨hks, hvs⟩ : (∀ e ∈ m, Fits (layoutOf D) kc.shape e.1.toVal) ∧ ∀ e ∈ m, Fits (layoutOf D) vc.shape e.2 := by
      cases hv; exact ⟨by assumption, by assumption⟩
    refine ⟨(fun e z r T hc => by cases hc), fun e z kt vt T hc => ?_⟩
    cases hc with
    | value T _ hc => cases hc
    | map K V ke kn kp ve vn vp _ _ _ _ _ he' hk1 hv1 hkw hvw hkc hvc =>
      subst he'
      exact .map z kt vt K V ke kn kp ve vn vp n m ds hk1 hv1 hne (wireEntries_of hp he ke kn ve vn K V hkw hvw hkc hvc hks hvs)

theorem wireList_of {D : Decls} (hp : ProgramOK D) {c : Codec} {es : List Val} {ds : List Bytes} :
    EncodesL (envOf D) c es ds → (∀ e ∈ es, Fits (layoutOf D) c.shape e) → ∀ e z T, CodecV e z true T c → WireList D e z T es ds
  | .nil c => fun hv e z T hc => .nil e z T
  | .cons c v es ds ds' he hes => fun hv e z T hc =>
    .cons e z T v es ds ds' ((wireValue_of hp he (hv v (by simp))).1 _ _ _ _ hc)
      (wireList_of hp hes (fun e he => hv e (by simp [he])) e z T hc)

theorem wireEntries_of {D : Decls} (hp : ProgramOK D) {i : MapInfo} {kc vc : Codec} {m : List (Key × Val)} {ds : List Bytes} :
    EncodesM (envOf D) i kc vc m ds → ∀ ke kn ve vn K V, i.key.wiretag.toNat = 8 * kn + ke → i.val.wiretag.toNat = 8 * vn + ve →
      CodecV ke false true K kc → CodecV ve false true V vc → (∀ e ∈ m, Fits (layoutOf D) kc.shape e.1.toVal) →
      (∀ e ∈ m, Fits (layoutOf D) vc.shape e.2) → WireEntries D ke kn ve vn K V m ds
  | .nil i kc vc => fun ke kn ve vn K V _ _ _ _ _ _ => .nil _ _ _ _ _ _
  | .cons i kc vc k v m kds vds ds hke hve hm => fun ke kn ve vn K V hk1 hv1 hkc hvc hks hvs => by
    rw [recordsFor_eq hk1, recordsFor_eq hv1]
    exact .cons ke kn ve vn K V k v m kds vds ds ((wireValue_of hp hke (hks (k, v) (by simp))).1 _ _ _ _ hkc)
      ((wireValue_of hp hve (hvs (k, v) (by simp))).1 _ _ _ _ hvc)
      (wireEntries_of hp hm ke kn ve vn K V hk1 hv1 hkc hvc (fun e he => hks e (by simp [he])) (fun e he => hvs e (by simp [he])))

theorem wireMsg_of {D : Decls} (hp : ProgramOK D) {fs : List Field} {vs : List Val} {b : Bytes} :
    EncodesMsg (envOf D) fs vs b → ∀ t (d pre : StructDecl) (i : Nat) (us ws : List Val), walkFields i d = .ok fs → D t = pre ++ d →
      pre.length = i → vs = us ++ ws → us.length = i → FitsL (layoutOf D) (layoutOf D t) vs → WireMsg D d ws b
  | .nil vs => fun t d pre i us ws hw hd hi hvs hus hf => by
    have := wireMsg_skip (D := D) (d1 := d) (d2 := []) (vs := ws) (ws := []) (walkFields_nil hw) (by
      have := hf.1
      simp [layoutOf, hd, hvs] at this
      omega) .nil
    simpa using this
  | .cons g gs vs v ds b hv he hes => fun t d pre i us ws hw hd hi hvs hus hf => by
    obtain ⟨d1, f, d2, rfl, h2, h3, h4⟩ := walkFields_cons _ _ _ _ hw
    have hlen : ws.length = d1.length + 1 + d2.length := by
      have := hf.1
      simp [layoutOf, hd, hvs] at this
      omega
    have hoff : g.offset = i + d1.length := h3.1
    -- split the values
    have hws : ws = ws.take d1.length ++ v :: ws.drop (d1.length + 1) := by
      have hlt : d1.length < ws.length := by omega
      have hget : ws[d1.length] = v := by
        rw [hvs, hoff, List.getElem?_append_right (by omega), hus, Nat.add_sub_cancel_left,
          List.getElem?_eq_getElem hlt] at hv
        simpa using hv
      rw [← hget]
      simp
    have hmem : f ∈ D t := by rw [hd]; simp
    have hact : f.Active := by
      obtain ⟨_, h5, s, t', h6, _⟩ := h3
      exact ⟨h5, by simp [h6]⟩
    obtain ⟨s, e, n, c, z, k1, k2, k3, k4⟩ := entry_codecF h3 ((hp t).fields f hmem hact)
    have hfit : Fits (layoutOf D) g.codec.shape v := by
      have hgood := good_of_program hp
      refine hf.2 g.offset _ v ?_ hv
      have hE := (entry_declOK h3 ((hp t).fields f hmem hact))
      obtain ⟨_, _, _, _, hsh, _⟩ := hE
      rw [hsh, hoff]
      simp [layoutOf, hd, ← hi]
    have hrest := wireMsg_of hp hes t d2 (pre ++ (d1 ++ [f])) (i + d1.length + 1) (us ++ (ws.take d1.length ++ [v]))
      (ws.drop (d1.length + 1)) h4 (by simp [hd]) (by simp [hi]; omega) (by
        rw [hvs]
        conv => lhs; rw [hws]
        simp) (by simp [hus]; omega) hf
    rw [recordsFor_eq k3, hws]
    exact wireMsg_skip h2 (by simp; omega) (.field f d2 v _ s e n c z ds b hact k1 k2
      ((wireValue_of hp he hfit).2 _ _ _ _ _ k4) hrest)
end

end Pb
