import Verif.Spec.Program
import Verif.Proofs.Tag
import Verif.Proofs.Trip
/-
Type analysis of supported programs gives supported type infos.
-/
namespace Pb
open Spec

theorem zeroOf_shape (t : GoType) : zeroOf t = t.shape.zero := by
  cases t with
  | slice t => cases t <;> rfl
  | ptr t => cases t <;> rfl
  | _ => rfl

theorem zeroField_shape (t : FieldType) : zeroField t = t.shape.zero := by
  cases t with
  | opt b => cases b <;> rfl
  | ty t => exact zeroOf_shape t

theorem zeroStruct_layout (D : Decls) (t : TypeId) : zeroStruct (D t) = .struct ((layoutOf D t).map Shape.zero) := by
  simp [zeroStruct, layoutOf, zeroField_shape, Function.comp_def]

theorem wCodec_ptr (conf : Conf) (T : GoType) (h : ∀ t, T ≠ .named t) :
    wCodec conf (.ptr T) = (wCodec conf T).map fun c => .ptr (zeroOf T) c := by
  cases T with
  | named t => exact absurd rfl (h t)
  | _ => simp only [wCodec] <;> rfl

theorem shape_ptr (T : GoType) (h : ∀ t, T ≠ .named t) : (GoType.ptr T).shape = .ptr T.shape := by
  cases T with
  | named t => exact absurd rfl (h t)
  | _ => rfl

theorem wCodec_slice (conf : Conf) (T : GoType) (h : T ≠ .uint8) : wCodec conf (.slice T) = .error .panic := by
  cases T <;> first | exact absurd rfl h | rfl

/-- What analysis chooses works on the memory of the type. -/
theorem wCodec_shape (conf : Conf) : ∀ (T : GoType) (c : Codec), wCodec conf T = .ok c → c.shape = T.shape ∧ c.WF ∧ c.TagsOK := by
  intro T
  induction T with
  | ptr T ih =>
    intro c h
    by_cases hn : ∃ t, T = .named t
    · obtain ⟨t, rfl⟩ := hn
      simp only [wCodec, Except.ok.injEq] at h
      subst h; exact ⟨rfl, trivial, trivial⟩
    · have hn' : ∀ t, T ≠ .named t := fun t ht => hn ⟨t, ht⟩
      rw [wCodec_ptr _ _ hn'] at h
      cases hc : wCodec conf T with
      | error e => simp [hc, Except.map] at h
      | ok c' =>
        simp only [hc, Except.map, Except.ok.injEq] at h
        subst h
        obtain ⟨h1, h2, h3⟩ := ih c' hc
        exact ⟨by rw [shape_ptr _ hn', Codec.shape, h1], ⟨by rw [zeroOf_shape, h1], h2⟩, h3⟩
  | slice T ih =>
    intro c h
    by_cases hu : T = .uint8
    · subst hu
      simp only [wCodec, Except.ok.injEq] at h
      subst h; exact ⟨rfl, trivial, trivial⟩
    · rw [wCodec_slice _ _ hu] at h; cases h
  | _ =>
    intro c h
    revert h
    cases conf with
    | mk z r => cases z <;> cases r <;> simp [wCodec, kindScalar, GoType.shape] <;> rintro rfl <;>
        simp [Scalar.shape, Codec.WF, Codec.shape, Codec.TagsOK]

theorem means_wire {e : Nat} {z : Bool} {T : GoType} {s : Scalar} (h : Means e z T s) : e = s.wire := by
  cases h <;> rfl

theorem means_shape {e : Nat} {z : Bool} {T : GoType} {s : Scalar} (h : Means e z T s) : s.shape = T.shape := by
  cases h <;> rfl

theorem means_kind {e : Nat} {z : Bool} {T : GoType} {s : Scalar} (h : Means e z T s) (h1 : s ≠ .fixed32) (h2 : s ≠ .fixed64) :
    kindScalar z T = some s := by
  cases h <;> first | exact absurd rfl h1 | exact absurd rfl h2 | rfl

theorem wCodec_scalar {e : Nat} {z r : Bool} {T : GoType} {s : Scalar} (h : Means e z T s) (h1 : s ≠ .fixed32)
    (h2 : s ≠ .fixed64) : wCodec ⟨z, r⟩ T = .ok (if r then .required s else .normal s) := by
  cases h <;> first | exact absurd rfl h1 | exact absurd rfl h2 | rfl

theorem valueOK_not_named {e : Nat} {z : Bool} {T : GoType} (h : ValueOK e z T) (t : TypeId) : T ≠ .named t := by
  rintro rfl
  generalize hT : GoType.named t = T at h
  cases h with
  | scalar _ s h => subst hT; cases h
  | _ => cases hT

theorem valueOK_not_uint8 {e : Nat} {z : Bool} {T : GoType} (h : ValueOK e z T) : T ≠ .uint8 := by
  rintro rfl
  generalize hT : GoType.uint8 = T at h
  cases h with
  | scalar _ s h => subst hT; cases h
  | _ => cases hT

/-- Supported values get a codec that writes the announced wire type. -/
theorem wCodec_value {e : Nat} {z : Bool} : ∀ {T : GoType}, ValueOK e z T → ∀ r, ∃ c, wCodec ⟨z, r⟩ T = .ok c ∧ c.Writes e ∧ c.IsElem
  | T, .scalar _ s h h1 h2 => fun r => by
    refine ⟨_, wCodec_scalar h h1 h2, ?_⟩
    cases r <;> exact ⟨means_wire h, trivial⟩
  | _, .bytes h => fun r => ⟨.bytes, rfl, h, trivial⟩
  | _, .msg t h => fun r => ⟨.msg t, rfl, h, trivial⟩
  | _, .ptr T h hnb => fun r => by
    obtain ⟨c, h1, h2, h3⟩ := wCodec_value h r
    exact ⟨.ptr (zeroOf T) c, by rw [wCodec_ptr _ _ (valueOK_not_named h), h1]; rfl, h2, h3⟩

/-- The codec for elements and the one for fields read alike. -/
theorem wCodec_sameReader {e : Nat} {z : Bool} : ∀ {T : GoType}, ValueOK e z T → ∀ c d, wCodec ⟨z, true⟩ T = .ok c →
    wCodec ⟨z, false⟩ T = .ok d → SameReader c d
  | T, .scalar _ s h h1 h2 => fun c d hc hd => by
    rw [wCodec_scalar h h1 h2] at hc hd
    simp at hc hd; subst hc hd
    exact .normal s
  | _, .bytes h => fun c d hc hd => by cases hc; cases hd; exact .refl _
  | _, .msg t h => fun c d hc hd => by cases hc; cases hd; exact .refl _
  | _, .ptr T h hnb => fun c d hc hd => by
    rw [wCodec_ptr _ _ (valueOK_not_named h)] at hc hd
    cases hc' : wCodec ⟨z, true⟩ T with
    | error e => simp [hc', Except.map] at hc
    | ok c' =>
      cases hd' : wCodec ⟨z, false⟩ T with
      | error e => simp [hd', Except.map] at hd
      | ok d' =>
        simp [hc', hd', Except.map] at hc hd
        subst hc hd
        exact .ptr _ _ _ (wCodec_sameReader h _ _ hc' hd')

/-! ### tyCodec -/

/-- The part of `tyCodec` for types other than maps. -/
def tyCodec' (t : StructTag) (ty : GoType) : Except Fault Codec :=
    match fixedCodec t.wireType (.ty ty) with
    | some c => .ok c
    | none =>
      match baseTypeOf ty with
      | .slice _ =>
        match ty with
        | .slice .uint8 => .ok .bytes
        | .slice elem => do
          let c ← wCodec { zigzag := t.zigzag, required := true } elem
          return .slice (zeroOf elem) c
        | .ptr elem => do
          let c ← wCodec { zigzag := t.zigzag, required := true } elem
          return .slice (zeroOf elem) c
        | _ => .error .panic
      | .map _ _ => .error .panic
      | _ => wCodec { zigzag := t.zigzag, required := false } ty

theorem tyCodec_eq (t : StructTag) (kt vt : Text) (ty : GoType) (h : ∀ k v, ty ≠ .map k v) :
    tyCodec t kt vt ty = tyCodec' t ty := by
  cases ty with
  | map k v => exact absurd rfl (h k v)
  | slice T => cases T <;> rfl
  | _ => rfl

theorem tyCodec_scalar {t : StructTag} {T : GoType} {s : Scalar} (kt vt : Text) (h : Means t.wireType t.zigzag T s) :
    tyCodec t kt vt T = .ok (.normal s) := by
  obtain ⟨w, n, r, z⟩ := t
  simp only at h
  cases h <;> rfl

theorem valueOK_base {e : Nat} {z : Bool} : ∀ {T : GoType}, ValueOK e z T → (∀ k v, baseTypeOf T ≠ .map k v) ∧
    (∀ E, baseTypeOf T = .slice E → E = .uint8)
  | _, .scalar _ s h h1 h2 => by cases h <;> exact ⟨(by intro k v h; cases h), (by intro E h; cases h)⟩
  | _, .bytes h => ⟨(by intro k v h; cases h), (by intro E h; cases h; rfl)⟩
  | _, .msg t h => ⟨(by intro k v h; cases h), (by intro E h; cases h)⟩
  | _, .ptr T h hnb => by have := valueOK_base h; simpa only [baseTypeOf] using this

theorem valueOK_slice {e : Nat} {z : Bool} : ∀ {T : GoType}, ValueOK e z T → baseTypeOf T = .slice .uint8 → T = .slice .uint8
  | _, .scalar _ s h h1 h2 => by cases h <;> (intro h; cases h)
  | _, .bytes h => fun _ => rfl
  | _, .msg t h => by intro h; cases h
  | _, .ptr T h hnb => fun hb => absurd (valueOK_slice h hb) hnb

theorem tyCodec_value {t : StructTag} {T : GoType} (kt vt : Text) (h : ValueOK t.wireType t.zigzag T) (h1 : t.wireType ≠ 1)
    (h5 : t.wireType ≠ 5) : tyCodec t kt vt T = wCodec ⟨t.zigzag, false⟩ T := by
  have hm : ∀ k v, T ≠ .map k v := by
    rintro k v rfl
    exact (valueOK_base h).1 k v rfl
  rw [tyCodec_eq _ _ _ _ hm]
  have hf : fixedCodec t.wireType (.ty T) = none := by
    simp [fixedCodec, wtFixed32, wtFixed64, h1, h5]
  simp only [tyCodec', hf]
  have hbase := valueOK_base h
  cases hT : baseTypeOf T with
  | map k v => exact absurd hT (hbase.1 k v)
  | slice E =>
    have hE := hbase.2 E hT
    subst hE
    have := valueOK_slice h hT
    subst this; rfl
  | _ => rfl

/-! ### numbers and maps -/

theorem encoding_wire {p : Text} {e : Nat} {z : Bool} (h : Encoding p e z) : e = 0 ∨ e = 1 ∨ e = 2 ∨ e = 5 := by
  cases h <;> simp

theorem saysTag_wire {s : Text} {e : Nat} {n : Int} {c z : Bool} (h : SaysTag s e n c z) : e = 0 ∨ e = 1 ∨ e = 2 ∨ e = 5 := by
  cases h with
  | one _ _ _ h | two _ _ _ _ _ h | three _ _ _ _ _ _ _ h | more _ _ _ _ _ _ _ _ h => exact encoding_wire h

theorem wiretag_toNat (t : StructTag) (n : Nat) (hn : n < 2 ^ 61) (hf : t.fieldNumber = BitVec.ofNat 64 n) (he : t.wireType < 8) :
    t.wiretag.toNat = 8 * n + t.wireType := by
  simp only [StructTag.wiretag, hf]
  rw [BitVec.toNat_or]
  have h1 : (BitVec.ofNat 64 n <<< 3).toNat = n <<< 3 := by
    rw [BitVec.toNat_shiftLeft, BitVec.toNat_ofNat]
    simp only [Nat.shiftLeft_eq]
    omega
  have h2 : (BitVec.ofNat 64 t.wireType).toNat = t.wireType := by
    rw [BitVec.toNat_ofNat]; omega
  rw [h1, h2, Nat.shiftLeft_eq, Nat.mul_comm]
  exact (Nat.two_pow_add_eq_or_of_lt (i := 3) he n).symm

theorem wiretag_parts (t : StructTag) (n : Nat) (hn : n < 2 ^ 61) (hf : t.fieldNumber = BitVec.ofNat 64 n) (he : t.wireType < 8) :
    keyNumber t.wiretag = n ∧ keyType t.wiretag = t.wireType := by
  have h1 := wiretag_toNat t n hn hf he
  have h2 := wiretag_split t.wiretag
  omega

/-- The tag of map entries is parsed as it was written, without the zig-zag flag. -/
theorem parse_formatWireTag (w : U64) (hw : keyType w = 0 ∨ keyType w = 1 ∨ keyType w = 2 ∨ keyType w = 5) :
    ∃ t, parseStructTag (formatWireTag w) = (t, false) ∧ t.wireType = keyType w ∧ t.zigzag = false ∧ t.wiretag = w := by
  have hs := wiretag_split w
  have hlt : keyNumber w < 2 ^ 61 := by have := w.isLt; omega
  have hsay : SaysTag (formatWireTag w) (keyType w) (keyNumber w : Nat) false false := by
    have e : formatWireTag w = wireTypeName (keyType w) ++ ',' :: (decimal (keyNumber w) ++ ',' :: "opt".toList) := by
      simp [formatWireTag, wtNumber_eq, wtType_eq]
    rw [e]
    refine .three _ _ _ _ _ _ _ ?_ (.nat _ _ (numeral_decimal _) (by omega)) .opt
    rcases hw with h | h | h | h <;> rw [h]
    · exact .varint
    · exact .fixed64
    · exact .bytes
    · exact .fixed32
  refine ⟨_, parseStructTag_of_says hsay, rfl, rfl, ?_⟩
  apply BitVec.eq_of_toNat_eq
  rw [wiretag_toNat _ (keyNumber w) hlt (by simp) hs.2]
  exact hs.1

theorem keyOK_codec {ke : Nat} {K : GoType} (h : KeyOK ke K) : ∃ s, Means ke false K s ∧ s ≠ .fixed32 ∧ s ≠ .fixed64 ∧ K.shape.isKey := by
  cases h with
  | scalar s h h1 h2 h3 h4 =>
    refine ⟨s, h, h1, h2, ?_⟩
    cases h <;> first | exact absurd rfl h1 | exact absurd rfl h2 | exact absurd rfl h3 | exact absurd rfl h4 | trivial

/-- Codecs of map values: the one that writes and the one that reads. -/
theorem entryOK_codec {ve : Nat} {V : GoType} (h : EntryOK ve V) (t : StructTag) (ht : t.wireType = ve) (hz : t.zigzag = false) :
    ∃ c d, wCodec ⟨false, true⟩ V = .ok c ∧ tyCodec t [] [] V = .ok d ∧ c.Writes ve ∧ c.IsElem ∧ SameReader c d ∧
      d.shape = V.shape ∧ d.WF ∧ d.TagsOK := by
  cases h with
  | scalar s h h1 h2 =>
    refine ⟨_, _, wCodec_scalar h h1 h2, tyCodec_scalar [] [] (by rw [ht, hz]; exact h), means_wire h, trivial, .normal s, ?_,
      trivial, trivial⟩
    exact means_shape h
  | value h h1 h5 =>
    obtain ⟨c, hc, hw, hi⟩ := wCodec_value h true
    obtain ⟨d, hd, _, _⟩ := wCodec_value h false
    have e : tyCodec t [] [] V = .ok d := by
      rw [tyCodec_value [] [] (by rw [ht, hz]; exact h) (by rw [ht]; exact h1) (by rw [ht]; exact h5), hz]; exact hd
    obtain ⟨a, b, c'⟩ := wCodec_shape _ _ _ hd
    exact ⟨c, d, hc, e, hw, hi, wCodec_sameReader h _ _ hc hd, a, b, c'⟩

/-- The codec analysis builds for a supported field. -/
theorem fieldCodec_ok {t : StructTag} {kt vt : Text} {T : FieldType} (h : FieldOK t.wireType t.zigzag kt vt T)
    (hw : keyType t.wiretag = t.wireType) :
    ∃ c, fieldCodec t kt vt T = .ok c ∧ c.shape = T.shape ∧ c.WF ∧ c.TagsOK ∧ c.Writes t.wireType ∧ c.Supported t.wiretag := by
  cases h with
  | scalar T s h => exact ⟨_, tyCodec_scalar _ _ h, means_shape h, trivial, trivial, means_wire h, trivial⟩
  | option b s h =>
    obtain ⟨w, n, r, z⟩ := t
    simp only at h
    refine ⟨.option s, ?_, ?_, trivial, trivial, means_wire h, trivial⟩
    · cases b <;> simp only [OptBase.goType] at h <;> cases h <;> rfl
    · simp only [Codec.shape, FieldType.shape, means_shape h]
  | value T h h1 h5 =>
    obtain ⟨c, hc, hwr, hi⟩ := wCodec_value h false
    obtain ⟨h2, h3, h4⟩ := wCodec_shape _ _ _ hc
    refine ⟨c, by rw [fieldCodec, tyCodec_value _ _ h h1 h5, hc], h2, h3, h4, hwr, ?_⟩
    cases c <;> first | exact hi | exact hi.elim
  | repeated T h =>
    obtain ⟨c, hc, hwr, hi⟩ := wCodec_value h true
    obtain ⟨h2, h3, h4⟩ := wCodec_shape _ _ _ hc
    have hu := valueOK_not_uint8 h
    refine ⟨.slice (zeroOf T) c, ?_, ?_, ⟨by rw [zeroOf_shape, h2], h3⟩, h4, hwr, hi⟩
    · rw [fieldCodec, tyCodec_eq _ _ _ _ (by intro k v h; cases h)]
      have hf : fixedCodec t.wireType (.ty (.slice T)) = none := by
        simp only [fixedCodec, baseTypeOf]; repeat' split
        all_goals rfl
      simp only [tyCodec', hf, baseTypeOf]
      cases T with
      | uint8 => exact absurd rfl hu
      | _ => simp only [hc]; rfl
    · simp only [Codec.shape, FieldType.shape, h2]
      cases T with
      | uint8 => exact absurd rfl hu
      | _ => rfl
  | map K V ke kn kc ve vn vc he hkt hvt hk0 hv0 hk1 hv1 hne hK hV =>
    have pk := parseStructTag_of_says hkt
    have pv := parseStructTag_of_says hvt
    have wk := saysTag_wire hkt
    have wv := saysTag_wire hvt
    obtain ⟨a, rfl⟩ := Int.eq_ofNat_of_zero_le hk0
    obtain ⟨b, rfl⟩ := Int.eq_ofNat_of_zero_le hv0
    have qk := wiretag_parts (parseStructTag kt).1 a (by omega) (by rw [pk]; simp) (by rw [pk]; simp only; omega)
    have qv := wiretag_parts (parseStructTag vt).1 b (by omega) (by rw [pv]; simp) (by rw [pv]; simp only; omega)
    rw [pk] at qk
    rw [pv] at qv
    simp only at qk qv
    obtain ⟨et, e1, e2, e3, e4⟩ := parse_formatWireTag
      (StructTag.wiretag { wireType := ke, fieldNumber := BitVec.ofInt 64 a, repeated := kc, zigzag := false }) (by rw [qk.2]; exact wk)
    obtain ⟨ft, f1, f2, f3, f4⟩ := parse_formatWireTag
      (StructTag.wiretag { wireType := ve, fieldNumber := BitVec.ofInt 64 b, repeated := vc, zigzag := false }) (by rw [qv.2]; exact wv)
    obtain ⟨s, hm, hs1, hs2, hkey⟩ := keyOK_codec hK
    obtain ⟨c, d, h1, h2, h3, h4, h5, h6, h7, h8⟩ := entryOK_codec hV ft (by rw [f2, qv.2]) f3
    have hk2 : tyCodec et [] [] K = .ok (.normal s) := tyCodec_scalar [] [] (by rw [e2, e3, qk.2]; exact hm)
    obtain ⟨g1, g2, g3⟩ := wCodec_shape _ _ _ h1
    refine ⟨_, by
      simp only [fieldCodec, tyCodec, pk, pv, wCodec_scalar hm hs1 hs2, h1, e1, f1, hk2, h2, bind, Except.bind, pure, Except.pure,
        throw, throwThe, MonadExceptOf.throw, Bool.false_eq_true, if_false]
      rfl, ?_, ?_, ?_, ?_, ?_⟩
    · simp only [Codec.shape, FieldType.shape, GoType.shape, if_true, means_shape hm, g1]
    · simp only [Codec.WF, Codec.shape, if_true, means_shape hm, g1, h6, zeroOf_shape, hkey, g2, h7, and_self]
    · simp only [Codec.TagsOK, FTag.OK, if_true, g3, h8, and_self]
    · simp only [Codec.Writes, if_true, he, qv.2, means_wire hm, h3, true_and, and_true]
      rw [← means_wire hm]; exact qk.2
    · simp only [Codec.Supported, if_true, e4, f4, qk.1, qv.1, Codec.IsElem, h4, h5, true_and, and_true]
      exact ⟨by omega, .normal s⟩

/-! ### structs -/

/-- The info entry of a field declaration. -/
def EntryOf (i : Nat) (f : FieldDecl) (g : Field) : Prop :=
  g.offset = i ∧ f.exported = true ∧ ∃ s t, f.tag = some s ∧ parseStructTag s = (t, false) ∧
    g.tag = ⟨t.wiretag, sizeOfVarint t.wiretag⟩ ∧ fieldCodec t f.keyTag f.valTag f.ty = .ok g.codec

/-- What the loop over the fields yields: entries for the exported, tagged fields, in order. -/
theorem walkFields_spec : ∀ (d : List FieldDecl) (i : Nat) (gs : List Field), walkFields i d = .ok gs →
    (∀ g ∈ gs, ∃ j f, d[j]? = some f ∧ EntryOf (i + j) f g) ∧
    (∀ j f, d[j]? = some f → f.Active → ∃ g ∈ gs, EntryOf (i + j) f g) ∧
    gs.Pairwise (fun g h => g.offset < h.offset) := by
  intro d
  induction d with
  | nil =>
    intro i gs h
    simp only [walkFields, Except.ok.injEq] at h
    subst h
    simp
  | cons f fs ih =>
    intro i gs h
    have skip : ∀ gs, walkFields (i + 1) fs = .ok gs → ¬ f.Active →
        (∀ g ∈ gs, ∃ j f', (f :: fs)[j]? = some f' ∧ EntryOf (i + j) f' g) ∧
        (∀ j f', (f :: fs)[j]? = some f' → f'.Active → ∃ g ∈ gs, EntryOf (i + j) f' g) ∧
        gs.Pairwise (fun g h => g.offset < h.offset) := by
      intro gs h hna
      obtain ⟨h1, h2, h3⟩ := ih (i + 1) gs h
      refine ⟨fun g hg => ?_, fun j f' hj ha => ?_, h3⟩
      · obtain ⟨j, f', hj, he⟩ := h1 g hg
        exact ⟨j + 1, f', hj, by rw [show i + (j + 1) = i + 1 + j by omega]; exact he⟩
      · cases j with
        | zero => simp at hj; subst hj; exact absurd ha hna
        | succ j =>
          obtain ⟨g, hg, he⟩ := h2 j f' hj ha
          exact ⟨g, hg, by rw [show i + (j + 1) = i + 1 + j by omega]; exact he⟩
    simp only [walkFields] at h
    by_cases he : f.exported = true
    · simp only [he, if_true] at h
      cases ht : f.tag with
      | none =>
        simp only [ht] at h
        exact skip gs h (fun ha => ha.2 ht)
      | some s =>
        simp only [ht, bind, Except.bind, pure, Except.pure, throw, throwThe, MonadExceptOf.throw] at h
        cases hp : parseStructTag s with
        | mk t err =>
          simp only [hp] at h
          cases err with
          | true => simp at h
          | false =>
            simp only [Bool.false_eq_true, if_false] at h
            cases hc : fieldCodec t f.keyTag f.valTag f.ty with
            | error e => simp [hc] at h
            | ok c =>
              simp only [hc] at h
              cases hr : walkFields (i + 1) fs with
              | error e => simp [hr] at h
              | ok rest =>
                simp only [hr, Except.ok.injEq] at h
                subst h
                obtain ⟨h1, h2, h3⟩ := ih (i + 1) rest hr
                have hent : EntryOf i f { offset := i, tag := ⟨t.wiretag, sizeOfVarint t.wiretag⟩, codec := c } :=
                  ⟨rfl, he, s, t, ht, hp, rfl, hc⟩
                refine ⟨fun g hg => ?_, fun j f' hj ha => ?_, ?_⟩
                · rcases List.mem_cons.mp hg with rfl | hg
                  · exact ⟨0, f, rfl, hent⟩
                  · obtain ⟨j, f', hj, he⟩ := h1 g hg
                    exact ⟨j + 1, f', hj, by rw [show i + (j + 1) = i + 1 + j by omega]; exact he⟩
                · cases j with
                  | zero => simp at hj; subst hj; exact ⟨_, List.mem_cons_self, hent⟩
                  | succ j =>
                    obtain ⟨g, hg, he⟩ := h2 j f' hj ha
                    exact ⟨g, List.mem_cons_of_mem _ hg, by rw [show i + (j + 1) = i + 1 + j by omega]; exact he⟩
                · rw [List.pairwise_cons]
                  refine ⟨fun g hg => ?_, h3⟩
                  obtain ⟨j, f', hj, he⟩ := h1 g hg
                  show i < g.offset
                  rw [he.1]; omega
    · simp only [he] at h
      exact skip gs h (fun ha => he ha.1)

/-- The loop succeeds iff every exported, tagged field has a well-formed tag and a supported type. -/
theorem walkFields_ok : ∀ (d : List FieldDecl) (i : Nat),
    (∀ f ∈ d, f.Active → ∃ s t c, f.tag = some s ∧ parseStructTag s = (t, false) ∧ fieldCodec t f.keyTag f.valTag f.ty = .ok c) →
    ∃ gs, walkFields i d = .ok gs := by
  intro d
  induction d with
  | nil => intro i _; exact ⟨[], rfl⟩
  | cons f fs ih =>
    intro i h
    obtain ⟨gs, hgs⟩ := ih (i + 1) fun g hg => h g (by simp [hg])
    by_cases he : f.exported = true
    · cases ht : f.tag with
      | none => exact ⟨gs, by simp only [walkFields, he, if_true, ht, hgs]⟩
      | some s =>
        obtain ⟨s', t, c, h1, h2, h3⟩ := h f (by simp) ⟨he, by rw [ht]; simp⟩
        rw [ht] at h1; cases h1
        exact ⟨{ offset := i, tag := ⟨t.wiretag, sizeOfVarint t.wiretag⟩, codec := c } :: gs,
          by simp [walkFields, he, ht, h2, h3, hgs, bind, Except.bind, pure, Except.pure]⟩
    · exact ⟨gs, by simp only [walkFields, he]; exact hgs⟩

theorem walkStruct_fields {d : StructDecl} {i : TypeInfo} (h : walkStruct d = .ok i) :
    walkFields 0 d = .ok i.fields ∧ i.zero = zeroStruct d := by
  simp only [walkStruct, bind, Except.bind, pure, Except.pure] at h
  cases hw : walkFields 0 d with
  | error e => simp [hw] at h
  | ok gs => simp only [hw, Except.ok.injEq] at h; subst h; exact ⟨rfl, rfl⟩

/-- A supported field declaration is accepted. -/
theorem declOK_ok {f : FieldDecl} (h : DeclOK f) : ∃ s t c n e z rp, f.tag = some s ∧ parseStructTag s = (t, false) ∧
    fieldCodec t f.keyTag f.valTag f.ty = .ok c ∧ SaysTag s e (n : Nat) rp z ∧ keyNumber t.wiretag = n ∧
    c.shape = f.ty.shape ∧ c.WF ∧ c.TagsOK ∧ c.Writes (keyType t.wiretag) ∧ c.Supported t.wiretag := by
  obtain ⟨s, e, n, rp, z, h1, h2, h3, h4, h5⟩ := h
  obtain ⟨k, rfl⟩ := Int.eq_ofNat_of_zero_le h3
  have hp := parseStructTag_of_says h2
  have hw := saysTag_wire h2
  have hq := wiretag_parts { wireType := e, fieldNumber := BitVec.ofInt 64 k, repeated := rp, zigzag := z } k (by omega)
    (by simp) (by simp only; omega)
  obtain ⟨c, c1, c2, c3, c4, c5, c6⟩ := fieldCodec_ok
    (t := { wireType := e, fieldNumber := BitVec.ofInt 64 k, repeated := rp, zigzag := z }) h5 hq.2
  refine ⟨s, _, c, k, e, z, rp, h1, hp, c1, h2, hq.1, c2, c3, c4, ?_, c6⟩
  rw [hq.2]; exact c5

theorem walkStruct_ok {d : StructDecl} (h : StructOK d) : ∃ i, walkStruct d = .ok i := by
  obtain ⟨gs, hgs⟩ := walkFields_ok d 0 fun f hf ha => by
    obtain ⟨s, t, c, n, e, z, rp, h1, h2, h3, _⟩ := declOK_ok (h.fields f hf ha)
    exact ⟨s, t, c, h1, h2, h3⟩
  exact ⟨⟨gs, zeroStruct d⟩, by simp only [walkStruct, hgs, bind, Except.bind, pure, Except.pure]⟩

theorem entry_declOK {i : Nat} {f : FieldDecl} {g : Field} (h : EntryOf i f g) (hd : DeclOK f) :
    ∃ n : Nat, Says f n ∧ keyNumber g.tag.wiretag = n ∧ g.tag.OK ∧ g.codec.shape = f.ty.shape ∧ g.codec.WF ∧
      g.codec.TagsOK ∧ g.codec.Writes (keyType g.tag.wiretag) ∧ g.codec.Supported g.tag.wiretag := by
  obtain ⟨_, _, s, t, h1, h2, h3, h4⟩ := h
  obtain ⟨s', t', c, n, e, z, rp, k1, k2, k3, k4, k5, k6, k7, k8, k9, k10⟩ := declOK_ok hd
  rw [h1] at k1; cases k1
  rw [h2] at k2; cases k2
  rw [h4] at k3; cases k3
  rw [h3]
  exact ⟨n, ⟨s, e, rp, z, h1, k4⟩, k5, rfl, k6, k7, k8, k9, k10⟩

/-- Supported programs have supported type infos. -/
theorem good_of_program {D : Decls} (h : ProgramOK D) : Good (layoutOf D) (envOf D) := by
  have key : ∀ t, ∃ i, walkStruct (D t) = .ok i ∧ envOf D t = i := by
    intro t
    obtain ⟨i, hi⟩ := walkStruct_ok (h t)
    exact ⟨i, hi, by simp only [envOf, hi]⟩
  have ent : ∀ t, ∀ g ∈ (envOf D t).fields, ∃ j f, (D t)[j]? = some f ∧ EntryOf j f g ∧ DeclOK f := by
    intro t g hg
    obtain ⟨i, hi, he⟩ := key t
    rw [he] at hg
    obtain ⟨h1, h2⟩ := walkStruct_fields hi
    obtain ⟨j, f, hj, hE⟩ := (walkFields_spec _ _ _ h1).1 g hg
    rw [Nat.zero_add] at hE
    refine ⟨j, f, hj, hE, (h t).fields f (List.mem_of_getElem? hj) ⟨hE.2.1, ?_⟩⟩
    obtain ⟨_, _, s, _, hs, _⟩ := hE
    rw [hs]; simp
  refine ⟨⟨fun t => ?_, fun t g hg => ?_, fun t g hg => ?_⟩, fun t g hg => ?_, fun t g hg => ?_, fun t g hg => ?_, fun t => ?_⟩
  · obtain ⟨i, hi, he⟩ := key t
    rw [he, (walkStruct_fields hi).2, zeroStruct_layout]
  · obtain ⟨j, f, hj, hE, hd⟩ := ent t g hg
    obtain ⟨n, _, _, _, hs, _⟩ := entry_declOK hE hd
    rw [hE.1, hs]
    simp [layoutOf, hj]
  · obtain ⟨j, f, hj, hE, hd⟩ := ent t g hg
    obtain ⟨n, _, _, _, _, hw, _⟩ := entry_declOK hE hd
    exact hw
  · obtain ⟨j, f, hj, hE, hd⟩ := ent t g hg
    obtain ⟨n, _, _, h1, _, _, h2, _⟩ := entry_declOK hE hd
    exact ⟨h1, h2⟩
  · obtain ⟨j, f, hj, hE, hd⟩ := ent t g hg
    obtain ⟨n, _, _, _, _, _, _, h1, _⟩ := entry_declOK hE hd
    exact h1
  · obtain ⟨j, f, hj, hE, hd⟩ := ent t g hg
    obtain ⟨n, _, _, _, _, _, _, _, h1⟩ := entry_declOK hE hd
    exact h1
  · obtain ⟨i, hi, he⟩ := key t
    have hp := (walkFields_spec _ _ _ (walkStruct_fields hi).1).2.2
    rw [← he] at hp
    refine hp.imp_of_mem fun {g g'} hg hg' hlt => ⟨by omega, ?_⟩
    obtain ⟨j, f, hj, hE, hd⟩ := ent t g hg
    obtain ⟨j', f', hj', hE', hd'⟩ := ent t g' hg'
    obtain ⟨n, hn, hn', _⟩ := entry_declOK hE hd
    obtain ⟨m, hm, hm', _⟩ := entry_declOK hE' hd'
    rw [hn', hm']
    have hlt' : j < j' := by rw [hE.1, hE'.1] at hlt; exact hlt
    obtain ⟨hl, e1⟩ := List.getElem?_eq_some_iff.mp hj
    obtain ⟨hl', e2⟩ := List.getElem?_eq_some_iff.mp hj'
    have := List.pairwise_iff_getElem.mp (h t).numbers j j' hl hl' hlt'
    rw [e1, e2] at this
    have act : ∀ {j : Nat} {f : FieldDecl} {g : Field}, EntryOf j f g → f.Active := by
      rintro j f g ⟨_, h1, s, _, h2, _⟩
      exact ⟨h1, by rw [h2]; simp⟩
    have hne := this (act hE) (act hE') n m hn hm
    omega

end Pb
