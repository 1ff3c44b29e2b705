import Verif.Spec.Abstract
import Verif.Proofs.ProtoEvolve
/-
The library as a reader and writer of abstract messages.
-/
namespace Pb
open Spec

/-! ### Generated codecs -/

/-- Codecs of values of a type. -/
inductive ElemCodec : Kind → Codec → Prop
  | normal (k s) : KindIs k s → ElemCodec k (.normal s)
  | required (k s) : KindIs k s → ElemCodec k (.required s)
  | bytes : ElemCodec .bytes .bytes
  | message (t) : ElemCodec (.message t) (.msg t)

/-- Codecs of fields. -/
inductive GenCodec : Label → Kind → Codec → Prop
  | implicit (k c) : ElemCodec k c → GenCodec .implicit k c
  | option (k s) : KindIs k s → GenCodec .optional k (.option s)
  | optional (k c) : (∀ s, ¬ KindIs k s) → ElemCodec k c → GenCodec .optional k c
  | repeated (k z c) : ElemCodec k c → GenCodec .repeated k (.slice z c)
  | map (key k i kc vc kd vd) : MapKeyKind key → ElemCodec key kd → ElemCodec k vd → keyNumber i.eKey = 1 →
      keyType i.eKey = kindWire key → keyNumber i.eVal = 2 → keyType i.eVal = kindWire k →
      GenCodec (.map key) k (.map i kc vc kd vd)

theorem codecV_elem {k : Kind} (hk : SingularKind k) {e : Nat} {z r : Bool} {T : GoType} {c : Codec} (h : CodecV e z r T c)
    (he : e = kindWire k) (hz : z = kindZigzag k) (hT : T = kindGoType k) : ElemCodec k c := by
  subst he hz
  cases h with
  | normal _ s h => subst hT; exact .normal _ _ (means_kindIs h)
  | required _ s h => subst hT; exact .required _ _ (means_kindIs h)
  | bytes _ _ =>
    cases hk with
    | scalar _ s hs => cases hs <;> cases hT
    | bytes => exact .bytes
    | message => cases hT
  | msg _ t _ =>
    cases hk with
    | scalar _ s hs => cases hs <;> cases hT
    | bytes => cases hT
    | message => cases hT; exact .message _
  | ptr _ T zero c hn _ =>
    cases hk with
    | scalar _ s hs => cases hs <;> cases hT
    | bytes => cases hT
    | message t => cases hT; exact absurd rfl (hn t)

theorem sameReader_elemCodec {k : Kind} {c d : Codec} (h : SameReader c d) (hc : ElemCodec k c) : ElemCodec k d := by
  cases h with
  | refl => exact hc
  | normal s => cases hc; exact .normal _ _ (by assumption)
  | ptr => cases hc

theorem genCodec_of {tr : Bool} {f : ProtoField} (h : Handled f) {e : Nat} {z : Bool} {kt vt : Text} {T : FieldType} {w : U64} {c : Codec}
    (hc : CodecF e z kt vt T c) (hs : c.Supported w) (he : e = fieldWire f) (hz : z = fieldZigzag f) (hT : T = (genField tr f).ty)
    (hkt : kt = (genField tr f).keyTag) (hvt : vt = (genField tr f).valTag) : GenCodec f.label f.kind c := by
  cases h with
  | implicit n k hk =>
    have e2 : (fieldGoType ⟨n, k, .implicit⟩).2 = false := by
      cases hk with
      | scalar _ s hs => cases hs <;> rfl
      | bytes => rfl
      | message => rfl
    rw [genField_ty, e2] at hT
    simp only [Bool.false_eq_true, if_false] at hT
    have hT' : T = .ty (kindGoType k) := hT
    subst hT'
    refine .implicit _ _ ?_
    generalize hq : kindGoType k = Q at hc
    cases hc with
    | value _ _ hv => exact codecV_elem hk hv he hz hq.symm
    | slice T' zero c' hv =>
      have := codecV_not_uint8 hv
      cases k <;> simp [kindGoType] at hq
      exact absurd hq.symm this
    | map => cases k <;> simp [kindGoType] at hq
  | optional n k hk =>
    cases hk with
    | scalar _ s hks =>
      have hT' : T = .opt (optBaseOf (kindGoType k)) := by
        rw [hT, genField_ty]
        simp [fieldGoType, ProtoField.hasPresence, (kindIs_opt hks).2]
      subst hT'
      cases hc with
      | option _ s' hm =>
        rw [(kindIs_opt hks).1] at hm
        subst he hz
        exact .option _ _ (means_kindIs hm)
    | bytes =>
      have hT' : T = .ty (.slice .uint8) := hT
      subst hT'
      refine .optional _ _ (by intro s h; cases h) ?_
      cases hc with
      | value _ _ hv => exact codecV_elem .bytes hv he hz rfl
      | slice _ _ _ hv => exact absurd rfl (codecV_not_uint8 hv)
    | message t =>
      have hT' : T = .ty (.ptr (.named t)) := hT
      subst hT'
      refine .optional _ _ (by intro s h; cases h) ?_
      cases hc with
      | value _ _ hv => exact codecV_elem (.message t) hv he hz rfl
  | repeated n k hk =>
    obtain ⟨hk, _, _⟩ := hk
    have hT' : T = .ty (.slice (kindGoType k)) := hT
    subst hT'
    cases hc with
    | value _ _ hv =>
      have hu : kindGoType k ≠ .uint8 := by cases k <;> simp [kindGoType]
      generalize kindGoType k = Q at hv hu
      cases hv with
      | normal _ s hm => cases hm
      | bytes => exact absurd rfl hu
    | slice _ _ c hv => exact .repeated _ _ _ (codecV_elem hk hv he hz rfl)
  | map n k key hkey hk =>
    have hT' : T = .ty (.map (kindGoType key) (kindGoType k)) := hT
    subst hT'
    obtain ⟨e1, e2⟩ := genField_keyTag tr ⟨n, k, .map key⟩ key rfl
    rw [e1] at hkt
    rw [e2] at hvt
    subst hkt hvt
    have hks := entry_says 1 key (mapKeyKind_singular hkey) (by decide)
    have hvk : SingularKind k := by obtain ⟨⟨h, _, _⟩, _, _⟩ := hk; exact h
    have hvs := entry_says 2 k hvk (by decide)
    cases hc with
    | value _ _ hv => cases hv with | normal _ s hm => cases hm
    | map _ _ ke kn kp ve vn vp i kc vc kd vd _ s1 s2 w1 w2 c1 c2 =>
      obtain ⟨rfl, h1, _, hz1⟩ := Sample.says_unique s1 hks
      obtain ⟨rfl, h2, _, hz2⟩ := Sample.says_unique s2 hvs
      obtain ⟨_, q1, q2, _, _, _, r1, r2⟩ := hs
      have p1 := key_parts w1 (kindWire_lt _)
      have p2 := key_parts w2 (kindWire_lt _)
      have k1 := codecV_elem (mapKeyKind_singular hkey) c1 rfl hz1 rfl
      have k2 := codecV_elem hvk c2 rfl hz2 rfl
      refine .map _ _ _ _ _ _ _ hkey (sameReader_elemCodec r1 k1) (sameReader_elemCodec r2 k2) ?_ ?_ ?_ ?_
      · rw [q1, p1.1]; omega
      · rw [q1, p1.2]
      · rw [q2, p2.1]; omega
      · rw [q2, p2.2]

/-- What is used of the generated type infos. -/
structure GenEnv (P : Protos) (L : Layout) (env : Env) : Prop where
  good : Good L env
  numbers : ∀ t, NumbersOK (P t)
  entry : ∀ t (i : Nat) f, (P t)[i]? = some f → ∃ g ∈ (env t).fields, g.offset = i ∧ keyNumber g.tag.wiretag = f.number ∧
    keyType g.tag.wiretag = fieldWire f ∧ GenCodec f.label f.kind g.codec
  only : ∀ t, ∀ g ∈ (env t).fields, ∃ f ∈ P t, keyNumber g.tag.wiretag = f.number

theorem genFields_get {tracked : Bool} {name : Nat → Text} : ∀ (m : ProtoMessage) (seen : List Nat), (∀ f ∈ m, ¬ InOneof f) →
    genFields tracked name seen m = m.map (genField tracked)
  | [], seen, _ => rfl
  | f :: fs, seen, h => by
    have hf := h f (by simp)
    have ih := genFields_get (tracked := tracked) (name := name) fs seen fun g hg => h g (by simp [hg])
    rw [genFields]
    split
    · rename_i i hi; exact absurd ⟨i, hi⟩ hf
    · rw [ih]; rfl

theorem genEnv_of {P : Protos} (h : ProtosOK P) (hno : NoOneofs P) {tracked : TypeId → Bool} {name : TypeId → Nat → Text}
    (hn : ∀ t i, PlainText (name t i)) : GenEnv P (layoutOf (genProgram tracked name P)) (envOf (genProgram tracked name P)) where
  good := good_of_program (genProgram_ok h tracked name hn)
  numbers := h.numbers
  only t g hg := by
    obtain ⟨f, hf, _, e, _⟩ := genEntry h hn hg
    exact ⟨f, hf, e⟩
  entry t j f hj := by
    have hp := genProgram_ok h tracked name hn
    obtain ⟨i, hi⟩ := walkStruct_ok (hp t)
    have he : envOf (genProgram tracked name P) t = i := by simp only [envOf, hi]
    have hd : (genProgram tracked name P t)[j]? = some (genField (tracked t) f) := by
      show (genMessage (tracked t) (name t) (P t))[j]? = _
      rw [genMessage, genFields_get _ _ (hno t)]
      have hlt : j < ((P t).map (genField (tracked t))).length := by
        have := (List.getElem?_eq_some_iff.mp hj).1
        simpa using this
      rw [List.getElem?_append_left hlt, List.getElem?_map, hj]
      rfl
    have hact := genField_active (tracked t) f
    obtain ⟨g, hg, hE⟩ := (walkFields_spec _ _ _ (walkStruct_fields hi).1).2.1 j _ hd hact
    have hmem := List.mem_of_getElem? hd
    have hf := List.mem_of_getElem? hj
    have hs := (good_of_program hp).supported t g (he ▸ hg)
    obtain ⟨s, e, n, c, z, k1, k2, k3, k4⟩ := entry_codecF hE ((hp t).fields _ hmem hact)
    have hh := h.handled t f hf (hno t f hf)
    have hr := (h.numbers t).range f hf
    rw [genField_tag] at k1
    cases k1
    obtain ⟨rfl, e2, _, rfl⟩ := Sample.says_unique k2 (handled_says hh hr.2)
    have hw : fieldWire f < 8 := by
      simp only [fieldWire]; split
      · decide
      · exact kindWire_lt _
    refine ⟨g, he ▸ hg, ?_, by rw [(key_parts k3 hw).1]; omega, (key_parts k3 hw).2, genCodec_of hh k4 hs rfl rfl rfl rfl rfl⟩
    have := hE.1
    omega

theorem declared_of {P : Protos} {L : Layout} {env : Env} (hg : GenEnv P L env) {t : TypeId} {g : Field} (h : g ∈ (env t).fields) :
    Declared (env t).fields (keyNumber g.tag.wiretag) g := by
  obtain ⟨xs, ys, e⟩ := List.append_of_mem h
  refine ⟨xs, ys, e, rfl, fun g' hg' => ?_⟩
  have := hg.good.distinct t
  rw [e, List.pairwise_append] at this
  exact fun e' => ((List.pairwise_cons.mp this.2.1).1 g' hg').2 e'.symm

/-! ### Scalars -/

theorem bmod_ofNat (w n : Nat) : (BitVec.ofNat w n).toInt = (n : Int).bmod (2 ^ w) := by
  rw [BitVec.toInt_eq_toNat_bmod, BitVec.toNat_ofNat, Int.natCast_emod, Int.emod_bmod]

theorem denotes_reads {k : Kind} {s : Scalar} (hk : KindIs k s) {data : Bytes} {p : PVal} (h : Denotes k data p) :
    ∃ v, ReadsAs s data v ∧ ScalarIs k v p := by
  cases hk with
  | bool => cases h with | bool _ n h => exact ⟨_, .bool _ n h, .bool _⟩
  | enum =>
    cases h with
    | enum _ n h => exact ⟨_, .int32 _ n h, by have := ScalarIs.enum (BitVec.ofNat 32 n); rwa [bmod_ofNat] at this⟩
  | int32 =>
    cases h with
    | int32 _ n h => exact ⟨_, .int32 _ n h, by have := ScalarIs.int32 (BitVec.ofNat 32 n); rwa [bmod_ofNat] at this⟩
  | int64 =>
    cases h with
    | int64 _ n h => exact ⟨_, .int64 _ n h, by have := ScalarIs.int64 (BitVec.ofNat 64 n); rwa [bmod_ofNat] at this⟩
  | uint32 =>
    cases h with
    | uint32 _ n h => exact ⟨_, .uint32 _ n h, by have := ScalarIs.uint32 (BitVec.ofNat 32 n); simpa using this⟩
  | uint64 =>
    cases h with
    | uint64 _ n h =>
      refine ⟨_, .uint64 _ n h, ?_⟩
      have := ScalarIs.uint64 (BitVec.ofNat 64 n)
      rwa [BitVec.toNat_ofNat, Nat.mod_eq_of_lt h.3] at this
  | sint32 =>
    cases h with
    | sint32 _ n h =>
      exact ⟨_, .zigzag32 _ n h, by have := ScalarIs.sint32 (BitVec.ofInt 32 (unzigzag n)); rwa [BitVec.toInt_ofInt] at this⟩
  | sint64 =>
    cases h with
    | sint64 _ n h =>
      refine ⟨_, .zigzag64 _ n h, ?_⟩
      have := ScalarIs.sint64 (BitVec.ofInt 64 (unzigzag n))
      rw [BitVec.toInt_ofInt] at this
      have e : (unzigzag n).bmod (2 ^ 64) = unzigzag n := by
        have := h.3
        apply Int.bmod_eq_of_le <;> simp only [unzigzag] <;> split <;> omega
      rwa [e] at this
  | fixed32 =>
    cases h with
    | fixed32 n h =>
      refine ⟨.w32 (BitVec.ofNat 32 n), ?_, ?_⟩
      · have := ReadsAs.fixed32 (BitVec.ofNat 32 n); rwa [BitVec.toNat_ofNat, Nat.mod_eq_of_lt h] at this
      · have := ScalarIs.fixed32 (BitVec.ofNat 32 n); rwa [BitVec.toNat_ofNat, Nat.mod_eq_of_lt h] at this
  | fixed64 =>
    cases h with
    | fixed64 n h =>
      refine ⟨.w64 (BitVec.ofNat 64 n), ?_, ?_⟩
      · have := ReadsAs.fixed64 (BitVec.ofNat 64 n); rwa [BitVec.toNat_ofNat, Nat.mod_eq_of_lt h] at this
      · have := ScalarIs.fixed64 (BitVec.ofNat 64 n); rwa [BitVec.toNat_ofNat, Nat.mod_eq_of_lt h] at this
  | float =>
    cases h with
    | float n h =>
      refine ⟨.w32 (BitVec.ofNat 32 n), ?_, ?_⟩
      · have := ReadsAs.float32 (BitVec.ofNat 32 n); rwa [BitVec.toNat_ofNat, Nat.mod_eq_of_lt h] at this
      · have := ScalarIs.float (BitVec.ofNat 32 n); rwa [BitVec.toNat_ofNat, Nat.mod_eq_of_lt h] at this
  | double =>
    cases h with
    | double n h =>
      refine ⟨.w64 (BitVec.ofNat 64 n), ?_, ?_⟩
      · have := ReadsAs.float64 (BitVec.ofNat 64 n); rwa [BitVec.toNat_ofNat, Nat.mod_eq_of_lt h] at this
      · have := ScalarIs.double (BitVec.ofNat 64 n); rwa [BitVec.toNat_ofNat, Nat.mod_eq_of_lt h] at this
  | string =>
    cases h with
    | string _ s h => obtain ⟨p, h1, rfl⟩ := h; exact ⟨_, .string p s h1, .string _⟩

theorem reads_denotes {k : Kind} {s : Scalar} (hk : KindIs k s) {data : Bytes} {v : Val} {p : PVal} (h : ReadsAs s data v)
    (hp : ScalarIs k v p) : Denotes k data p := by
  cases hk with
  | bool => cases h with | bool _ n h => cases hp; exact .bool _ n h
  | enum => cases h with | int32 _ n h => cases hp; rw [bmod_ofNat]; exact .enum _ n h
  | int32 => cases h with | int32 _ n h => cases hp; rw [bmod_ofNat]; exact .int32 _ n h
  | int64 => cases h with | int64 _ n h => cases hp; rw [bmod_ofNat]; exact .int64 _ n h
  | uint32 => cases h with | uint32 _ n h => cases hp; rw [BitVec.toNat_ofNat]; exact .uint32 _ n h
  | uint64 =>
    cases h with
    | uint64 _ n h => cases hp; rw [BitVec.toNat_ofNat, Nat.mod_eq_of_lt h.3]; exact .uint64 _ n h
  | sint32 => cases h with | zigzag32 _ n h => cases hp; rw [BitVec.toInt_ofInt]; exact .sint32 _ n h
  | sint64 =>
    cases h with
    | zigzag64 _ n h =>
      cases hp
      have e : (unzigzag n).bmod (2 ^ 64) = unzigzag n := by
        have := h.3
        apply Int.bmod_eq_of_le <;> simp only [unzigzag] <;> split <;> omega
      rw [BitVec.toInt_ofInt, e]; exact .sint64 _ n h
  | fixed32 => cases h with | fixed32 x => cases hp; exact .fixed32 _ x.isLt
  | fixed64 => cases h with | fixed64 x => cases hp; exact .fixed64 _ x.isLt
  | float => cases h with | float32 x => cases hp; exact .float _ x.isLt
  | double => cases h with | float64 x => cases hp; exact .double _ x.isLt
  | string => cases h with | string p s h => cases hp; exact .string _ _ ⟨p, h, rfl⟩

theorem kindIs_bool {k : Kind} {s : Scalar} (hk : KindIs k s) (h : s = .bool) : k = .bool := by
  subst h; cases hk; rfl

theorem bool_kindIs {k : Kind} {s : Scalar} (hk : KindIs k s) (h : k = .bool) : s = .bool := by
  subst h; cases hk; rfl

theorem denotes_scalar {k : Kind} {data : Bytes} {p : PVal} (h : Denotes k data p) (t : TypeId) : k ≠ .message t := by
  cases h <;> simp

theorem scalarIs_not_message {k : Kind} {v : Val} {p : PVal} (h : ScalarIs k v p) (t : TypeId) : k ≠ .message t := by
  cases h <;> simp

theorem scalarIs_not_bytes {k : Kind} {v : Val} {p : PVal} (h : ScalarIs k v p) : k ≠ .bytes := by
  cases h <;> simp

theorem kindIs_scalarIs {k : Kind} {s : Scalar} (hk : KindIs k s) {L : Layout} {v : Val} (hv : Fits L s.shape v) :
    ∃ p, ScalarIs k v p := by
  cases hk <;> cases hv <;> exact ⟨_, by constructor⟩

theorem scalar_zero {k : Kind} {s : Scalar} (hk : KindIs k s) (P : Protos) : ScalarIs k s.shape.zero (newVal P k) := by
  cases hk
  · exact .bool _
  · exact .enum 0#32
  · exact .int32 0#32
  · exact .int64 0#64
  · exact .uint32 0#32
  · exact .uint64 0#64
  · exact .sint32 0#32
  · exact .sint64 0#64
  · exact .fixed32 0#32
  · exact .fixed64 0#64
  · exact .float 0#32
  · exact .double 0#64
  · exact .string _

theorem scalarIs_unique {k : Kind} {v : Val} {p q : PVal} (h : ScalarIs k v p) (h' : ScalarIs k v q) : p = q := by
  cases h <;> cases h' <;> rfl

theorem scalarIs_inj {k : Kind} {v w : Val} {p : PVal} (h : ScalarIs k v p) (h' : ScalarIs k w p) : v = w := by
  have i32 : ∀ {x y : U32}, x.toInt = y.toInt → x = y := fun h => BitVec.eq_of_toInt_eq h
  have i64 : ∀ {x y : U64}, x.toInt = y.toInt → x = y := fun h => BitVec.eq_of_toInt_eq h
  have n32 : ∀ {x y : U32}, (x.toNat : Int) = y.toNat → x = y := fun h => BitVec.eq_of_toNat_eq (by omega)
  have n64 : ∀ {x y : U64}, (x.toNat : Int) = y.toNat → x = y := fun h => BitVec.eq_of_toNat_eq (by omega)
  generalize hq : p = q at h'
  cases h <;> cases h' <;> simp only [PVal.bool.injEq, PVal.int.injEq, PVal.float.injEq, PVal.text.injEq] at hq
  · rw [hq]
  · rw [i32 hq]
  · rw [i32 hq]
  · rw [i64 hq]
  · rw [n32 hq]
  · rw [n64 hq]
  · rw [i32 hq]
  · rw [i64 hq]
  · rw [n32 hq]
  · rw [n64 hq]
  · rw [BitVec.eq_of_toNat_eq hq]
  · rw [BitVec.eq_of_toNat_eq hq]
  · rw [hq]

theorem PKey.val_inj {x y : PKey} (h : x.val = y.val) : x = y := by
  cases x <;> cases y <;> simp [PKey.val] at h <;> rw [h]

theorem mapKey_scalar {key : Kind} (h : MapKeyKind key) : ∃ s, KindIs key s := by
  cases h
  · exact ⟨_, .bool⟩
  · exact ⟨_, .int32⟩
  · exact ⟨_, .int64⟩
  · exact ⟨_, .uint32⟩
  · exact ⟨_, .uint64⟩
  · exact ⟨_, .string⟩

end Pb
