import Verif.Spec.ProtoEvolve
import Verif.Proofs.Generator
import Verif.Proofs.Evolve
/-
Compatible .proto files become compatible type infos.
-/
namespace Pb
open Spec

/-- What fields of a type hold. -/
inductive ContentIs : Kind → Content → Prop
  | scalar (k s) : KindIs k s → ContentIs k s.content
  | bytes : ContentIs .bytes .bytes
  | message (t) : ContentIs (.message t) (.msg t)

theorem kindIs_unique {k : Kind} {s s' : Scalar} (h : KindIs k s) (h' : KindIs k s') : s = s' := by
  cases h <;> cases h' <;> rfl

theorem codecV_content {k : Kind} (hk : SingularKind k) {e : Nat} {z r : Bool} {T : GoType} {c : Codec} (h : CodecV e z r T c)
    (he : e = kindWire k) (hz : z = kindZigzag k) (hT : T = kindGoType k) : ContentIs k c.content := by
  subst he hz
  cases h with
  | normal _ s h => subst hT; exact .scalar _ _ (means_kindIs h)
  | required _ s h => subst hT; exact .scalar _ _ (means_kindIs h)
  | bytes _ _ =>
    cases hk with
    | scalar _ s hs => cases hs <;> cases hT
    | bytes => exact .bytes
    | message => cases hT
  | msg _ t _ =>
    cases hk with
    | scalar _ s hs => cases hs <;> cases hT
    | bytes => cases hT
    | message => cases hT; exact .message _
  | ptr _ T zero c hn _ =>
    cases hk with
    | scalar _ s hs => cases hs <;> cases hT
    | bytes => cases hT
    | message t => cases hT; exact absurd rfl (hn t)

theorem compatible_of {R : TypeId → TypeId → Prop} {k k' : Kind} {a b : Content} (h : KindCompatible R k k')
    (ha : ContentIs k a) (hb : ContentIs k' b) : Compatible R a b := by
  have text : ∀ {k a}, TextKind k → ContentIs k a → a = .bytes := by
    intro k a h ha
    rcases h with rfl | rfl
    · cases ha with | scalar _ s hs => cases hs; rfl
    · cases ha with
      | scalar _ s hs => cases hs
      | bytes => rfl
  cases h with
  | scalar _ s _ s' hs hs' hc =>
    cases ha with
    | scalar _ s1 h1 =>
      cases hb with
      | scalar _ s2 h2 =>
        cases kindIs_unique hs h1
        cases kindIs_unique hs' h2
        by_cases e : s = .string
        · subst e
          have : s' = .string := by
            cases hc with
            | same => rfl
            | int _ h1 h2 => simp [IntType] at h1
            | zigzag _ h1 h2 => simp [ZigzagType] at h1
            | bits32 _ h1 h2 => simp [Type32] at h1
            | bits64 _ h1 h2 => simp [Type64] at h1
          subst this
          exact .bytes
        · by_cases e' : s' = .string
          · subst e'
            cases hc with
            | same => exact .bytes
            | int _ h1 h2 => simp [IntType] at h2
            | zigzag _ h1 h2 => simp [ZigzagType] at h2
            | bits32 _ h1 h2 => simp [Type32] at h2
            | bits64 _ h1 h2 => simp [Type64] at h2
          · simp only [Scalar.content, e, e', if_false]
            exact .scalar _ _ hc
      | bytes => cases hs'
      | message => cases hs'
    | bytes => cases hs
    | message => cases hs
  | text _ _ h1 h2 => rw [text h1 ha, text h2 hb]; exact .bytes
  | message t t' h =>
    cases ha with
    | scalar _ s hs => cases hs
    | message =>
      cases hb with
      | scalar _ s hs => cases hs
      | message => exact .msg _ _ h

theorem sameReader_content {c d : Codec} (h : SameReader c d) : c.content = d.content := by
  induction h with
  | refl => rfl
  | normal => rfl
  | ptr z c d _ ih => exact ih

/-- What the fields generated for a .proto field hold. -/
inductive FieldContent : ProtoField → Content → Prop
  | plain (f a) : NoMap f → ContentIs f.kind a → FieldContent f a
  | map (f key i kc vc kd vd) : f.label = .map key → keyNumber i.key.wiretag = 1 → keyType i.key.wiretag = kindWire key →
      keyNumber i.val.wiretag = 2 → keyType i.val.wiretag = kindWire f.kind → i.eKey = i.key.wiretag → i.eVal = i.val.wiretag →
      ContentIs key kc.content → ContentIs f.kind vc.content → ContentIs key kd.content → ContentIs f.kind vd.content →
      FieldContent f (.map i kc vc kd vd)

theorem kind_wire_eq {R : TypeId → TypeId → Prop} {k k' : Kind} (h : KindCompatible R k k') : kindWire k = kindWire k' := by
  cases h with
  | scalar _ s _ s' hs hs' hc =>
    have hw : s.wire = s'.wire := by
      cases hc with
      | same => rfl
      | int _ h1 h2 => rcases h1 with rfl | rfl | rfl | rfl | rfl <;> rcases h2 with rfl | rfl | rfl | rfl <;> rfl
      | zigzag _ h1 h2 => rcases h1 with rfl | rfl <;> rcases h2 with rfl | rfl <;> rfl
      | bits32 _ h1 h2 => rcases h1 with rfl | rfl <;> rcases h2 with rfl | rfl <;> rfl
      | bits64 _ h1 h2 => rcases h1 with rfl | rfl <;> rcases h2 with rfl | rfl <;> rfl
    rw [means_wire (kindIs_means hs), means_wire (kindIs_means hs'), hw]
  | text _ _ h1 h2 => rcases h1 with rfl | rfl <;> rcases h2 with rfl | rfl <;> rfl
  | message => rfl

theorem fieldContent_compatible {R : TypeId → TypeId → Prop} {f f' : ProtoField} {a b : Content} (h : FieldCompatible R f f')
    (ha : FieldContent f a) (hb : FieldContent f' b) : Compatible R a b := by
  cases h with
  | plain h1 h2 h3 =>
    cases ha with
    | plain _ _ ha =>
      cases hb with
      | plain _ _ hb => exact compatible_of h3 ha hb
      | map key _ _ _ _ _ e => exact absurd e (h2 _)
    | map key _ _ _ _ _ e => exact absurd e (h1 _)
  | map key key' h1 h2 h3 h4 =>
    cases ha with
    | plain _ h _ => exact absurd h1 (h _)
    | map key i kc vc kd vd e n1 w1 n2 w2 q1 q2 c1 c2 c3 c4 =>
      rw [h1] at e; cases e
      cases hb with
      | plain _ h _ => exact absurd h2 (h _)
      | map key i' kc' vc' kd' vd' e n1' w1' n2' w2' q1' q2' c1' c2' c3' c4' =>
        rw [h2] at e; cases e
        refine .map _ _ _ _ _ _ _ _ _ _ ?_ ?_ ?_ ?_ (compatible_of h3 c1 c3') (compatible_of h4 c2 c4')
        · rw [q1', n1, n1']
        · rw [q1', w1, w1', kind_wire_eq h3]
        · rw [q2', n2, n2']
        · rw [q2', w2, w2', kind_wire_eq h4]

theorem key_parts {w : U64} {n e : Nat} (h : w.toNat = 8 * n + e) (he : e < 8) : keyNumber w = n ∧ keyType w = e := by
  simp only [keyNumber, keyType]
  omega

theorem kindWire_lt (k : Kind) : kindWire k < 8 := by cases k <;> simp [kindWire]

theorem fieldContent_of {tr : Bool} {f : ProtoField} (h : Handled f) {e : Nat} {z : Bool} {kt vt : Text} {T : FieldType} {w : U64} {c : Codec}
    (hc : CodecF e z kt vt T c) (hs : c.Supported w) (he : e = fieldWire f) (hz : z = fieldZigzag f) (hT : T = (genField tr f).ty)
    (hkt : kt = (genField tr f).keyTag) (hvt : vt = (genField tr f).valTag) : FieldContent f c.content := by
  cases h with
  | implicit n k hk =>
    have e2 : (fieldGoType ⟨n, k, .implicit⟩).2 = false := by
      cases hk with
      | scalar _ s hs => cases hs <;> rfl
      | bytes => rfl
      | message => rfl
    rw [genField_ty, e2] at hT
    simp only [Bool.false_eq_true, if_false] at hT
    have hT' : T = .ty (kindGoType k) := hT
    subst hT'
    refine .plain _ _ (by intro key h; cases h) ?_
    generalize hq : kindGoType k = Q at hc
    cases hc with
    | value _ _ hv => exact codecV_content hk hv he hz hq.symm
    | slice T' zero c' hv =>
      have := codecV_not_uint8 hv
      cases k <;> simp [kindGoType] at hq
      exact absurd hq.symm this
    | map => cases k <;> simp [kindGoType] at hq
  | optional n k hk =>
    refine .plain _ _ (by intro key h; cases h) ?_
    cases hk with
    | scalar _ s hks =>
      have hT' : T = .opt (optBaseOf (kindGoType k)) := by
        rw [hT, genField_ty]
        simp [fieldGoType, ProtoField.hasPresence, (kindIs_opt hks).2]
      subst hT'
      cases hc with
      | option _ s' hm =>
        rw [(kindIs_opt hks).1] at hm
        subst he hz
        exact .scalar _ _ (means_kindIs hm)
    | bytes =>
      have hT' : T = .ty (.slice .uint8) := hT
      subst hT'
      cases hc with
      | value _ _ hv => exact codecV_content .bytes hv he hz rfl
      | slice _ _ _ hv => exact absurd rfl (codecV_not_uint8 hv)
    | message t =>
      have hT' : T = .ty (.ptr (.named t)) := hT
      subst hT'
      cases hc with
      | value _ _ hv => exact codecV_content (.message t) hv he hz rfl
  | repeated n k hk =>
    refine .plain _ _ (by intro key h; cases h) ?_
    obtain ⟨hk, _, _⟩ := hk
    have hT' : T = .ty (.slice (kindGoType k)) := hT
    subst hT'
    cases hc with
    | value _ _ hv =>
      have hu : kindGoType k ≠ .uint8 := by cases k <;> simp [kindGoType]
      generalize kindGoType k = Q at hv hu
      cases hv with
      | normal _ s hm => cases hm
      | bytes => exact absurd rfl hu
    | slice _ _ c hv => exact (codecV_content hk hv he hz rfl : ContentIs k c.content)
  | map n k key hkey hk =>
    have hT' : T = .ty (.map (kindGoType key) (kindGoType k)) := hT
    subst hT'
    obtain ⟨e1, e2⟩ := genField_keyTag tr ⟨n, k, .map key⟩ key rfl
    rw [e1] at hkt
    rw [e2] at hvt
    subst hkt hvt
    have hks := entry_says 1 key (mapKeyKind_singular hkey) (by decide)
    have hvk : SingularKind k := by obtain ⟨⟨h, _, _⟩, _, _⟩ := hk; exact h
    have hvs := entry_says 2 k hvk (by decide)
    cases hc with
    | value _ _ hv => cases hv with | normal _ s hm => cases hm
    | map _ _ ke kn kp ve vn vp i kc vc kd vd _ s1 s2 w1 w2 c1 c2 =>
      obtain ⟨rfl, h1, _, hz1⟩ := Sample.says_unique s1 hks
      obtain ⟨rfl, h2, _, hz2⟩ := Sample.says_unique s2 hvs
      obtain ⟨_, q1, q2, _, _, _, r1, r2⟩ := hs
      have p1 := key_parts w1 (kindWire_lt _)
      have p2 := key_parts w2 (kindWire_lt _)
      have k1 := codecV_content (mapKeyKind_singular hkey) c1 rfl hz1 rfl
      have k2 := codecV_content hvk c2 rfl hz2 rfl
      exact .map _ key _ _ _ _ _ rfl (by omega) p1.2 (by omega) p2.2 q1 q2 k1 k2 (sameReader_content r1 ▸ k1)
        (sameReader_content r2 ▸ k2)

/-- The type info of a generated message has entries for its fields only. -/
theorem genEntry {P : Protos} (h : ProtosOK P) {tracked : TypeId → Bool} {name : TypeId → Nat → Text}
    (hn : ∀ t i, PlainText (name t i)) {t : TypeId} {g : Field} (hg : g ∈ (envOf (genProgram tracked name P) t).fields) :
    ∃ f ∈ P t, ¬ InOneof f ∧ keyNumber g.tag.wiretag = f.number ∧ FieldContent f g.codec.content := by
  have hp := genProgram_ok h tracked name hn
  have hs := (good_of_program hp).supported t g hg
  obtain ⟨i, hi⟩ := walkStruct_ok (hp t)
  have he : envOf (genProgram tracked name P) t = i := by simp only [envOf, hi]
  rw [he] at hg
  obtain ⟨j, d, hj, hE⟩ := (walkFields_spec _ _ _ (walkStruct_fields hi).1).1 g hg
  have hmem := List.mem_of_getElem? hj
  have hact : d.Active := by
    obtain ⟨_, h5, s, t', h6, _⟩ := hE
    exact ⟨h5, by simp [h6]⟩
  obtain ⟨f, hf, ho, rfl⟩ := genMessage_mem (hn t) hmem hact
  obtain ⟨s, e, n, c, z, k1, k2, k3, k4⟩ := entry_codecF hE ((hp t).fields _ hmem hact)
  have hh := h.handled t f hf ho
  have hr := (h.numbers t).range f hf
  rw [genField_tag] at k1
  cases k1
  obtain ⟨rfl, e2, _, rfl⟩ := Sample.says_unique k2 (handled_says hh hr.2)
  have hw : fieldWire f < 8 := by
    simp only [fieldWire]; split
    · decide
    · exact kindWire_lt _
  exact ⟨f, hf, ho, by rw [(key_parts k3 hw).1]; omega, fieldContent_of hh k4 hs rfl rfl rfl rfl rfl⟩

theorem versions_of {P P' : Protos} (h : ProtosOK P) (h' : ProtosOK P') {R : TypeId → TypeId → Prop} (hv : ProtoVersions P P' R)
    {tracked tracked' : TypeId → Bool} {name name' : TypeId → Nat → Text} (hn : ∀ t i, PlainText (name t i))
    (hn' : ∀ t i, PlainText (name' t i)) :
    Versions (envOf (genProgram tracked name P)) (envOf (genProgram tracked' name' P')) R := by
  intro t t' ht g hg g' hg' hnum
  obtain ⟨f, hf, ho, e1, hc⟩ := genEntry h hn hg
  obtain ⟨f', hf', ho', e2, hc'⟩ := genEntry h' hn' hg'
  exact fieldContent_compatible (hv t t' ht f hf f' hf' ho ho' (by rw [← e1, ← e2, hnum])) hc hc'

end Pb
