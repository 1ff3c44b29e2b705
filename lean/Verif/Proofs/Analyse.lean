import Verif.Proofs.Accept
import Verif.Spec.SampleDecls
/-
Type analysis as a whole: it succeeds or panics, and handled programs are sane.
-/
namespace Pb
open Spec

theorem walkFields_cases : ∀ (d : List FieldDecl) (i : Nat),
    ((∀ f ∈ d, f.Active → DeclAccepted f) ∧ ∃ gs, walkFields i d = .ok gs) ∨
    ((∃ f ∈ d, f.Active ∧ ¬ DeclAccepted f) ∧ walkFields i d = .error .panic) := by
  intro d
  induction d with
  | nil => intro i; exact .inl ⟨by simp, [], rfl⟩
  | cons f fs ih =>
    intro i
    have skip : ¬ f.Active → walkFields i (f :: fs) = walkFields (i + 1) fs →
        ((∀ g ∈ f :: fs, g.Active → DeclAccepted g) ∧ ∃ gs, walkFields i (f :: fs) = .ok gs) ∨
        ((∃ g ∈ f :: fs, g.Active ∧ ¬ DeclAccepted g) ∧ walkFields i (f :: fs) = .error .panic) := by
      intro ha he
      rw [he]
      rcases ih (i + 1) with ⟨h1, h2⟩ | ⟨⟨g, hg, h1⟩, h2⟩
      · refine .inl ⟨fun g hg hga => ?_, h2⟩
        rcases List.mem_cons.mp hg with rfl | hg
        · exact absurd hga ha
        · exact h1 g hg hga
      · exact .inr ⟨⟨g, by simp [hg], h1⟩, h2⟩
    by_cases he : f.exported = true
    · cases ht : f.tag with
      | none => exact skip (fun h => h.2 ht) (by simp [walkFields, he, ht])
      | some s =>
        have ha : f.Active := ⟨he, by simp [ht]⟩
        cases hp : parseStructTag s with
        | mk t err =>
          cases err with
          | true =>
            refine .inr ⟨⟨f, by simp, ha, ?_⟩, ?_⟩
            · rintro ⟨s', e, n, c, z, h1, h2, _⟩
              rw [ht] at h1; cases h1
              rw [parseStructTag_of_says h2] at hp
              simp at hp
            · simp [walkFields, he, ht, hp, bind, Except.bind, throw, throwThe, MonadExceptOf.throw]
          | false =>
            obtain ⟨e, n, c, z, hs⟩ := says_of_parseStructTag hp
            have hp' := parseStructTag_of_says hs
            rw [hp] at hp'
            simp only [Prod.mk.injEq, and_true] at hp'
            rcases fieldCodec_accepts t f.keyTag f.valTag f.ty with ⟨h1, k, h2⟩ | ⟨h1, h2⟩
            · have hd : DeclAccepted f := ⟨s, e, n, c, z, ht, hs, by rw [hp'] at h1; exact h1⟩
              rcases ih (i + 1) with ⟨h3, gs, h4⟩ | ⟨⟨g, hg, h3⟩, h4⟩
              · refine .inl ⟨fun g hg hga => ?_, { offset := i, tag := ⟨t.wiretag, sizeOfVarint t.wiretag⟩, codec := k } :: gs, ?_⟩
                · rcases List.mem_cons.mp hg with rfl | hg
                  · exact hd
                  · exact h3 g hg hga
                · simp [walkFields, he, ht, hp, h2, h4, bind, Except.bind, pure, Except.pure]
              · exact .inr ⟨⟨g, by simp [hg], h3⟩, by
                  simp [walkFields, he, ht, hp, h2, h4, bind, Except.bind]⟩
            · refine .inr ⟨⟨f, by simp, ha, ?_⟩, ?_⟩
              · rintro ⟨s', e', n', c', z', k1, k2, k3⟩
                rw [ht] at k1; cases k1
                rw [(Sample.says_unique k2 hs).1] at k3
                apply h1
                rw [hp']
                exact k3
              · simp [walkFields, he, ht, hp, h2, bind, Except.bind]
    · exact skip (fun h => he h.1) (by simp [walkFields, he])

theorem means_scalarType {e : Nat} {z : Bool} {T : GoType} {s : Scalar} (h : Means e z T s) : ScalarType T := by
  cases h <;> constructor

theorem valueOK_single {e : Nat} {z : Bool} {T : GoType} (h : ValueOK e z T) : Single T := by
  induction h with
  | scalar T s h _ _ => exact .scalar T (means_scalarType h)
  | bytes _ => exact .bytes
  | msg t _ => exact .msg t
  | ptr T _ _ ih => exact .ptr T ih

theorem pointersSane_nonptr {e : Nat} {T : GoType} (h : ∀ T', T ≠ .ptr T') : PointersSane e T := by
  intro B hB
  cases hB with
  | one => exact absurd rfl (h _)
  | more => exact absurd rfl (h _)

theorem scalarType_nonptr {T : GoType} (h : ScalarType T) (T' : GoType) : T ≠ .ptr T' := by
  cases h <;> simp

theorem scalarType_nonslice {T : GoType} (h : ScalarType T) (E : GoType) : T ≠ .slice E := by
  cases h <;> simp

theorem valueOK_pointers {e : Nat} {z : Bool} (h1 : e ≠ 1) (h5 : e ≠ 5) {T : GoType} (h : ValueOK e z T) : PointersSane e T := by
  induction h with
  | scalar T s h _ _ => exact pointersSane_nonptr (scalarType_nonptr (means_scalarType h))
  | bytes _ => exact pointersSane_nonptr (by simp)
  | msg t _ =>
    intro B hB
    cases hB with
    | one => exact ⟨by simp, fun h => absurd h h5, fun h => absurd h h1⟩
    | more h => cases ‹Pointee (.named t) B›
  | ptr T h hne ih =>
    intro B hB
    cases hB with
    | one =>
      refine ⟨fun E hE => ?_, fun h => absurd h h5, fun h => absurd h h1⟩
      subst hE
      cases h with
      | scalar _ _ h => exact scalarType_nonslice (means_scalarType h) _ rfl
      | bytes => exact hne rfl
    | more => exact ih B ‹_›

theorem fieldOK_sane {e : Nat} {z : Bool} {kt vt : Text} {T : FieldType} (h : FieldOK e z kt vt T) :
    Accepted e T ∧ Sane kt vt e T := by
  cases h with
  | scalar T s h =>
    have hs := means_scalarType h
    exact ⟨.single T (.scalar T hs), .ty e T (by cases hs <;> simp) (pointersSane_nonptr (scalarType_nonptr hs))⟩
  | option b s h =>
    exact ⟨.option b (means_scalarType h) (by rintro rfl; cases h; rfl) (by rintro rfl; cases h; rfl), .option e b⟩
  | value T h h1 h5 =>
    have hs := valueOK_single h
    exact ⟨.single T hs, .ty e T (fun K V => single_not_map hs K V) (valueOK_pointers h1 h5 h)⟩
  | repeated T h => exact ⟨.repeated T (valueOK_single h), .ty e _ (by simp) (pointersSane_nonptr (by simp))⟩
  | map K V ke kn kc ve vn vc h2 hk hv _ _ _ _ _ hK hV =>
    cases hK with
    | scalar s hm n1 n2 n3 n4 =>
      have hks := means_scalarType hm
      have hVs : Single V ∧ PointersSane ve V := by
        cases hV with
        | scalar s h _ _ =>
          exact ⟨.scalar _ (means_scalarType h), pointersSane_nonptr (scalarType_nonptr (means_scalarType h))⟩
        | value h h1 h5 => exact ⟨valueOK_single h, valueOK_pointers h1 h5 h⟩
      refine ⟨.map K V (.scalar K hks) hVs.1, .map e K V ke ve hks ?_ ?_ (.says _ _ _ _ _ hk) (.says _ _ _ _ _ hv) hVs.2⟩
      · rintro rfl; cases hm; simp at n3
      · rintro rfl; cases hm; simp at n4

/-- Handled programs are sane. -/
theorem sane_of_ok {D : Decls} (h : ProgramOK D) : ProgramSane D where
  accepted t f hf ha := by
    obtain ⟨s, e, n, c, z, h1, h2, _, _, h5⟩ := (h t).fields f hf ha
    exact ⟨s, e, n, c, z, h1, h2, (fieldOK_sane h5).1⟩
  sane t f hf ha s e n c z hs hn := by
    obtain ⟨s', e', n', c', z', h1, h2, _, _, h5⟩ := (h t).fields f hf ha
    rw [hs] at h1; cases h1
    rw [(Sample.says_unique hn h2).1]
    exact (fieldOK_sane h5).2

namespace Sample

/-- The number in the tag of a field that is looked at. -/
def numOf (f : FieldDecl) : Option U64 :=
  if f.exported then f.tag.map fun s => (parseStructTag s).1.fieldNumber else none

theorem numOf_says {f : FieldDecl} (h : f.Active) {n : Int} (hn : Says f n) : numOf f = some (BitVec.ofInt 64 n) := by
  obtain ⟨s, e, c, z, h1, h2⟩ := hn
  simp [numOf, h.1, h1, parseStructTag_of_says h2]

theorem numbers_of {d : StructDecl} (h : (d.filterMap numOf).Nodup) :
    d.Pairwise fun f g => f.Active → g.Active → ∀ n m, Says f n → Says g m → n ≠ m := by
  induction d with
  | nil => exact .nil
  | cons f fs ih =>
    rw [List.pairwise_cons]
    constructor
    · intro g hg hfa hga n m hn hm hnm
      subst hnm
      rw [List.filterMap_cons_some (numOf_says hfa hn), List.nodup_cons] at h
      exact h.1 (List.mem_filterMap.mpr ⟨g, hg, numOf_says hga hm⟩)
    · apply ih
      cases hf : numOf f with
      | none => rwa [List.filterMap_cons_none hf] at h
      | some x => rw [List.filterMap_cons_some hf, List.nodup_cons] at h; exact h.2

theorem programOK : ProgramOK decls := by
  intro t
  match t with
  | 0 =>
    refine ⟨fun f hf ha => ?_, ?_⟩
    · simp only [decls, List.mem_cons, List.not_mem_nil, or_false] at hf
      rcases hf with rfl | rfl | rfl | rfl | rfl | rfl | rfl | rfl
      · exact declOK (n := 1) rfl (by decide) rfl (.scalar _ .int32 .int32)
      · exact declOK (n := 2) rfl (by decide) rfl (.scalar _ .string .string)
      · exact declOK (n := 3) rfl (by decide) rfl (.repeated _ (.msg 0 rfl))
      · exact declOK (n := 4) rfl (by decide) rfl (.option _ .zigzag64 .sint64)
      · exact declOK (n := 5) rfl (by decide) rfl (.map _ _ 2 1 false 2 2 false rfl (says_of (n := 1) (by decide) rfl)
          (says_of (n := 2) (by decide) rfl) (by decide) (by decide) (by decide) (by decide) (by decide)
          (.scalar _ .string .string (by decide) (by decide) (by decide) (by decide)) (.scalar _ .string .string (by decide) (by decide)))
      · exact absurd ha.1 (by decide)
      · exact declOK (n := 6) rfl (by decide) rfl (.value _ (.bytes rfl) (by decide) (by decide))
      · exact declOK (n := 7) rfl (by decide) rfl (.value _ (.msg 0 rfl) (by decide) (by decide))
    · exact numbers_of (by decide)
  | 1 =>
    refine ⟨fun f hf ha => ?_, ?_⟩
    · simp only [decls, List.mem_cons, List.not_mem_nil, or_false] at hf
      rcases hf with rfl | rfl | rfl | rfl
      · exact declOK (n := 1) rfl (by decide) rfl (.scalar _ .bool .bool)
      · exact declOK (n := 2) rfl (by decide) rfl (.scalar _ .fixed32 .fixed32)
      · exact declOK (n := 3) rfl (by decide) rfl (.repeated _ (.scalar _ .float64 .double (by decide) (by decide)))
      · exact declOK (n := 4) rfl (by decide) rfl (.value _ (.ptr _ (.scalar _ .uint64 .uint64 (by decide) (by decide)) (by simp))
          (by decide) (by decide))
    · exact numbers_of (by decide)
  | 2 =>
    refine ⟨fun f hf ha => ?_, ?_⟩
    · simp only [decls, List.mem_cons, List.not_mem_nil, or_false] at hf
      rcases hf with rfl | rfl
      · exact declOK (n := 1) rfl (by decide) rfl (.scalar _ .bool .bool)
      · exact declOK (n := 2) rfl (by decide) rfl (.scalar _ .int32 .int32)
    · exact numbers_of (by decide)
  | _ + 3 => exact ⟨by simp [decls], by simp [decls]⟩

end Sample
end Pb
