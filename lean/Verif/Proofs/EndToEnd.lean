import Verif.Proofs.Generator
import Verif.Proofs.CacheUse
import Verif.Spec.EndToEnd
/-
Generated programs and the caches of type analysis.
-/
namespace Pb.Cache
open Spec

variable {P : Protos} {tracked : TypeId → Bool} {name : TypeId → Nat → Text}

theorem handled_plain {b : Bool} {f : ProtoField} (h : Handled f) : PlainField (genField b f).ty := by
  have one : ∀ k, SingularKind k → Plain (kindGoType k) := by
    intro k hk
    cases hk with
    | scalar _ s hs => cases hs <;> constructor
    | bytes => exact .bytes
    | message t => exact .msg t
  rw [genField_ty]
  split
  · exact .opt _
  · cases h with
    | implicit n k hk => exact .one _ (one k hk)
    | optional n k hk => exact .one _ (one k hk)
    | repeated n k hk => cases hk with | mk hk _ _ => exact .many _ (one k hk)
    | map n k key hkey hk =>
      cases hk with
      | mk hk _ _ =>
        cases hk with
        | mk hk _ _ =>
          refine .map _ _ ?_ (one k hk)
          cases hkey <;> constructor

theorem handled_mentions {b : Bool} {f : ProtoField} (h : Handled f) {T : GoType} {u : TypeId} (hT : (genField b f).ty = .ty T)
    (hm : Mentions T u) : f.kind = .message u := by
  have one : ∀ k, SingularKind k → Mentions (kindGoType k) u → k = .message u := by
    intro k hk hm
    cases hk with
    | scalar _ s hs => cases hs <;> cases hm
    | bytes => cases hm with | slice _ _ h => cases h
    | message t => cases hm with | ptr _ _ h => cases h; rfl
  rw [genField_ty] at hT
  split at hT
  · cases hT
  · cases hT
    cases h with
    | implicit n k hk => exact one k hk hm
    | optional n k hk => exact one k hk hm
    | repeated n k hk => cases hk with | mk hk _ _ => cases hm with | slice _ _ hm => exact one k hk hm
    | map n k key hkey hk =>
      cases hk with
      | mk hk _ _ =>
        cases hk with
        | mk hk _ _ =>
          cases hm with
          | key _ _ _ hm => cases hkey <;> cases hm
          | val _ _ _ hm => exact one k hk hm

theorem needs_gen (h : ProtosOK P) (hn : ∀ t i, PlainText (name t i)) {r t : TypeId} (hN : Needs (genProgram tracked name P) r t) :
    ProtoNeeds P r t := by
  induction hN with
  | root => exact .root
  | field t d T u _ hd ha hT hm ih =>
    obtain ⟨f, hf, ho, rfl⟩ := genMessage_mem (hn t) hd ha
    exact .field t f u ih hf ho (handled_mentions (h.handled t f hf ho) hT hm)

theorem acyclic_gen (h : ProtosOK P) (hn : ∀ t i, PlainText (name t i)) {rank : TypeId → Nat} (hA : ProtoAcyclic P rank) :
    Acyclic (genProgram tracked name P) rank := by
  intro t d hd h1 h2 T u hT hm
  obtain ⟨f, hf, ho, rfl⟩ := genMessage_mem (hn t) hd ⟨h1, h2⟩
  exact hA t f hf ho u (handled_mentions (h.handled t f hf ho) hT hm)

theorem handled_slice {b : Bool} {f : ProtoField} (h : Handled f) {T : GoType} (hi : T = .int32 ∨ T = .int64)
    (hT : (genField b f).ty = .ty (.slice T)) : f.label = .repeated ∧ kindGoType f.kind = T := by
  rw [genField_ty] at hT
  split at hT
  · cases hT
  · have hT := FieldType.ty.inj hT
    cases h with
    | implicit n k hk =>
      cases hk with
      | scalar _ s hs => cases hs <;> cases hT
      | bytes => cases hT; rcases hi with h | h <;> cases h
      | message t => cases hT
    | optional n k hk =>
      cases hk with
      | scalar _ s hs => cases hs <;> cases hT
      | bytes => cases hT; rcases hi with h | h <;> cases h
      | message t => cases hT
    | repeated n k hk => exact ⟨rfl, GoType.slice.inj hT⟩
    | map n k key hkey hk => cases hT

theorem tag_zigzag {b : Bool} {f : ProtoField} (hl : f.label = .repeated) (h : Handled f) (hr : f.number < 2 ^ 29) {x : Text}
    (hx : (genField b f).tag = some x) : (parseStructTag x).1.zigzag = kindZigzag f.kind := by
  rw [genField_tag] at hx
  cases hx
  rw [parseStructTag_of_says (fieldTagValue_says f (by rw [hl]; simp) ?_ (by omega))]
  · simp [fieldZigzag, hl]
  · intro t ht
    cases h with
    | repeated n k hk =>
      cases hk with
      | mk hk _ _ => cases hk with | scalar _ s hs => cases hs <;> cases ht | bytes => cases ht | message => cases ht
    | _ => cases hl

theorem uniform_gen (h : ProtosOK P) (hn : ∀ t i, PlainText (name t i)) {r : TypeId} (hm : NoMixing P r) :
    Uniform (genProgram tracked name P) r where
  plain t _ d hd ha := by
    obtain ⟨f, hf, ho, rfl⟩ := genMessage_mem (hn t) hd ha
    exact handled_plain (h.handled t f hf ho)
  zigzag t u nt nu d hd e he ha hb T hT h1 h2 x y hx hy := by
    obtain ⟨f, hf, ho, rfl⟩ := genMessage_mem (hn t) hd ha
    obtain ⟨g, hg, ho', rfl⟩ := genMessage_mem (hn u) he hb
    obtain ⟨l1, k1⟩ := handled_slice (h.handled t f hf ho) hT h1
    obtain ⟨l2, k2⟩ := handled_slice (h.handled u g hg ho') hT h2
    rw [tag_zigzag l1 (h.handled t f hf ho) ((h.numbers t).range f hf).2 hx,
      tag_zigzag l2 (h.handled u g hg ho') ((h.numbers u).range g hg).2 hy]
    refine hm t u (needs_gen h hn nt) (needs_gen h hn nu) f hf g hg l1 l2 ?_
    revert k1 k2
    generalize f.kind = k
    generalize g.kind = k'
    intro k1 k2
    rcases hT with rfl | rfl
    · refine .w32 _ _ ?_ ?_
      · cases k <;> first | (cases k1; done) | decide
      · cases k' <;> first | (cases k2; done) | decide
    · refine .w64 _ _ ?_ ?_
      · cases k <;> first | (cases k1; done) | decide
      · cases k' <;> first | (cases k2; done) | decide

end Pb.Cache
