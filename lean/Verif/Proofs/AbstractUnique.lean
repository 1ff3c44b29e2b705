import Verif.Proofs.AbstractRead
/-
Readers that follow the specification agree.
-/
namespace Pb
open Spec

theorem base256_inj {k n m : Nat} (hk : k = 4 ∨ k = 8) (hn : n < 256 ^ k) (hm : m < 256 ^ k) (h : base256 k n = base256 k m) : n = m := by
  rcases hk with rfl | rfl
  · have h1 := decodeLE32_base256 (BitVec.ofNat 32 n) []
    have h2 := decodeLE32_base256 (BitVec.ofNat 32 m) []
    have e1 : (BitVec.ofNat 32 n).toNat = n := by rw [BitVec.toNat_ofNat]; omega
    have e2 : (BitVec.ofNat 32 m).toNat = m := by rw [BitVec.toNat_ofNat]; omega
    rw [e1, h, ← e2, h2] at h1
    have := congrArg (fun x => x.1.toNat) h1
    simp only [e1, e2] at this
    exact this.symm
  · have h1 := decodeLE64_base256 (BitVec.ofNat 64 n) []
    have h2 := decodeLE64_base256 (BitVec.ofNat 64 m) []
    have e1 : (BitVec.ofNat 64 n).toNat = n := by rw [BitVec.toNat_ofNat]; omega
    have e2 : (BitVec.ofNat 64 m).toNat = m := by rw [BitVec.toNat_ofNat]; omega
    rw [e1, h, ← e2, h2] at h1
    have := congrArg (fun x => x.1.toNat) h1
    simp only [e1, e2] at this
    exact this.symm

theorem bytesAs_unique {d s s' : Bytes} (h : BytesAs d s) (h' : BytesAs d s') : s = s' := by
  obtain ⟨p, h1, rfl⟩ := h
  obtain ⟨q, h2, e⟩ := h'
  exact (h1.1.prefix_unique h2.1 e).2.2

theorem denotes_unique {k : Kind} {d : Bytes} {p q : PVal} (h : Denotes k d p) (h' : Denotes k d q) : p = q := by
  by_cases hk : ∃ s, KindIs k s
  · obtain ⟨s, hk⟩ := hk
    obtain ⟨v, h1, h2⟩ := denotes_reads hk h
    obtain ⟨w, h3, h4⟩ := denotes_reads hk h'
    cases readsAs_unique h1 h3
    exact scalarIs_unique h2 h4
  · have fx : ∀ {k n m}, k = 4 ∨ k = 8 → n < 256 ^ k → m < 256 ^ k → base256 k n = base256 k m → n = m := base256_inj
    generalize hd : d = d' at h'
    cases h with
    | sfixed32 n hn =>
      cases h' with
      | sfixed32 m hm => cases fx (.inl rfl) hn hm hd; rfl
    | sfixed64 n hn =>
      cases h' with
      | sfixed64 m hm => cases fx (.inr rfl) hn hm hd; rfl
    | bytes _ s h =>
      cases h' with
      | bytes _ s' h' => subst hd; rw [bytesAs_unique h h']
    | _ => exact absurd ⟨_, by constructor⟩ hk

mutual
theorem onto_unique {P : Protos} (hN : ∀ t, NumbersOK (P t)) {k : Kind} {old a : PVal} {d : Bytes} : ParseOnto P k old d a →
    ∀ b, ParseOnto P k old d b → a = b
  | .scalar _ _ _ _ h _ => fun b h' => by
    cases h' with
    | scalar _ _ _ _ h' _ => exact denotes_unique h h'
    | message => exact absurd rfl (denotes_scalar h _)
  | .message t m _ body rs m' hb hr hp => fun b h' => by
    have ih := msg_unique hN hp
    cases h' with
    | scalar _ _ _ _ h' _ => exact absurd rfl (denotes_scalar h' _)
    | message _ _ _ body' rs' m'' hb' hr' hp' =>
      cases bytesAs_unique hb hb'
      cases records_unique hr hr'
      rw [ih _ hp']

theorem field_unique {P : Protos} (hN : ∀ t, NumbersOK (P t)) {l : Label} {k : Kind} {old a : PField} {d : Bytes} :
    ParseField P l k old d a → ∀ b, ParseField P l k old d b → a = b
  | .set _ _ _ _ _ hl h => fun b h' => by
    have ih := onto_unique hN h
    cases h' with
    | set _ _ _ _ _ _ h' => rw [ih _ h']
  | .first _ _ _ _ hl h => fun b h' => by
    have ih := onto_unique hN h
    cases h' with
    | first _ _ _ _ _ h' => rw [ih _ h']
  | .repeated _ _ _ _ h => fun b h' => by
    have ih := onto_unique hN h
    cases h' with
    | repeated _ _ _ _ h' => rw [ih _ h']
  | .map key _ f _ body rs x v hb hr h => fun b h' => by
    have ih := entry_unique hN h
    cases h' with
    | map _ _ _ _ body' rs' x' v' hb' hr' h' =>
      cases bytesAs_unique hb hb'
      cases records_unique hr hr'
      obtain ⟨e1, e2⟩ := ih _ _ h'
      rw [PKey.val_inj e1, e2]

theorem msg_unique {P : Protos} (hN : ∀ t, NumbersOK (P t)) {t : TypeId} {m a : PMsg} {rs : List (Nat × Nat × Bytes)} :
    ParseMsg P t m rs a → ∀ b, ParseMsg P t m rs b → a = b
  | .nil _ _ => fun b h' => by cases h'; rfl
  | .unknown _ _ n w data rs _ hn h => fun b h' => by
    have ih := msg_unique hN h
    cases h' with
    | unknown _ _ _ _ _ _ _ _ h' => exact ih _ h'
    | known _ _ f _ _ _ _ hf => exact absurd rfl (hn f hf)
  | .known _ _ f data rs x _ hf h1 h2 => fun b h' => by
    have ih1 := field_unique hN h1
    have ih2 := msg_unique hN h2
    generalize hn : f.number = n at h'
    generalize hw : fieldWire f = w at h'
    cases h' with
    | unknown _ _ _ _ _ _ _ hu _ => exact absurd hn (hu f hf)
    | known _ _ f' _ _ x' _ hf' h1' h2' =>
      have : f' = f := by
        have hd := (hN t).distinct
        obtain ⟨i, hi, rfl⟩ := List.getElem_of_mem hf
        obtain ⟨j, hj, rfl⟩ := List.getElem_of_mem hf'
        rw [List.pairwise_iff_getElem] at hd
        rcases Nat.lt_trichotomy i j with h | h | h
        · exact absurd hn (hd i j hi hj h)
        · subst h; rfl
        · exact absurd hn.symm (hd j i hj hi h)
      subst this
      cases ih1 _ h1'
      exact ih2 _ h2'

theorem entry_unique {P : Protos} (hN : ∀ t, NumbersOK (P t)) {key k : Kind} {x v a b : PVal} {rs : List (Nat × Nat × Bytes)} :
    ParseEntry P key k x v rs a b → ∀ a' b', ParseEntry P key k x v rs a' b' → a = a' ∧ b = b'
  | .nil _ _ _ _ => fun a' b' h' => by cases h'; exact ⟨rfl, rfl⟩
  | .unknown _ _ _ _ n w data rs _ _ h1 h2 h => fun a' b' h' => by
    have ih := entry_unique hN h
    cases h' with
    | unknown _ _ _ _ _ _ _ _ _ _ _ _ h' => exact ih _ _ h'
    | key => exact absurd rfl h1
    | value => exact absurd rfl h2
  | .key _ _ _ _ data rs x1 _ _ h1 h => fun a' b' h' => by
    have ih1 := onto_unique hN h1
    have ih := entry_unique hN h
    generalize hw : kindWire key = w at h'
    cases h' with
    | unknown _ _ _ _ _ _ _ _ _ _ h1 _ _ => exact absurd rfl h1
    | key _ _ _ _ _ _ _ _ _ h1' h' => cases ih1 _ h1'; exact ih _ _ h'
  | .value _ _ _ _ data rs x1 _ _ h1 h => fun a' b' h' => by
    have ih1 := onto_unique hN h1
    have ih := entry_unique hN h
    generalize hw : kindWire k = w at h'
    cases h' with
    | unknown _ _ _ _ _ _ _ _ _ _ _ h1 _ => exact absurd rfl h1
    | value _ _ _ _ _ _ _ _ _ h1' h' => cases ih1 _ h1'; exact ih _ _ h'
end

end Pb
