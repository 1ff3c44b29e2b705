import Verif.Spec.Records
import Verif.Proofs.Safe
import Verif.Proofs.Enc
import Verif.Model.Api
/-
One record at a time: connection with the record grammar, prefixes, concatenation.
-/
namespace Pb
open Spec

/-! ### the API in terms of the loop -/

theorem unmarshal_eq (env : Env) (b : Bytes) (t : TypeId) (vs : List Val) :
    unmarshal env b (.msg t (.struct vs)) =
      match run (idxM env t) b vs with
      | .error e => .error e
      | .ok (vs', none) => .ok ⟨.msg t (.struct vs'), none⟩
      | .ok (vs', some e) => .ok ⟨.msg t (.struct vs'), some (.decode e)⟩ := by
  unfold unmarshal
  by_cases h : b = []
  · subst h; simp [run_nil]
  · have hl : ¬ b.length = 0 := by simpa using h
    have := decM_eq env t b vs
    unfold decM at this
    simp only [hl, if_false, this, bind, Except.bind, pure, Except.pure]
    rcases run (idxM env t) b vs with e | ⟨vs', _ | e⟩ <;> simp [toDRes]

theorem size_msg (env : Env) (t : TypeId) (v : Val) : size env (.msg t v) = sizeM env t v := rfl

theorem marshal_msg (env : Env) (t : TypeId) (v : Val) :
    marshal env (.msg t v) = match sizeM env t v with
      | .error e => .error e
      | .ok _ => match encM env t v with
        | .error e => .error e
        | .ok b => .ok (.ok b) := by
  simp only [marshal, sizeM, encM, bind, Except.bind, pure, Except.pure]
  cases sizeMsg env (v.depth + 1) t v with
  | error e => rfl
  | ok n => simp only; cases encodeMsg env (v.depth + 1) t [] v <;> rfl

/-! ### tags and payloads -/

theorem decodeVarint_of {p : Bytes} {n : Nat} (h : Varint64 p n) (r : Bytes) :
    decodeVarint (p ++ r) = (BitVec.ofNat 64 n, p.length, none) := decodeVarint_ok h.1 h.2 h.3 r

theorem decodeVarint_inv {s : Bytes} {v n} (h : decodeVarint s = (v, n, none)) :
    ∃ p r, s = p ++ r ∧ Varint64 p v.toNat ∧ n = p.length := by
  rcases decodeVarint_cases s with ⟨p, r, m, rfl, hp, hl, hm, e⟩ | ⟨p, r, m, rfl, _, _, e⟩ | ⟨_, y, e⟩
  · rw [e] at h
    simp only [Prod.mk.injEq, and_true] at h
    obtain ⟨rfl, rfl⟩ := h
    have : (BitVec.ofNat 64 m).toNat = m := by simp [Nat.mod_eq_of_lt hm]
    rw [this]
    exact ⟨p, r, rfl, ⟨hp, hl, hm⟩, rfl⟩
  · rw [e] at h; simp at h
  · rw [e] at h; simp at h

theorem tag_split (v : U64) : (v >>> 3).toNat = v.toNat / 8 ∧ (v &&& 7#64).toNat = v.toNat % 8 := by
  have h1 : v.toNat &&& 7 = v.toNat % 8 := Nat.and_two_pow_sub_one_eq_mod _ 3
  constructor
  · rw [BitVec.toNat_ushiftRight, Nat.shiftRight_eq_div_pow]
  · rw [BitVec.toNat_and]; exact h1

theorem decodeTag_of {p : Bytes} {num wt : Nat} (h : TagBytes p num wt) (r : Bytes) :
    decodeTag (p ++ r) = (num, wt, p.length, none) := by
  obtain ⟨hw, hp⟩ := h
  have h3 := hp.3
  unfold decodeTag
  rw [decodeVarint_of hp]
  have := tag_split (BitVec.ofNat 64 (8 * num + wt))
  rw [BitVec.toNat_ofNat, Nat.mod_eq_of_lt h3] at this
  simp only [this, Prod.mk.injEq, and_true]
  omega

theorem decodeTag_inv {s : Bytes} {num wt n} (h : decodeTag s = (num, wt, n, none)) :
    ∃ p r, s = p ++ r ∧ TagBytes p num wt ∧ n = p.length := by
  unfold decodeTag at h
  rcases hd : decodeVarint s with ⟨v, m, e⟩
  rw [hd] at h
  simp only [Prod.mk.injEq] at h
  obtain ⟨h1, h2, rfl, rfl⟩ := h
  obtain ⟨p, r, rfl, hp, rfl⟩ := decodeVarint_inv hd
  have := tag_split v
  rw [h1, h2] at this
  refine ⟨p, r, rfl, ⟨by omega, ?_⟩, rfl⟩
  have e : 8 * num + wt = v.toNat := by omega
  rw [e]; exact hp

theorem takePayload_of {wt : Nat} {data : Bytes} (h : Payload wt data) (r : Bytes) :
    takePayload (data ++ r) wt = .ok (data, r) := by
  cases h with
  | varint _ n h => simp [takePayload, decodeVarint_of h]
  | fixed64 _ h =>
    have : ¬ (data ++ r).length < 8 := by simp [h]
    simp only [takePayload, wtVarint, wtVarlen, wtFixed32, wtFixed64, this]
    simp [List.take_left' h, List.drop_left' h]
  | varlen p bs h =>
    have h3 := h.3
    have hl : (p ++ bs).length = p.length + bs.length := by simp
    simp only [takePayload, wtVarint, wtVarlen, List.append_assoc, decodeVarint_of h]
    rw [← List.append_assoc]
    simp only [BitVec.toNat_ofNat, Nat.mod_eq_of_lt h3, ← hl, List.take_left, List.drop_left]
    simp
  | fixed32 _ h =>
    have : ¬ (data ++ r).length < 4 := by simp [h]
    simp only [takePayload, wtVarint, wtVarlen, wtFixed32, this]
    simp [List.take_left' h, List.drop_left' h]

theorem takePayload_inv {s : Bytes} {wt : Nat} {d r : Bytes} (h : takePayload s wt = .ok (d, r)) :
    Payload wt d ∧ s = d ++ r := by
  refine ⟨?_, takePayload_append h⟩
  unfold takePayload at h
  split at h
  · rename_i hw; subst hw
    split at h
    · rename_i hd
      obtain ⟨p, r', rfl, hp, rfl⟩ := decodeVarint_inv hd
      simp at h
      obtain ⟨rfl, rfl⟩ := h
      exact .varint _ _ hp
    · simp at h
  split at h
  · rename_i hw; subst hw
    split at h
    · rename_i l n hd
      obtain ⟨p, r', rfl, hp, rfl⟩ := decodeVarint_inv hd
      split at h
      · simp at h
      · rename_i hle
        simp only [Except.ok.injEq, Prod.mk.injEq] at h
        obtain ⟨rfl, rfl⟩ := h
        rw [List.take_length_add_append]
        simp at hle
        refine .varlen p _ ?_
        simpa [Nat.min_eq_left hle] using hp
    · simp at h
  split at h
  · rename_i hw; subst hw
    split at h
    · simp at h
    · simp at h; rw [← h.1]; exact .fixed32 _ (by simp; omega)
  split at h
  · rename_i hw; subst hw
    split at h
    · simp at h
    · simp at h; rw [← h.1]; exact .fixed64 _ (by simp; omega)
  · simp at h

/-! ### one step -/

/-- A step over a record with an undeclared number. -/
theorem stepS_unknown {idx : Nat → Option DField} {u : Bytes} {num wt : Nat} {data : Bytes}
    (hu : Record u num wt data) (hi : idx num = none) (r : Bytes) (vs : List Val) :
    stepS idx (u ++ r) vs = .ok (.next r vs) := by
  obtain ⟨p, ht, hp, rfl⟩ := hu
  simp only [stepS, List.append_assoc, decodeTag_of ht, hi, List.drop_left, takePayload_of hp]

/-- A step over a record of a declared field. -/
theorem stepS_known {idx : Nat → Option DField} {u : Bytes} {num : Nat} {data : Bytes} {f : DField}
    (hu : Record u num f.wt data) (hi : idx num = some f) (r : Bytes) (vs : List Val) :
    stepS idx (u ++ r) vs = match slotOf (.struct vs) f.offset with
      | .error e => .error e
      | .ok v =>
        match f.dec data v with
        | .error e => .error e
        | .ok (.ok v m) => .ok (.next ((data ++ r).drop m) (vs.set f.offset v))
        | .ok (.err v e) => .ok (.fail (vs.set f.offset v) (.field num f.wt e)) := by
  obtain ⟨p, ht, hp, rfl⟩ := hu
  simp only [stepS, List.append_assoc, decodeTag_of ht, hi, List.drop_left, takePayload_of hp, ne_eq, not_true,
    if_false]
  cases slotOf (.struct vs) f.offset with
  | error e => rfl
  | ok v => simp only; rcases f.dec data v with e | ⟨_ | _⟩ <;> rfl

/-- All outcomes of one step that are not faults. -/
theorem stepS_cases {idx : Nat → Option DField} {s : Bytes} {vs : List Val} {st : Step} (h : stepS idx s vs = .ok st) :
    -- the tag cannot be read
    (∃ e, (decodeTag s).2.2.2 = some e ∧ st = .fail vs e) ∨
    ∃ p r num wt, s = p ++ r ∧ TagBytes p num wt ∧
      -- an undeclared number
      ((idx num = none ∧ ((∃ e, takePayload r wt = .error e ∧ st = .fail vs (.field num wt e)) ∨
        (∃ data rest, Payload wt data ∧ r = data ++ rest ∧ st = .next rest vs))) ∨
      ∃ f, idx num = some f ∧
        -- the wrong wire type
        ((wt ≠ f.wt ∧ st = .fail vs (.field num wt (.expectedWireType f.wt))) ∨
        (wt = f.wt ∧
          -- an incomplete payload
          ((∃ e, takePayload r wt = .error e ∧ st = .fail vs (.field num wt e)) ∨
          ∃ data rest v, Payload wt data ∧ r = data ++ rest ∧ vs[f.offset]? = some v ∧
            ((∃ v' m, f.dec data v = .ok (.ok v' m) ∧ st = .next (r.drop m) (vs.set f.offset v')) ∨
            (∃ v' e, f.dec data v = .ok (.err v' e) ∧ st = .fail (vs.set f.offset v') (.field num wt e))))))) := by
  unfold stepS at h
  rcases hd : decodeTag s with ⟨num, wt, n, e⟩
  rw [hd] at h
  cases e with
  | some e => simp at h; left; exact ⟨e, rfl, h.symm⟩
  | none =>
    right
    obtain ⟨p, r, rfl, ht, rfl⟩ := decodeTag_inv hd
    refine ⟨p, r, num, wt, rfl, ht, ?_⟩
    simp only [List.drop_left] at h
    cases hi : idx num with
    | none =>
      left
      simp only [hi] at h
      cases hp : takePayload r wt with
      | error e => simp only [hp] at h; cases h; exact ⟨rfl, .inl ⟨e, rfl, rfl⟩⟩
      | ok dr =>
        obtain ⟨d, rest⟩ := dr
        simp only [hp] at h
        cases h
        obtain ⟨h1, h2⟩ := takePayload_inv hp
        exact ⟨rfl, .inr ⟨d, rest, h1, h2, rfl⟩⟩
    | some f =>
      right
      simp only [hi] at h
      refine ⟨f, rfl, ?_⟩
      by_cases hw : wt = f.wt
      · right
        simp only [hw, ne_eq, not_true, if_false] at h
        refine ⟨hw, ?_⟩
        rw [← hw] at h
        cases hp : takePayload r wt with
        | error e => simp only [hp] at h; cases h; exact .inl ⟨e, rfl, rfl⟩
        | ok dr =>
          obtain ⟨d, rest⟩ := dr
          right
          obtain ⟨h1, h2⟩ := takePayload_inv hp
          simp only [hp] at h
          cases hv : vs[f.offset]? with
          | none => simp [slotOf, hv] at h
          | some v =>
            refine ⟨d, rest, v, h1, h2, rfl, ?_⟩
            simp only [slotOf, hv] at h
            rcases hdec : f.dec d v with e | ⟨v', m⟩ | ⟨v', e⟩
            · simp [hdec] at h
            · simp only [hdec] at h; cases h; exact .inl ⟨v', m, rfl, rfl⟩
            · simp only [hdec] at h; cases h; exact .inr ⟨v', e, rfl, rfl⟩
      · left
        simp only [ne_eq, hw, not_false_iff, if_true] at h
        cases h
        exact ⟨hw, rfl⟩

/-- Table whose decode functions never claim more bytes than they were given. -/
def BoundedIdx (idx : Nat → Option DField) : Prop := ∀ n f, idx n = some f → Bounded f.dec

theorem boundedIdx_M (env : Env) (t : TypeId) : BoundedIdx (idxM env t) := by
  intro n f h
  unfold idxM at h
  simp at h
  obtain ⟨g, _, rfl⟩ := h
  exact bounded_codec _ _ (bounded_decM env) g.codec

/-- All ways in which a step succeeds. -/
theorem stepS_next_inv {idx : Nat → Option DField} {s : Bytes} {vs : List Val} {rest vs'}
    (hs : stepS idx s vs = .ok (.next rest vs')) :
    ∃ p num wt data, TagBytes p num wt ∧ Payload wt data ∧
      ((idx num = none ∧ s = p ++ (data ++ rest) ∧ vs' = vs) ∨
      (∃ f rest' v v' m, idx num = some f ∧ f.wt = wt ∧ s = p ++ (data ++ rest') ∧ vs[f.offset]? = some v ∧
        f.dec data v = .ok (.ok v' m) ∧ rest = (data ++ rest').drop m ∧ vs' = vs.set f.offset v')) := by
  rcases stepS_cases hs with ⟨e, _, h⟩ | ⟨p, q, num, wt, rfl, ht, h⟩
  · cases h
  rcases h with ⟨hi, ⟨e, _, h⟩ | ⟨data, rest', hp, rfl, h⟩⟩ | ⟨f, hi, ⟨_, h⟩ | ⟨rfl, ⟨e, _, h⟩ |
    ⟨data, rest', v, hp, rfl, hv, ⟨v', m, hdec, h⟩ | ⟨v', e, hdec, h⟩⟩⟩⟩
  · cases h
  · simp only [Step.next.injEq] at *
    obtain ⟨rfl, rfl⟩ := ‹rest = rest' ∧ vs' = vs›
    exact ⟨p, num, wt, data, ht, hp, .inl ⟨hi, rfl, rfl⟩⟩
  · cases h
  · cases h
  · simp only [Step.next.injEq] at h
    obtain ⟨rfl, rfl⟩ := h
    exact ⟨p, num, _, data, ht, hp, .inr ⟨f, rest', v, v', m, hi, rfl, rfl, hv, hdec, rfl, rfl⟩⟩
  · cases h

/-- A step that succeeds does the same when more input follows. -/
theorem stepS_next_append {idx : Nat → Option DField} (hb : BoundedIdx idx) {s : Bytes} {vs : List Val} {rest vs'}
    (h : stepS idx s vs = .ok (.next rest vs')) (r : Bytes) :
    stepS idx (s ++ r) vs = .ok (.next (rest ++ r) vs') := by
  obtain ⟨p, num, wt, data, ht, hp, ⟨hi, rfl, rfl⟩ | ⟨f, rest', v, v', m, hi, rfl, rfl, hv, hdec, rfl, rfl⟩⟩ :=
    stepS_next_inv h
  · have := stepS_unknown (idx := idx) (u := p ++ data) ⟨p, ht, hp, rfl⟩ hi (rest ++ r) vs'
    simpa using this
  · have := stepS_known (idx := idx) (u := p ++ data) ⟨p, ht, hp, rfl⟩ hi (rest' ++ r) vs
    have hm := hb num f hi _ _ _ _ hdec
    simp only [slotOf, hv, hdec] at this
    simp only [List.append_assoc] at this ⊢
    rw [this]
    simp only [List.drop_append_of_le_length hm, List.append_assoc]

/-- C07 at the level of the loop. -/
theorem run_append {idx : Nat → Option DField} (hb : BoundedIdx idx) :
    ∀ a vs vs', run idx a vs = .ok (vs', none) → ∀ b, run idx (a ++ b) vs = run idx b vs' := by
  intro a
  induction ha : a.length using Nat.strongRecOn generalizing a with
  | ind k ih =>
    intro vs vs' h b
    by_cases h0 : a = []
    · subst h0; rw [run_nil] at h; cases h; simp
    · rw [run_cons _ _ _ h0] at h
      rw [run_cons _ _ _ (by simp [h0])]
      rcases hs : stepS idx a vs with e | ⟨vs1, e⟩ | ⟨rest, vs1⟩
      · simp [hs] at h
      · simp [hs] at h
      · simp only [hs] at h
        have hlt := stepS_lt hs
        rw [stepS_next_append hb hs b]
        exact ih rest.length (by omega) rest rfl vs1 vs' h b

end Pb
