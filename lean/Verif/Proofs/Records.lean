import Verif.Proofs.Step
import Verif.Spec.Support
/-
Record by record: exact consumption, and the loop as a fold over the records of the input.
-/
namespace Pb
open Spec

/-- `f` consumes the payload `data` completely whenever it succeeds. -/
def ExactOn (dec : Bytes → Val → Except Fault DRes) (data : Bytes) : Prop :=
  ∀ v v' m, dec data v = .ok (.ok v' m) → m = data.length

theorem exact_varint {data : Bytes} (h : Payload 0 data) : ∃ v, decodeVarint data = (v, data.length, none) := by
  cases h with
  | varint _ n h => exact ⟨_, by simpa using decodeVarint_of h []⟩

theorem exact_varlen {data : Bytes} (h : Payload 2 data) :
    ∃ p s, data = p ++ s ∧ Varint64 p s.length ∧ decodeVarint data = (BitVec.ofNat 64 s.length, p.length, none) := by
  cases h with
  | varlen p s h => exact ⟨p, s, rfl, h, decodeVarint_of h s⟩

theorem decodeVarlen_payload {p s : Bytes} (h : Varint64 p s.length) :
    decodeVarlen (p ++ s) = .ok (s, p.length + s.length, none) := by
  have h3 := h.3
  rw [decodeVarlen_eq, decodeVarint_of h]
  simp [Nat.mod_eq_of_lt h3]

theorem decodeLE32_exact {data : Bytes} (h : data.length = 4) : ∃ v, decodeLE32 data = (v, 4, none) := by
  match data, h with
  | [a, b, c, d], _ => exact ⟨_, rfl⟩

theorem decodeLE64_exact {data : Bytes} (h : data.length = 8) : ∃ v, decodeLE64 data = (v, 8, none) := by
  match data, h with
  | [a, b, c, d, e, f, g, i], _ => exact ⟨_, rfl⟩

theorem payload5 {data : Bytes} (h : Payload 5 data) : data.length = 4 := by cases h; assumption
theorem payload1 {data : Bytes} (h : Payload 1 data) : data.length = 8 := by cases h; assumption

theorem bind_ok {α β : Type} {x : Except Fault α} {f : α → Except Fault β} {y : β} (h : x.bind f = .ok y) :
    ∃ a, x = .ok a ∧ f a = .ok y := by
  cases x with
  | error e => simp [Except.bind] at h
  | ok a => exact ⟨a, rfl, h⟩

theorem exact_scalar (s : Scalar) {data : Bytes} (hp : Payload s.wire data) (hb : s = .bool → data.length = 1) :
    ExactOn (decodeScalar s) data := by
  intro v v' m h
  cases s
  case bool =>
    have := hb rfl
    match data, this with
    | [c], _ =>
      obtain ⟨w, _, h2⟩ := bind_ok h
      simp [pure, Except.pure] at h2
      simp [h2.2]
  case string =>
    obtain ⟨p, s, rfl, hp', _⟩ := exact_varlen hp
    simp only [decodeScalar, decodeVarlen_payload hp', bind, Except.bind, pure, Except.pure] at h
    have : ¬ (p.length + s.length = 0) := by have := hp'.1.length_pos; omega
    simp only [this, if_false] at h
    cases hw : writeStr v s with
    | error e => simp [hw] at h
    | ok w => simp [hw, DRes.mk] at h; simp [h.2]
  case float32 =>
    obtain ⟨x, hx⟩ := decodeLE32_exact (payload5 hp)
    simp only [decodeScalar, hx] at h
    obtain ⟨w, _, h2⟩ := bind_ok h
    simp [pure, Except.pure, DRes.mk] at h2
    rw [payload5 hp]; exact h2.2.symm
  case fixed32 =>
    obtain ⟨x, hx⟩ := decodeLE32_exact (payload5 hp)
    simp only [decodeScalar, hx] at h
    obtain ⟨w, _, h2⟩ := bind_ok h
    simp [pure, Except.pure, DRes.mk] at h2
    rw [payload5 hp]; exact h2.2.symm
  case float64 =>
    obtain ⟨x, hx⟩ := decodeLE64_exact (payload1 hp)
    simp only [decodeScalar, hx] at h
    obtain ⟨w, _, h2⟩ := bind_ok h
    simp [pure, Except.pure, DRes.mk] at h2
    rw [payload1 hp]; exact h2.2.symm
  case fixed64 =>
    obtain ⟨x, hx⟩ := decodeLE64_exact (payload1 hp)
    simp only [decodeScalar, hx] at h
    obtain ⟨w, _, h2⟩ := bind_ok h
    simp [pure, Except.pure, DRes.mk] at h2
    rw [payload1 hp]; exact h2.2.symm
  all_goals
    obtain ⟨x, hx⟩ := exact_varint hp
    simp only [decodeScalar, hx] at h
    obtain ⟨w, _, h2⟩ := bind_ok h
    simp [pure, Except.pure, DRes.mk] at h2
    exact h2.2.symm

theorem wrap_ok {r : DRes} {g : Val → Val} {v m} (h : r.wrap g = .ok v m) : ∃ w, r = .ok w m ∧ v = g w := by
  cases r with
  | ok w n => simp [DRes.wrap] at h; exact ⟨w, by rw [h.2], h.1.symm⟩
  | err w e => simp [DRes.wrap] at h

theorem exact_codec (env : Env) : ∀ (c : Codec) (w : Nat), c.Reads w → ∀ data, Payload w data →
    (c.isBool → data.length = 1) → ExactOn (codecDecode (zerosOf env) (decM env) c) data := by
  intro c
  induction c with
  | normal s => intro w hw data hp hb; simp only [Codec.Reads] at hw; subst hw; exact exact_scalar s hp hb
  | required s => intro w hw data hp hb; simp only [Codec.Reads] at hw; subst hw; exact exact_scalar s hp hb
  | option s =>
    intro w hw data hp hb v v' m h
    simp only [Codec.Reads] at hw; subst hw
    simp only [codecDecode, decodeOption] at h
    cases v with
    | opt b x =>
      obtain ⟨r, h1, h2⟩ := bind_ok h
      simp only [pure, Except.pure, Except.ok.injEq] at h2
      obtain ⟨w, rfl, _⟩ := wrap_ok h2
      exact exact_scalar s hp hb _ _ _ h1
    | _ => simp at h
  | bytes =>
    intro w hw data hp _ v v' m h
    simp only [Codec.Reads] at hw; subst hw
    obtain ⟨p, s, rfl, hp', _⟩ := exact_varlen hp
    simp only [codecDecode, decodeBytes, decodeVarlen_payload hp', bind, Except.bind, pure, Except.pure] at h
    split at h
    · simp [DRes.mk] at h; simp [h.2]
    · simp at h
  | ptr z c ih =>
    intro w hw data hp hb v v' m h
    simp only [codecDecode] at h
    cases v with
    | nilp =>
      obtain ⟨r, h1, h2⟩ := bind_ok h
      simp only [pure, Except.pure, Except.ok.injEq] at h2
      obtain ⟨x, rfl, _⟩ := wrap_ok h2
      exact ih w hw data hp hb _ _ _ h1
    | ptr x =>
      obtain ⟨r, h1, h2⟩ := bind_ok h
      simp only [pure, Except.pure, Except.ok.injEq] at h2
      obtain ⟨x, rfl, _⟩ := wrap_ok h2
      exact ih w hw data hp hb _ _ _ h1
    | _ => simp at h
  | msg t =>
    intro w hw data hp _ v v' m h
    simp only [Codec.Reads] at hw; subst hw
    obtain ⟨p, s, rfl, hp', hd⟩ := exact_varlen hp
    rw [codecDecode_msg] at h
    cases hm : msgTarget (zerosOf env t) v with
    | error e => simp [hm] at h
    | ok x =>
      simp only [hm, hd, List.drop_left] at h
      by_cases hx : ∃ vs, x = .struct vs
      · obtain ⟨vs, rfl⟩ := hx
        rw [decM_eq] at h
        rcases hr : run (idxM env t) s vs with e | ⟨vs', _ | e⟩ <;> simp [hr, toDRes] at h
        simp [← h.2]
      · rw [decM_nonstruct env t s x (fun vs e => hx ⟨vs, e⟩)] at h
        simp at h
  | slice z c ih =>
    intro w hw data hp hb v v' m h
    simp only [codecDecode] at h
    cases v with
    | slice isNil es spare =>
      simp only at h
      split at h
      · simp at h
      · obtain ⟨r, h1, h2⟩ := bind_ok h
        cases r with
        | ok x n =>
          simp [pure, Except.pure] at h2
          obtain ⟨_, rfl⟩ := h2
          exact ih w hw data hp hb _ _ _ h1
        | err x e => simp [pure, Except.pure] at h2
    | _ => simp at h
  | map i kc vc kd vd _ _ _ _ =>
    intro w hw data hp _ v v' m h
    simp only [Codec.Reads] at hw
    obtain ⟨rfl, _, _⟩ := hw
    obtain ⟨p, s, rfl, hp', hd⟩ := exact_varlen hp
    by_cases hv : ∃ n m, v = .map n m
    · obtain ⟨isNil, mm, rfl⟩ := hv
      rw [codecDecode_map _ _ _ _ _ _ _ (bounded_codec _ _ (bounded_decM env) _)
        (bounded_codec _ _ (bounded_decM env) _)] at h
      have hne : p ++ s ≠ [] := by have := hp'.1.length_pos; intro e; simp at e; simp [e] at this
      simp only [hne, if_false, hd] at h
      rcases hr : run (entryIdx (zerosOf env) (decM env) i kd vd) ((p ++ s).drop p.length) [i.kzero, i.vzero]
        with e | ⟨vs, _ | e⟩ <;> simp only [hr] at h
      · simp at h
      · split at h
        · simp at h
        · simp at h
        · split at h
          · simp at h; rw [← h.2]; simp
          · simp at h
        · simp at h
      · simp at h
    · rw [codecDecode_map_other _ _ _ _ _ _ _ _ _ (fun n m e => hv ⟨n, m, e⟩)] at h
      simp at h

/-! ### the loop as a fold -/

/-- Apply one record. -/
def applyRec (idx : Nat → Option DField) (r : Nat × Nat × Bytes) (vs : List Val) : Except Fault (List Val × Option Err) :=
  match idx r.1 with
  | none => .ok (vs, none)
  | some f =>
    if r.2.1 ≠ f.wt then .ok (vs, some (.field r.1 r.2.1 (.expectedWireType f.wt)))
    else
      match slotOf (.struct vs) f.offset with
      | .error e => .error e
      | .ok v =>
        match f.dec r.2.2 v with
        | .error e => .error e
        | .ok (.ok v' _) => .ok (vs.set f.offset v', none)
        | .ok (.err v' e) => .ok (vs.set f.offset v', some (.field r.1 r.2.1 e))

/-- Apply records until one fails. -/
def foldRecs (idx : Nat → Option DField) : List (Nat × Nat × Bytes) → List Val → Except Fault (List Val × Option Err)
  | [], vs => .ok (vs, none)
  | r :: rs, vs =>
    match applyRec idx r vs with
    | .error e => .error e
    | .ok (vs', some e) => .ok (vs', some e)
    | .ok (vs', none) => foldRecs idx rs vs'

/-- The decode functions consume the payloads of these records completely. -/
def ExactRecs (idx : Nat → Option DField) (rs : List (Nat × Nat × Bytes)) : Prop :=
  ∀ r ∈ rs, ∀ f, idx r.1 = some f → f.wt = r.2.1 → ExactOn f.dec r.2.2

/-- Sequencing of two decoding results. -/
def andThen (x : Except Fault (List Val × Option Err)) (f : List Val → Except Fault (List Val × Option Err)) :
    Except Fault (List Val × Option Err) :=
  match x with
  | .error e => .error e
  | .ok (vs, some e) => .ok (vs, some e)
  | .ok (vs, none) => f vs

theorem stepS_record {idx : Nat → Option DField} {u : Bytes} {num wt : Nat} {data : Bytes}
    (hu : Record u num wt data) (he : ∀ f, idx num = some f → f.wt = wt → ExactOn f.dec data) (r : Bytes) (vs : List Val) :
    run idx (u ++ r) vs = andThen (applyRec idx (num, wt, data) vs) (run idx r) := by
  have hne : u ++ r ≠ [] := by
    obtain ⟨p, ht, _, rfl⟩ := hu
    have := ht.2.1.length_pos
    intro e; simp at e; simp [e] at this
  rw [run_cons _ _ _ hne]
  cases hi : idx num with
  | none => rw [stepS_unknown hu hi]; simp [applyRec, hi, andThen]
  | some f =>
    by_cases hw : f.wt = wt
    · subst hw
      rw [stepS_known hu hi]
      simp only [applyRec, hi, ne_eq, not_true, if_false]
      cases hs : slotOf (.struct vs) f.offset with
      | error e => rfl
      | ok v =>
        rcases hd : f.dec data v with e | ⟨v', m⟩ | ⟨v', e⟩
        · simp [andThen, hd]
        · have := he f hi rfl v v' m hd
          subst this
          simp [andThen, hd]
        · simp [andThen, hd]
    · have hw' : ¬ wt = f.wt := fun e => hw e.symm
      obtain ⟨p, ht, hp, rfl⟩ := hu
      simp only [stepS, List.append_assoc, decodeTag_of ht, hi, ne_eq, hw', not_false_iff, if_true, applyRec, andThen]

/-- The loop over an input made of complete records, followed by anything. -/
theorem run_records {idx : Nat → Option DField} {b : Bytes} {rs : List (Nat × Nat × Bytes)} (h : Records b rs) :
    ExactRecs idx rs → ∀ (r : Bytes) (vs : List Val), run idx (b ++ r) vs = andThen (foldRecs idx rs vs) (run idx r) := by
  induction h with
  | nil => intro _ r vs; rfl
  | cons b bs num wt data rs hr _ ih =>
    intro he r vs
    have e1 : ∀ f, idx num = some f → f.wt = wt → ExactOn f.dec data := he (num, wt, data) (by simp)
    rw [List.append_assoc, stepS_record hr e1]
    simp only [foldRecs]
    rcases applyRec idx (num, wt, data) vs with e | ⟨vs', _ | e⟩
    · rfl
    · simp only [andThen]
      exact ih (fun r hr => he r (by simp [hr])) r vs'
    · rfl

theorem run_records' {idx : Nat → Option DField} {b : Bytes} {rs : List (Nat × Nat × Bytes)} (h : Records b rs)
    (he : ExactRecs idx rs) (vs : List Val) : run idx b vs = foldRecs idx rs vs := by
  have := run_records h he [] vs
  simp only [List.append_nil] at this
  rw [this]
  rcases foldRecs idx rs vs with e | ⟨vs', _ | e⟩
  · rfl
  · simp [andThen, run_nil]
  · rfl

theorem foldRecs_append (idx : Nat → Option DField) (rs ss : List (Nat × Nat × Bytes)) :
    ∀ vs, foldRecs idx (rs ++ ss) vs = andThen (foldRecs idx rs vs) (foldRecs idx ss) := by
  induction rs with
  | nil => intro vs; rfl
  | cons r rs ih =>
    intro vs
    simp only [List.cons_append, foldRecs]
    rcases applyRec idx r vs with e | ⟨vs', _ | e⟩
    · rfl
    · exact ih vs'
    · rfl

/-- All decode functions consume their payload completely. -/
def ExactIdx (idx : Nat → Option DField) : Prop :=
  ∀ n f, idx n = some f → ∀ data, Payload f.wt data → ExactOn f.dec data

/-- An accepted input is a sequence of records. -/
theorem records_of_run {idx : Nat → Option DField} (he : ExactIdx idx) :
    ∀ b vs vs', run idx b vs = .ok (vs', none) → ∃ rs, Records b rs := by
  intro b
  induction hb : b.length using Nat.strongRecOn generalizing b with
  | ind k ih =>
    intro vs vs' h
    by_cases h0 : b = []
    · subst h0; exact ⟨[], .nil⟩
    · rw [run_cons _ _ _ h0] at h
      rcases hs : stepS idx b vs with e | ⟨vs1, e⟩ | ⟨rest, vs1⟩ <;> simp only [hs] at h
      · simp at h
      · simp at h
      · have hlt := stepS_lt hs
        obtain ⟨rs, hrs⟩ := ih rest.length (by omega) rest rfl vs1 vs' h
        obtain ⟨p, num, wt, data, ht, hp, ⟨hi, rfl, rfl⟩ | ⟨f, rest', v, v', m, hi, rfl, rfl, hv, hdec, rfl, rfl⟩⟩ :=
          stepS_next_inv hs
        · refine ⟨(num, wt, data) :: rs, ?_⟩
          rw [← List.append_assoc]
          exact .cons (p ++ data) rest num wt data rs ⟨p, ht, hp, rfl⟩ hrs
        · have := he num f hi data hp v v' m hdec
          subst this
          simp only [List.drop_left] at hrs
          refine ⟨(num, f.wt, data) :: rs, ?_⟩
          rw [← List.append_assoc]
          exact .cons (p ++ data) rest' num f.wt data rs ⟨p, ht, hp, rfl⟩ hrs

/-- The records of an input are determined by it. -/
theorem payload_unique {wt : Nat} {d d' r r' : Bytes} (h : Payload wt d) (h' : Payload wt d') (e : d ++ r = d' ++ r') :
    d = d' ∧ r = r' := by
  have h1 := takePayload_of h r
  rw [e, takePayload_of h' r'] at h1
  simp at h1
  exact ⟨h1.1.symm, h1.2.symm⟩

theorem records_unique {b : Bytes} {rs rs' : List (Nat × Nat × Bytes)} (h : Records b rs) (h' : Records b rs') : rs = rs' := by
  induction h generalizing rs' with
  | nil =>
    generalize hb : ([] : Bytes) = b at h'
    cases h' with
    | nil => rfl
    | cons b bs num wt data rs hr _ =>
      obtain ⟨p, ht, _, rfl⟩ := hr
      have := ht.2.1.length_pos
      simp at hb; simp [hb] at this
  | cons b bs num wt data rs hr _ ih =>
    generalize hb : b ++ bs = c at h'
    cases h' with
    | nil =>
      obtain ⟨p, ht, _, rfl⟩ := hr
      have := ht.2.1.length_pos
      simp at hb; simp [hb] at this
    | cons b' bs' num' wt' data' rs' hr' h' =>
      obtain ⟨p, ht, hp, rfl⟩ := hr
      obtain ⟨p', ht', hp', rfl⟩ := hr'
      have e1 := decodeTag_of ht (data ++ bs)
      have e2 := decodeTag_of ht' (data' ++ bs')
      simp only [List.append_assoc] at hb
      rw [hb, e2] at e1
      simp only [Prod.mk.injEq, and_true] at e1
      obtain ⟨rfl, rfl, hl⟩ := e1
      obtain ⟨rfl, hb'⟩ := List.append_inj hb hl.symm
      obtain ⟨rfl, rfl⟩ := payload_unique hp hp' hb'
      rw [ih h']

theorem exactIdx_M {env : Env} (hr : ReadsOK env) (t : TypeId) (hb : ∀ f ∈ (env t).fields, ¬ f.codec.isBool) :
    ExactIdx (idxM env t) := by
  intro n f h data hp
  unfold idxM at h
  simp at h
  obtain ⟨g, hg, rfl⟩ := h
  exact exact_codec env g.codec _ (hr t g (lookup_mem hg).1) data hp (fun hh => absurd hh (hb g (lookup_mem hg).1))

/-- Bool fields of these records have one-byte payloads. -/
def ShortBools (fields : List Field) (rs : List (Nat × Nat × Bytes)) : Prop :=
  ∀ r ∈ rs, ∀ f ∈ fields, keyNumber f.tag.wiretag = r.1 → f.codec.isBool → r.2.2.length = 1

theorem records_payload {b : Bytes} {rs : List (Nat × Nat × Bytes)} (h : Records b rs) : ∀ r ∈ rs, Payload r.2.1 r.2.2 := by
  induction h with
  | nil => simp
  | cons b bs num wt data rs hr _ ih =>
    intro r hm
    rcases List.mem_cons.mp hm with rfl | hm
    · obtain ⟨p, _, hp, _⟩ := hr; exact hp
    · exact ih r hm

theorem exactRecs_M {env : Env} (hr : ReadsOK env) (t : TypeId) {b : Bytes} {rs : List (Nat × Nat × Bytes)} (h : Records b rs)
    (hb : ShortBools (env t).fields rs) : ExactRecs (idxM env t) rs := by
  intro r hm f hf hw
  unfold idxM at hf
  simp at hf
  obtain ⟨g, hg, rfl⟩ := hf
  obtain ⟨h1, h2⟩ := lookup_mem hg
  refine exact_codec env g.codec _ (hr t g h1) r.2.2 ?_ (fun hh => hb r hm g h1 h2 hh)
  have := records_payload h r hm
  simp only [toD] at hw
  rw [hw]; exact this

end Pb
