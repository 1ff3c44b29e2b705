import Verif.Model.Codec
import Verif.Proofs.Wire
/-
The decode loop of a struct as a function of the remaining input, one record at a time.
-/
namespace Pb
open Spec

/-- Outcome of one iteration. -/
inductive Step where
  | fail (vs : List Val) (e : Err)
  | next (rest : Bytes) (vs : List Val)

/-- Split the payload of a record of wire type `wt` off the input. -/
def takePayload (s : Bytes) (wt : Nat) : Except Err (Bytes × Bytes) :=
  if wt = wtVarint then
    match decodeVarint s with
    | (_, n, none) => .ok (s.take n, s.drop n)
    | (_, _, some e) => .error e
  else if wt = wtVarlen then
    match decodeVarint s with
    | (l, n, none) =>
      if l.toNat > s.length - n then .error .unexpectedEOF
      else .ok (s.take (n + l.toNat), s.drop (n + l.toNat))
    | (_, _, some e) => .error e
  else if wt = wtFixed32 then
    if s.length < 4 then .error .unexpectedEOF else .ok (s.take 4, s.drop 4)
  else if wt = wtFixed64 then
    if s.length < 8 then .error .unexpectedEOF else .ok (s.take 8, s.drop 8)
  else .error .wireTypeUnknown

/-- One iteration on the remaining input `s`. -/
def stepS (idx : Nat → Option DField) (s : Bytes) (vs : List Val) : Except Fault Step :=
  match decodeTag s with
  | (_, _, _, some e) => .ok (.fail vs e)
  | (num, wt, n, none) =>
    match idx num with
    | none =>
      match takePayload (s.drop n) wt with
      | .error e => .ok (.fail vs (.field num wt e))
      | .ok (_, rest) => .ok (.next rest vs)
    | some f =>
      if wt ≠ f.wt then .ok (.fail vs (.field num wt (.expectedWireType f.wt)))
      else
        match takePayload (s.drop n) wt with
        | .error e => .ok (.fail vs (.field num wt e))
        | .ok (data, _) =>
          match slotOf (.struct vs) f.offset with
          | .error e => .error e
          | .ok v =>
            match f.dec data v with
            | .error e => .error e
            | .ok (.ok v m) => .ok (.next ((s.drop n).drop m) (vs.set f.offset v))
            | .ok (.err v e) => .ok (.fail (vs.set f.offset v) (.field num wt e))

/-- The loop on the remaining input. -/
def loopS (idx : Nat → Option DField) : Nat → Bytes → List Val → Except Fault (List Val × Option Err)
  | fuel, s, vs =>
    if s = [] then .ok (vs, none)
    else
      match fuel with
      | 0 => .error .depth
      | fuel + 1 =>
        match stepS idx s vs with
        | .error e => .error e
        | .ok (.fail vs e) => .ok (vs, some e)
        | .ok (.next rest vs) => loopS idx fuel rest vs

/-- The loop without a bound. -/
def run (idx : Nat → Option DField) (s : Bytes) (vs : List Val) : Except Fault (List Val × Option Err) :=
  loopS idx s.length s vs

/-- As the result of `structInfo.decode` on an input of length `n`. -/
def toDRes (n : Nat) : Except Fault (List Val × Option Err) → Except Fault DRes
  | .error e => .error e
  | .ok (vs, none) => .ok (.ok (.struct vs) n)
  | .ok (vs, some e) => .ok (.err (.struct vs) e)

/-- A decode function that never claims more bytes than it was given. -/
def Bounded (dec : Bytes → Val → Except Fault DRes) : Prop :=
  ∀ b v v' n, dec b v = .ok (.ok v' n) → n ≤ b.length

theorem decodeVarint_le {s : Bytes} {v n e} (h : decodeVarint s = (v, n, e)) : n ≤ s.length := by
  have := decodeVarint_n_le s; rw [h] at this; exact this

theorem decodeVarint_pos {s : Bytes} {v n} (h : decodeVarint s = (v, n, none)) : 0 < n := by
  have := decodeVarint_n_pos s (by rw [h]); rw [h] at this; exact this

theorem decodeTag_le {s : Bytes} {num wt n e} (h : decodeTag s = (num, wt, n, e)) : n ≤ s.length := by
  unfold decodeTag at h
  have := decodeVarint_n_le s
  cases hd : decodeVarint s with
  | mk v r => obtain ⟨m, e'⟩ := r; simp [hd] at h this; omega

theorem decodeTag_pos {s : Bytes} {num wt n} (h : decodeTag s = (num, wt, n, none)) : 0 < n := by
  unfold decodeTag at h
  cases hd : decodeVarint s with
  | mk v r =>
    obtain ⟨m, e'⟩ := r
    simp [hd] at h
    obtain ⟨_, _, h1, h2⟩ := h
    subst h1 h2
    exact decodeVarint_pos hd

theorem takePayload_append {s : Bytes} {wt d r} (h : takePayload s wt = .ok (d, r)) : s = d ++ r := by
  unfold takePayload at h
  split at h
  · split at h
    · simp at h; rw [← h.1, ← h.2, List.take_append_drop]
    · simp at h
  split at h
  · split at h
    · split at h
      · simp at h
      · simp at h; rw [← h.1, ← h.2, List.take_append_drop]
    · simp at h
  split at h
  · split at h
    · simp at h
    · simp at h; rw [← h.1, ← h.2, List.take_append_drop]
  split at h
  · split at h
    · simp at h
    · simp at h; rw [← h.1, ← h.2, List.take_append_drop]
  · simp at h

theorem goFrom_eq {b : Bytes} {i : Nat} (h : i ≤ b.length) : goFrom b i = .ok (b.drop i) := by
  simp [goFrom, h]

theorem goSlice_eq {b : Bytes} {i j : Nat} (h : j ≤ (b.drop i).length) (hi : i ≤ b.length) :
    goSlice b i (i + j) = .ok ((b.drop i).take j) := by
  simp at h
  have : i ≤ i + j ∧ i + j ≤ b.length := by omega
  simp [goSlice, this, List.drop_take]

theorem skipUnknown_eq {b : Bytes} {o wt : Nat} (ho : o ≤ b.length) :
    ∃ m, skipUnknown b o wt = match takePayload (b.drop o) wt with
      | .ok (_, rest) => .ok (b.length - rest.length, none)
      | .error e => .ok (m, some e) := by
  unfold skipUnknown takePayload
  simp only [goFrom_eq ho, bind, Except.bind, pure, Except.pure]
  by_cases h0 : wt = wtVarint
  · simp only [h0, if_true]
    cases hd : decodeVarint (b.drop o) with
    | mk v r =>
      obtain ⟨n, e⟩ := r
      have := decodeVarint_le hd
      simp at this
      have h1 : o + n ≤ b.length := by omega
      simp only [h1, if_true]
      cases e with
      | none => refine ⟨0, ?_⟩; simp; omega
      | some e => exact ⟨_, rfl⟩
  · simp only [h0, if_false]
    by_cases h2 : wt = wtVarlen
    · simp only [h2, if_true]
      cases hd : decodeVarint (b.drop o) with
      | mk v r =>
        obtain ⟨n, e⟩ := r
        have := decodeVarint_le hd
        simp at this
        have h1 : o + n ≤ b.length := by omega
        cases e with
        | some e => simp only [h1, if_true]; exact ⟨_, rfl⟩
        | none =>
          simp only
          by_cases h3 : v.toNat > b.length - n
          · have h4 : v.toNat > (b.drop o).length - n := by simp; omega
            simp only [h3, if_true, h1, h4]
            exact ⟨_, rfl⟩
          · by_cases h4 : v.toNat > (b.drop o).length - n
            · have h5 : ¬ o + (n + v.toNat) ≤ b.length := by simp at h4; omega
              simp only [h3, if_false, h5, h4, if_true]
              exact ⟨_, rfl⟩
            · have h5 : o + (n + v.toNat) ≤ b.length := by simp at h4; omega
              simp only [h3, if_false, h5, h4, if_true]
              refine ⟨0, ?_⟩; simp; omega
    · simp only [h2, if_false]
      by_cases h5 : wt = wtFixed32
      · simp only [h5, if_true]
        by_cases h : o + 4 ≤ b.length
        · have h' : ¬ (b.drop o).length < 4 := by simp; omega
          simp only [h, if_true, h', if_false]
          refine ⟨0, ?_⟩; simp; omega
        · have h' : (b.drop o).length < 4 := by simp; omega
          simp only [h, if_false, h', if_true]
          exact ⟨_, rfl⟩
      · simp only [h5, if_false]
        by_cases h1 : wt = wtFixed64
        · simp only [h1, if_true]
          by_cases h : o + 8 ≤ b.length
          · have h' : ¬ (b.drop o).length < 8 := by simp; omega
            simp only [h, if_true, h', if_false]
            refine ⟨0, ?_⟩; simp; omega
          · have h' : (b.drop o).length < 8 := by simp; omega
            simp only [h, if_false, h', if_true]
            exact ⟨_, rfl⟩
        · have : o + 0 ≤ b.length := by omega
          simp only [h1, if_false, this, if_true]
          exact ⟨_, rfl⟩

theorem fieldData_eq {b : Bytes} {o wt : Nat} (ho : o ≤ b.length) :
    fieldData b o wt = .ok (match takePayload (b.drop o) wt with
      | .ok (d, _) => .ok d
      | .error e => .error e) := by
  unfold fieldData takePayload
  simp only [goFrom_eq ho, bind, Except.bind, pure, Except.pure]
  by_cases h0 : wt = wtVarint
  · simp only [h0, if_true]
    cases hd : decodeVarint (b.drop o) with
    | mk v r =>
      obtain ⟨n, e⟩ := r
      have := decodeVarint_le hd
      cases e with
      | none => simp only [goSlice_eq this ho]
      | some e => rfl
  · simp only [h0, if_false]
    by_cases h2 : wt = wtVarlen
    · simp only [h2, if_true]
      cases hd : decodeVarint (b.drop o) with
      | mk v r =>
        obtain ⟨n, e⟩ := r
        have := decodeVarint_le hd
        cases e with
        | some e => rfl
        | none =>
          simp only
          by_cases h4 : v.toNat > (b.drop o).length - n
          · have h3 : v.toNat > b.length - (o + n) := by simp at h4; omega
            simp only [h3, if_true, h4]
          · have h3 : ¬ v.toNat > b.length - (o + n) := by simp at h4; omega
            simp only [h3, if_false, h4]
            rw [show o + n + v.toNat = o + (n + v.toNat) by omega, goSlice_eq (by simp at *; omega) ho]
    · simp only [h2, if_false]
      by_cases h5 : wt = wtFixed32
      · simp only [h5, if_true]
        by_cases h : (b.drop o).length < 4
        · have h' : o + 4 > b.length := by simp at h; omega
          simp only [h, h', if_true]
        · have h' : ¬ o + 4 > b.length := by simp at h; omega
          simp only [h, h', if_false, goSlice_eq (show 4 ≤ (b.drop o).length by omega) ho]
      · simp only [h5, if_false]
        by_cases h1 : wt = wtFixed64
        · simp only [h1, if_true]
          by_cases h : (b.drop o).length < 8
          · have h' : o + 8 > b.length := by simp at h; omega
            simp only [h, h', if_true]
          · have h' : ¬ o + 8 > b.length := by simp at h; omega
            simp only [h, h', if_false, goSlice_eq (show 8 ≤ (b.drop o).length by omega) ho]
        · simp only [h1, if_false]

theorem structLoop_eq (idx : Nat → Option DField) (hb : ∀ n f, idx n = some f → Bounded f.dec) (b : Bytes) :
    ∀ fuel o vs, o ≤ b.length →
      structLoop idx b fuel o vs = toDRes b.length (loopS idx fuel (b.drop o) vs) := by
  intro fuel
  induction fuel with
  | zero =>
    intro o vs ho
    unfold structLoop loopS
    by_cases h : o < b.length
    · have h' : b.drop o ≠ [] := by simp; omega
      simp [h, h', toDRes]
    · have h' : b.drop o = [] := by simp; omega
      have : o = b.length := by omega
      simp [toDRes, pure, Except.pure, this]
  | succ fuel ih =>
    intro o vs ho
    unfold structLoop loopS
    by_cases h : o < b.length
    · have h' : b.drop o ≠ [] := by simp; omega
      simp only [h, if_true, h', if_false, goFrom_eq ho, bind, Except.bind, pure, Except.pure]
      unfold stepS
      rcases hd : decodeTag (b.drop o) with ⟨num, wt, n, e⟩
      have hn := decodeTag_le hd
      have hon : o + n ≤ b.length := by simp at hn; omega
      have hdd : (b.drop o).drop n = b.drop (o + n) := by simp
      cases e with
      | some e => simp [toDRes]
      | none =>
        simp only [hdd]
        cases hi : idx num with
        | none =>
          simp only
          obtain ⟨m, hs⟩ := skipUnknown_eq (wt := wt) hon
          rw [hs]
          cases ht : takePayload (b.drop (o + n)) wt with
          | error e => simp [toDRes]
          | ok dr =>
            obtain ⟨d, r⟩ := dr
            have := congrArg List.length (takePayload_append ht)
            have happ := takePayload_append ht
            simp at this
            simp only
            rw [ih _ _ (by omega)]
            congr 2
            have : b.drop (b.length - r.length) = r := by
              rw [show b.length - r.length = (o + n) + d.length by omega, ← List.drop_drop, happ]
              simp
            exact this
        | some f =>
          simp only
          by_cases hw : wt ≠ f.wt
          · simp [hw, toDRes]
          · simp only [hw, if_false, fieldData_eq hon]
            cases ht : takePayload (b.drop (o + n)) wt with
            | error e => simp [toDRes]
            | ok dr =>
              obtain ⟨d, r⟩ := dr
              have := congrArg List.length (takePayload_append ht)
              simp at this
              simp only
              cases hsl : slotOf (.struct vs) f.offset with
              | error e => simp [toDRes]
              | ok v =>
                simp only
                cases hf : f.dec d v with
                | error e => simp [toDRes]
                | ok r =>
                  cases r with
                  | err v e => simp [toDRes]
                  | ok v m =>
                    have := hb _ _ hi _ _ _ _ hf
                    simp only
                    rw [ih _ _ (by omega)]
                    simp
    · have h' : b.drop o = [] := by simp; omega
      have : o = b.length := by omega
      simp [toDRes, pure, Except.pure, this]

/-- Every iteration shortens the input. -/
theorem stepS_lt {idx : Nat → Option DField} {s rest : Bytes} {vs vs' : List Val}
    (h : stepS idx s vs = .ok (.next rest vs')) : rest.length < s.length := by
  unfold stepS at h
  rcases hd : decodeTag s with ⟨num, wt, n, e⟩
  rw [hd] at h
  cases e with
  | some e => simp at h
  | none =>
    have hp := decodeTag_pos hd
    have hl := decodeTag_le hd
    simp only at h
    cases hi : idx num with
    | none =>
      simp only [hi] at h
      cases ht : takePayload (s.drop n) wt with
      | error e => simp [ht] at h
      | ok dr =>
        obtain ⟨d, r⟩ := dr
        have := congrArg List.length (takePayload_append ht)
        simp [ht] at h this
        rw [← h.1]; omega
    | some f =>
      simp only [hi] at h
      split at h
      · simp at h
      · split at h
        · simp at h
        · split at h
          · simp at h
          · split at h
            · simp at h
            · simp at h; rw [← h.1]; simp; omega
            · simp at h

theorem loopS_fuel (idx : Nat → Option DField) :
    ∀ fuel s vs, s.length ≤ fuel → loopS idx fuel s vs = run idx s vs := by
  intro fuel
  induction fuel using Nat.strongRecOn with
  | ind fuel ih =>
    intro s vs hs
    unfold run
    by_cases h0 : s = []
    · subst h0; unfold loopS; simp
    · have hpos : 0 < s.length := List.length_pos_iff.mpr h0
      obtain ⟨k, rfl⟩ : ∃ k, fuel = k + 1 := ⟨fuel - 1, by omega⟩
      obtain ⟨j, hj⟩ : ∃ j, s.length = j + 1 := ⟨s.length - 1, by omega⟩
      rw [hj]
      unfold loopS
      simp only [h0, if_false]
      cases hst : stepS idx s vs with
      | error e => rfl
      | ok st =>
        cases st with
        | fail vs e => rfl
        | next rest vs' =>
          have hlt := stepS_lt hst
          simp only
          rw [ih k (by omega) rest vs' (by omega)]
          by_cases hjk : j < k + 1
          · rw [ih j hjk rest vs' (by omega)]
          · omega

theorem run_nil (idx : Nat → Option DField) (vs : List Val) : run idx [] vs = .ok (vs, none) := by
  unfold run loopS; simp

theorem run_cons (idx : Nat → Option DField) (s : Bytes) (vs : List Val) (h : s ≠ []) :
    run idx s vs = match stepS idx s vs with
      | .error e => .error e
      | .ok (.fail vs e) => .ok (vs, some e)
      | .ok (.next rest vs) => run idx rest vs := by
  have hpos : 0 < s.length := List.length_pos_iff.mpr h
  obtain ⟨j, hj⟩ : ∃ j, s.length = j + 1 := ⟨s.length - 1, by omega⟩
  rw [run, hj, loopS]
  simp only [h, if_false]
  cases hst : stepS idx s vs with
  | error e => rfl
  | ok st =>
    cases st with
    | fail vs e => rfl
    | next rest vs' =>
      have hlt := stepS_lt hst
      simp only
      rw [loopS_fuel idx j rest vs' (by omega)]

theorem structDecode_eq (fields : List DField) (hb : ∀ n f, fieldIndex fields n = some f → Bounded f.dec)
    (b : Bytes) (vs : List Val) :
    structDecode fields b (.struct vs) = toDRes b.length (run (fieldIndex fields) b vs) := by
  simp only [structDecode]
  rw [structLoop_eq _ hb b _ _ _ (by omega)]
  simp [run]

end Pb
