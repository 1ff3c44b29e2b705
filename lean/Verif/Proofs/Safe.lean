import Verif.Spec.Typing
import Verif.Proofs.Depth
import Verif.Proofs.Enc
/-
Decoding is safe: no fault, and memory keeps its shape.
-/
namespace Pb
open Spec

theorem fits_zero (L : Layout) : ∀ s : Shape, Fits L s s.zero
  | .b8 => .b8 _
  | .w32 => .w32 _
  | .w64 => .w64 _
  | .str => .str _
  | .bytes => .bytes _
  | .opt s => .none s
  | .ptr s => .ptrNil s
  | .msg t => .msgNil t
  | .slice s => .slice _ _ _ _ (fun _ => ⟨rfl, rfl⟩) (by simp) (by simp)
  | .map k v => .map _ _ _ _ (fun _ => rfl) (by simp) (by simp) (by simp)
  | .opaque => .opaque _

/-- What a scalar decode function reads: value, byte count, error. -/
def scalarRead : Scalar → Bytes → Val × Nat × Option Err
  | .bool, b =>
    match b with
    | [] => (.b8 false, 0, some .unexpectedEOF)
    | c :: _ => (.b8 (c ≠ 0#8), 1, none)
  | .string, b =>
    match decodeVarint b with
    | (v, n, none) => if v.toNat > b.length - n then (.str [], n, some .unexpectedEOF)
        else (.str ((b.drop n).take v.toNat), n + v.toNat, none)
    | (_, n, some e) => (.str [], n, some e)
  | .float32, b | .fixed32, b => match decodeLE32 b with | (v, n, e) => (.w32 v, n, e)
  | .float64, b | .fixed64, b => match decodeLE64 b with | (v, n, e) => (.w64 v, n, e)
  | .int32, b | .uint32, b => match decodeVarint b with | (v, n, e) => (.w32 (v.setWidth 32), n, e)
  | .int64, b | .uint64, b => match decodeVarint b with | (v, n, e) => (.w64 v, n, e)
  | .zigzag32, b => match decodeVarint b with | (v, n, e) => (.w32 ((decodeZigZag64 v).setWidth 32), n, e)
  | .zigzag64, b => match decodeVarint b with | (v, n, e) => (.w64 (decodeZigZag64 v), n, e)

theorem scalarRead_fits (L : Layout) (s : Scalar) (b : Bytes) : Fits L s.shape (scalarRead s b).1 := by
  cases s <;> simp only [scalarRead, Scalar.shape]
  case bool => split <;> constructor
  case string =>
    split
    · split <;> constructor
    · constructor
  all_goals constructor

theorem decodeScalar_eq (L : Layout) (s : Scalar) (b : Bytes) (p : Val) (h : Fits L s.shape p) :
    ∃ w, decodeScalar s b p = .ok (DRes.mk w (scalarRead s b).2.1 (scalarRead s b).2.2) ∧ Fits L s.shape w ∧
      ((scalarRead s b).2.2 = none → w = (scalarRead s b).1) := by
  have hf := scalarRead_fits L s b
  cases s
  case bool =>
    cases h
    cases b with
    | nil => exact ⟨_, rfl, .b8 _, by simp [scalarRead]⟩
    | cons c cs => exact ⟨_, rfl, .b8 _, by simp [scalarRead]⟩
  case string =>
    cases h
    refine ⟨(scalarRead .string b).1, ?_, hf, fun _ => rfl⟩
    simp only [decodeScalar, decodeVarlen_eq, bind, Except.bind, pure, Except.pure, scalarRead]
    rcases hd : decodeVarint b with ⟨v, n, e⟩
    cases e with
    | some e =>
      simp only [writeStr]
      split
      · rename_i h0; subst h0; rfl
      · rfl
    | none =>
      have := decodeVarint_pos hd
      simp only [writeStr]
      split
      · simp only
        have : n ≠ 0 := by omega
        simp [this]
      · simp only
        have : ¬ (n + v.toNat = 0) := by omega
        rw [if_neg this]
  all_goals
    cases h
    refine ⟨_, rfl, hf, fun _ => rfl⟩

theorem scalarRead_le (s : Scalar) (b : Bytes) (h : (scalarRead s b).2.2 = none) : (scalarRead s b).2.1 ≤ b.length := by
  have hz : Fits (fun _ => []) s.shape s.shape.zero := fits_zero _ _
  obtain ⟨w, hw, _, _⟩ := decodeScalar_eq _ s b _ hz
  rw [h] at hw
  exact bounded_scalar s _ _ _ _ hw

/-- A decode function that is safe on memory of shape `s` for inputs shorter than `n`. -/
def SafeDec (L : Layout) (s : Shape) (n : Nat) (dec : Bytes → Val → Except Fault DRes) : Prop :=
  ∀ b v, b.length < n → Fits L s v →
    (∃ v' m, dec b v = .ok (.ok v' m) ∧ Fits L s v') ∨ (∃ v' e, dec b v = .ok (.err v' e) ∧ Fits L s v')

theorem safe_mk {L : Layout} {s : Shape} {dec : Except Fault DRes} {w n e} (h : dec = .ok (DRes.mk w n e)) (hf : Fits L s w) :
    (∃ v' m, dec = .ok (.ok v' m) ∧ Fits L s v') ∨ (∃ v' e, dec = .ok (.err v' e) ∧ Fits L s v') := by
  cases e with
  | none => exact .inl ⟨w, n, h, hf⟩
  | some e => exact .inr ⟨w, e, h, hf⟩

theorem safe_scalar (L : Layout) (s : Scalar) (n : Nat) : SafeDec L s.shape n (decodeScalar s) := by
  intro b v _ h
  obtain ⟨w, hw, hf, _⟩ := decodeScalar_eq L s b v h
  exact safe_mk hw hf

/-- The invariant of the loop: the slots have the shapes `sh`. -/
def FitsL (L : Layout) (sh : List Shape) (vs : List Val) : Prop :=
  vs.length = sh.length ∧ ∀ (i : Nat) s v, sh[i]? = some s → vs[i]? = some v → Fits L s v

theorem fitsL_set {L : Layout} {sh : List Shape} {vs : List Val} {o : Nat} {s : Shape} {v : Val}
    (h : FitsL L sh vs) (hs : sh[o]? = some s) (hv : Fits L s v) : FitsL L sh (vs.set o v) := by
  refine ⟨by simp [h.1], fun i s' v' hs' hv' => ?_⟩
  by_cases hio : o = i
  · subst hio
    rw [hs] at hs'
    cases hs'
    rw [List.getElem?_set] at hv'
    simp at hv'
    rw [← hv'.2]; exact hv
  · rw [List.getElem?_set_ne hio] at hv'
    exact h.2 i s' v' hs' hv'

theorem slotOf_fits {L : Layout} {sh : List Shape} {vs : List Val} {o : Nat} {s : Shape}
    (h : FitsL L sh vs) (hs : sh[o]? = some s) : ∃ v, slotOf (.struct vs) o = .ok v ∧ vs[o]? = some v ∧ Fits L s v := by
  have ho : o < sh.length := (List.getElem?_eq_some_iff.mp hs).1
  have ho' : o < vs.length := by rw [h.1]; exact ho
  refine ⟨vs[o], ?_, by simp [ho'], h.2 o s _ hs (by simp [ho'])⟩
  simp [slotOf, ho']

theorem run_safe {L : Layout} {sh : List Shape} {idx : Nat → Option DField} (n : Nat)
    (hi : ∀ k f, idx k = some f → ∃ s, sh[f.offset]? = some s ∧ SafeDec L s n f.dec) :
    ∀ b vs, b.length ≤ n → FitsL L sh vs → ∃ vs' e, run idx b vs = .ok (vs', e) ∧ FitsL L sh vs' := by
  intro b
  induction hb : b.length using Nat.strongRecOn generalizing b with
  | ind k ih =>
    intro vs hn hv
    by_cases h0 : b = []
    · subst h0; exact ⟨vs, none, run_nil _ _, hv⟩
    · rw [run_cons _ _ _ h0]
      cases hst : stepS idx b vs with
      | error e =>
        exfalso
        unfold stepS at hst
        rcases hd : decodeTag b with ⟨num, wt, m, e'⟩
        have hp := decodeTag_le hd
        cases e' with
        | some e' => simp [hd] at hst
        | none =>
          have hpos := decodeTag_pos hd
          simp only [hd] at hst
          cases hidx : idx num with
          | none =>
            simp only [hidx] at hst
            split at hst <;> simp at hst
          | some f =>
            simp only [hidx] at hst
            split at hst
            · simp at hst
            · split at hst
              · simp at hst
              · rename_i d r ht
                have hdl := takePayload_len ht
                simp at hdl
                obtain ⟨s, hs, hsafe⟩ := hi _ _ hidx
                obtain ⟨v, hsl, _, hfit⟩ := slotOf_fits hv hs
                rw [hsl] at hst
                simp only at hst
                rcases hsafe d v (by omega) hfit with ⟨v', m', h1, _⟩ | ⟨v', e', h1, _⟩ <;> simp [h1] at hst
      | ok st =>
        have hkey : (∀ vs' e', st = .fail vs' e' → FitsL L sh vs') ∧ (∀ rest vs', st = .next rest vs' → FitsL L sh vs') := by
          unfold stepS at hst
          rcases hd : decodeTag b with ⟨num, wt, m, e'⟩
          have hp := decodeTag_le hd
          cases e' with
          | some e' =>
            simp [hd] at hst
            subst hst
            simp; exact hv
          | none =>
            have hpos := decodeTag_pos hd
            simp only [hd] at hst
            cases hidx : idx num with
            | none =>
              simp only [hidx] at hst
              split at hst
              · simp at hst; subst hst; simp; exact hv
              · simp at hst; subst hst; simp; exact hv
            | some f =>
              simp only [hidx] at hst
              split at hst
              · simp at hst; subst hst; simp; exact hv
              · split at hst
                · simp at hst; subst hst; simp; exact hv
                · rename_i d r ht
                  have hdl := takePayload_len ht
                  simp at hdl
                  obtain ⟨s, hs, hsafe⟩ := hi _ _ hidx
                  obtain ⟨v, hsl, _, hfit⟩ := slotOf_fits hv hs
                  rw [hsl] at hst
                  simp only at hst
                  rcases hsafe d v (by omega) hfit with ⟨v', m', h1, h2⟩ | ⟨v', e', h1, h2⟩
                  · simp [h1] at hst; subst hst; simp; exact fitsL_set hv hs h2
                  · simp [h1] at hst; subst hst; simp; exact fitsL_set hv hs h2
        cases st with
        | fail vs' e => exact ⟨vs', some e, rfl, hkey.1 _ _ rfl⟩
        | next rest vs' =>
          have := stepS_lt hst
          exact ih rest.length (by omega) rest rfl vs' (by omega) (hkey.2 _ _ rfl)

theorem mapAssign_keys (m : List (Key × Val)) (k : Key) (v : Val) :
    ∀ k', k' ∈ (mapAssign m k v).map Prod.fst ↔ k' ∈ m.map Prod.fst ∨ k' = k := by
  induction m with
  | nil => intro k'; simp [mapAssign]
  | cons e m ih =>
    obtain ⟨k0, v0⟩ := e
    intro k'
    simp only [mapAssign]
    split
    · rename_i h; subst h; simp; intro h; exact .inl h
    · simp only [List.map_cons, List.mem_cons, ih]; grind

theorem mapAssign_nodup (m : List (Key × Val)) (k : Key) (v : Val) (h : (m.map Prod.fst).Nodup) :
    ((mapAssign m k v).map Prod.fst).Nodup := by
  induction m with
  | nil => simp [mapAssign]
  | cons e m ih =>
    obtain ⟨k0, v0⟩ := e
    simp only [List.map_cons, List.nodup_cons] at h
    simp only [mapAssign]
    split
    · simpa using h
    · rename_i hne
      simp only [List.map_cons, List.nodup_cons]
      refine ⟨fun hm => ?_, ih h.2⟩
      rw [mapAssign_keys] at hm
      rcases hm with hm | hm
      · exact h.1 hm
      · exact hne hm

theorem mapAssign_mem {m : List (Key × Val)} {k : Key} {v : Val} {e} (h : e ∈ mapAssign m k v) :
    e ∈ m ∨ e = (k, v) := by
  induction m with
  | nil => simpa [mapAssign] using h
  | cons e0 m ih =>
    obtain ⟨k0, v0⟩ := e0
    simp only [mapAssign] at h
    split at h
    · rename_i hk; subst hk
      rcases List.mem_cons.mp h with h | h
      · exact .inr h
      · exact .inl (by simp [h])
    · rcases List.mem_cons.mp h with h | h
      · exact .inl (by simp [h])
      · rcases ih h with h | h
        · exact .inl (by simp [h])
        · exact .inr h

theorem key_of_fits {L : Layout} {s : Shape} {v : Val} (hs : s.isKey) (h : Fits L s v) :
    ∃ k, v.toKey? = some k ∧ k.toVal = v := by
  cases h <;> simp [Shape.isKey] at hs <;> exact ⟨_, rfl, rfl⟩

/-- After the growth step there is a free slot: a zero one when new memory was allocated, else the first of
those already there. -/
theorem growIfFull_cases (zero : Val) (es spare : List Val) :
    (spare = [] ∧ ∃ k, growIfFull zero es spare = zero :: List.replicate k zero) ∨
    (∃ x xs, spare = x :: xs ∧ growIfFull zero es spare = x :: xs) := by
  cases spare with
  | cons x xs => right; exact ⟨x, xs, rfl, by simp [growIfFull]⟩
  | nil =>
    left
    refine ⟨rfl, ?_⟩
    unfold growIfFull
    simp only [if_true, List.length_nil, Nat.add_zero]
    by_cases h : 2 * es.length = 0
    · have h0 : es.length = 0 := by omega
      exact ⟨9, by simp [h0, List.replicate_succ]⟩
    · refine ⟨es.length - 1, ?_⟩
      rw [if_neg h, ← List.replicate_succ]
      congr 1; omega

theorem safe_codec {L : Layout} (zeros : TypeId → Val) (rec : TypeId → Bytes → Val → Except Fault DRes)
    (hz : ∀ t, FitsMsg L t (zeros t)) (hb : ∀ t, Bounded (rec t)) (n : Nat)
    (hrec : ∀ t b v, b.length + 1 < n → FitsMsg L t v →
      (∃ v' m, rec t b v = .ok (.ok v' m) ∧ FitsMsg L t v') ∨ (∃ v' e, rec t b v = .ok (.err v' e) ∧ FitsMsg L t v')) :
    ∀ c : Codec, c.WF → SafeDec L c.shape n (codecDecode zeros rec c) := by
  intro c
  induction c with
  | normal s => intro _; exact safe_scalar L s n
  | required s => intro _; exact safe_scalar L s n
  | option s =>
    intro _ b v hl hv
    simp only [Codec.shape] at hv
    have : ∃ isSome w, v = .opt isSome w ∧ Fits L s.shape w := by
      cases hv with
      | none => exact ⟨_, _, rfl, fits_zero L _⟩
      | some _ w h => exact ⟨_, w, rfl, h⟩
    obtain ⟨isSome, w, rfl, hw⟩ := this
    simp only [codecDecode, decodeOption, bind, Except.bind, pure, Except.pure]
    rcases safe_scalar L s n b w hl hw with ⟨v', m, h1, h2⟩ | ⟨v', e, h1, h2⟩
    · exact .inl ⟨_, _, by rw [h1]; rfl, .some _ _ h2⟩
    · exact .inr ⟨_, _, by rw [h1]; rfl, .some _ _ h2⟩
  | bytes =>
    intro _ b v hl hv
    simp only [Codec.shape] at hv
    cases hv
    simp only [codecDecode, decodeBytes, decodeVarlen_eq, bind, Except.bind, pure, Except.pure]
    exact safe_mk rfl (.bytes _)
  | ptr zero c ih =>
    intro hwf b v hl hv
    obtain ⟨rfl, hwf⟩ := hwf
    simp only [Codec.shape] at hv
    cases hv with
    | ptrNil =>
      simp only [codecDecode, bind, Except.bind, pure, Except.pure]
      rcases ih hwf b _ hl (fits_zero L _) with ⟨v', m, h1, h2⟩ | ⟨v', e, h1, h2⟩
      · exact .inl ⟨_, _, by rw [h1]; rfl, .ptr _ _ h2⟩
      · exact .inr ⟨_, _, by rw [h1]; rfl, .ptr _ _ h2⟩
    | ptr _ w hw =>
      simp only [codecDecode, bind, Except.bind, pure, Except.pure]
      rcases ih hwf b _ hl hw with ⟨v', m, h1, h2⟩ | ⟨v', e, h1, h2⟩
      · exact .inl ⟨_, _, by rw [h1]; rfl, .ptr _ _ h2⟩
      · exact .inr ⟨_, _, by rw [h1]; rfl, .ptr _ _ h2⟩
  | msg t =>
    intro _ b v hl hv
    simp only [Codec.shape] at hv
    have : ∃ w, msgTarget (zeros t) v = .ok w ∧ FitsMsg L t w := by
      cases hv with
      | msgNil => exact ⟨_, rfl, hz t⟩
      | msg _ vs h1 h2 => exact ⟨_, rfl, .msg _ _ h1 h2⟩
    obtain ⟨w, hw, hfit⟩ := this
    rw [codecDecode_msg, hw]
    rcases hd : decodeVarint b with ⟨l, m, e⟩
    have hle := decodeVarint_le hd
    cases e with
    | some e => exact .inr ⟨_, _, rfl, hfit⟩
    | none =>
      have hp := decodeVarint_pos hd
      simp only
      rcases hrec t (b.drop m) w (by simp; omega) hfit with ⟨v', m, h1, h2⟩ | ⟨v', e, h1, h2⟩
      · exact .inl ⟨_, _, by rw [h1], h2⟩
      · exact .inr ⟨_, _, by rw [h1], h2⟩
  | slice zero c ih =>
    intro hwf b v hl hv
    obtain ⟨rfl, hwf⟩ := hwf
    simp only [Codec.shape] at hv
    cases hv with
    | slice _ isNil es spare hn hes hsp =>
      have hg : ∃ slot sp, growIfFull c.shape.zero es spare = slot :: sp ∧ (∀ e ∈ slot :: sp, Fits L c.shape e) := by
        rcases growIfFull_cases c.shape.zero es spare with ⟨_, k, hk⟩ | ⟨x, xs, h1, h2⟩
        · refine ⟨_, _, hk, fun e he => ?_⟩
          have : e = c.shape.zero := by
            rw [← List.replicate_succ] at he; exact (List.mem_replicate.mp he).2
          rw [this]; exact fits_zero L _
        · exact ⟨x, xs, h2, by rw [← h1]; exact hsp⟩
      obtain ⟨slot, sp, hg, hall⟩ := hg
      have hisNil : (if spare = [] then false else isNil) = false := by
        split
        · rfl
        · rename_i h
          cases isNil with
          | false => rfl
          | true => exact absurd (hn rfl).2 h
      simp only [codecDecode, hg, hisNil, bind, Except.bind, pure, Except.pure]
      rcases ih hwf b slot hl (hall _ (by simp)) with ⟨v', m, h1, h2⟩ | ⟨v', e, h1, h2⟩
      · refine .inl ⟨_, _, by rw [h1], .slice _ _ _ _ (by simp) ?_ (fun e he => hall e (by simp [he]))⟩
        intro e he
        rcases List.mem_append.mp he with he | he
        · exact hes e he
        · simp at he; rw [he]; exact h2
      · refine .inr ⟨_, _, by rw [h1], .slice _ _ _ _ (by simp) hes ?_⟩
        intro e he
        rcases List.mem_cons.mp he with he | he
        · rw [he]; exact h2
        · exact hall e (by simp [he])
  | map i kc vc kd vd _ _ ihk ihv =>
    intro hwf b v hl hv
    obtain ⟨hkey, hkd, hvd, hkz, hvz, _, _, hkw, hvw⟩ := hwf
    simp only [Codec.shape] at hv
    cases hv with
    | map _ _ isNil m hn hnd hks hvs =>
      have hmap : Fits L (Codec.map i kc vc kd vd).shape (.map false m) :=
        .map _ _ _ _ (by simp) hnd hks hvs
      rw [codecDecode_map _ _ _ _ _ _ _ (bounded_codec _ _ hb _) (bounded_codec _ _ hb _)]
      split
      · exact .inl ⟨_, _, rfl, hmap⟩
      · rcases hd : decodeVarint b with ⟨l, k, e⟩
        have hle := decodeVarint_le hd
        cases e with
        | some e => exact .inr ⟨_, _, rfl, hmap⟩
        | none =>
          simp only
          have hrun := run_safe (L := L) (sh := [kc.shape, vc.shape]) (idx := entryIdx zeros rec i kd vd) n (by
            intro j f hf
            unfold entryIdx at hf
            split at hf
            · simp at hf; subst hf; exact ⟨vc.shape, rfl, hvd ▸ ihv hvw⟩
            · split at hf
              · simp at hf; subst hf; exact ⟨kc.shape, rfl, hkd ▸ ihk hkw⟩
              · simp at hf) (b.drop k) [i.kzero, i.vzero] (by simp; omega) (by
                refine ⟨rfl, fun j s w hs hw => ?_⟩
                match j with
                | 0 => simp at hs hw; rw [← hs, ← hw, hkz]; exact fits_zero L _
                | 1 => simp at hs hw; rw [← hs, ← hw, hvz]; exact fits_zero L _
                | j + 2 => simp at hs)
          obtain ⟨vs', e, hr, hfl⟩ := hrun
          rw [hr]
          cases e with
          | some e => exact .inr ⟨_, _, rfl, hmap⟩
          | none =>
            match vs', hfl with
            | [a, b'], hfl =>
              have ha : Fits L kc.shape a := hfl.2 0 _ a rfl rfl
              have hb' : Fits L vc.shape b' := hfl.2 1 _ b' rfl rfl
              obtain ⟨key, hk1, hk2⟩ := key_of_fits hkey ha
              simp only [hk1]
              refine .inl ⟨_, _, rfl, .map _ _ _ _ (by simp) (mapAssign_nodup _ _ _ hnd) ?_ ?_⟩
              · intro e he
                rcases mapAssign_mem he with he | he
                · exact hks e he
                · rw [he]; simp [hk2]; exact ha
              · intro e he
                rcases mapAssign_mem he with he | he
                · exact hvs e he
                · rw [he]; exact hb'
            | [], hfl => simp [FitsL] at hfl
            | [_], hfl => simp [FitsL] at hfl
            | _ :: _ :: _ :: _, hfl => simp [FitsL] at hfl

theorem WFEnv.zero_fits {L : Layout} {env : Env} (h : WFEnv L env) (t : TypeId) : FitsMsg L t (zerosOf env t) := by
  unfold zerosOf
  rw [h.zero]
  refine .msg _ _ (by simp) fun i s v hs hv => ?_
  simp [hs] at hv
  rw [← hv]; exact fits_zero L s

theorem fitsMsg_iff {L : Layout} {t : TypeId} {v : Val} : FitsMsg L t v ↔ ∃ vs, v = .struct vs ∧ FitsL L (L t) vs := by
  constructor
  · intro h; cases h with
    | msg _ vs h1 h2 => exact ⟨vs, rfl, h1, h2⟩
  · rintro ⟨vs, rfl, h1, h2⟩; exact .msg _ _ h1 h2

/-- The lookup table of a message type is safe on inputs no longer than `n`, provided shorter nested messages
are. -/
theorem idxM_safe {L : Layout} {env : Env} (hwf : WFEnv L env) (t : TypeId) (n : Nat)
    (hrec : ∀ t b v, b.length + 1 < n → FitsMsg L t v →
      (∃ v' m, decM env t b v = .ok (.ok v' m) ∧ FitsMsg L t v') ∨
      (∃ v' e, decM env t b v = .ok (.err v' e) ∧ FitsMsg L t v')) :
    ∀ k f, idxM env t k = some f → ∃ s, (L t)[f.offset]? = some s ∧ SafeDec L s n f.dec := by
  intro k f hf
  unfold idxM at hf
  simp at hf
  obtain ⟨g, hg, rfl⟩ := hf
  have hm := (lookup_mem hg).1
  exact ⟨_, hwf.slot t g hm, safe_codec _ _ hwf.zero_fits (bounded_decM env) n hrec _ (hwf.codec t g hm)⟩

theorem decM_safe {L : Layout} {env : Env} (hwf : WFEnv L env) :
    ∀ b t v, FitsMsg L t v →
      (∃ v' m, decM env t b v = .ok (.ok v' m) ∧ FitsMsg L t v') ∨
      (∃ v' e, decM env t b v = .ok (.err v' e) ∧ FitsMsg L t v') := by
  intro b
  induction hb : b.length using Nat.strongRecOn generalizing b with
  | ind k ih =>
    intro t v hv
    obtain ⟨vs, rfl, hfl⟩ := fitsMsg_iff.mp hv
    rw [decM_eq]
    obtain ⟨vs', e, hr, hfl'⟩ := run_safe k (idxM_safe hwf t k fun t b v hlt hv => ih b.length (by omega) b rfl t v hv)
      b vs (by omega) hfl
    rw [hr]
    cases e with
    | none => exact .inl ⟨_, _, rfl, fitsMsg_iff.mpr ⟨_, rfl, hfl'⟩⟩
    | some e => exact .inr ⟨_, _, rfl, fitsMsg_iff.mpr ⟨_, rfl, hfl'⟩⟩

/-- Safety of the loop of a message type. -/
theorem runM_safe {L : Layout} {env : Env} (hwf : WFEnv L env) (t : TypeId) (b : Bytes) (vs : List Val)
    (h : FitsL L (L t) vs) : ∃ vs' e, run (idxM env t) b vs = .ok (vs', e) ∧ FitsL L (L t) vs' :=
  run_safe b.length (idxM_safe hwf t b.length fun t b v _ hv => decM_safe hwf b t v hv) b vs (by omega) h

theorem codec_safe {L : Layout} {env : Env} (hwf : WFEnv L env) (c : Codec) (hc : c.WF) (b : Bytes) (v : Val)
    (h : Fits L c.shape v) :
    (∃ v' m, codecDecode (zerosOf env) (decM env) c b v = .ok (.ok v' m) ∧ Fits L c.shape v') ∨
    (∃ v' e, codecDecode (zerosOf env) (decM env) c b v = .ok (.err v' e) ∧ Fits L c.shape v') :=
  safe_codec _ _ hwf.zero_fits (bounded_decM env) (b.length + 1) (fun t b v _ hv => decM_safe hwf b t v hv) c hc b v
    (by omega) h

end Pb
