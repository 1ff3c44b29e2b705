import Verif.Proofs.Records
import Verif.Proofs.Size
import Verif.Spec.Read
/-
The loop restricted to one field.
-/
namespace Pb
open Spec

theorem decode_zigzag_unzigzag (v : U64) : decodeZigZag64 v = BitVec.ofInt 64 (unzigzag v.toNat) := by
  have hlt := v.isLt
  -- the signed integer with this number
  have hr : -(2:Int) ^ 63 ≤ unzigzag v.toNat ∧ unzigzag v.toNat < 2 ^ 63 := by
    unfold unzigzag; split <;> omega
  have hw : (BitVec.ofInt 64 (unzigzag v.toNat)).toInt = unzigzag v.toNat := by
    rw [BitVec.toInt_ofInt]
    rw [Int.bmod_eq_of_le] <;> omega
  have hz : zigzag (unzigzag v.toNat) = v.toNat := by
    unfold zigzag unzigzag; split <;> split <;> omega
  have : encodeZigZag64 (BitVec.ofInt 64 (unzigzag v.toNat)) = v := by
    apply BitVec.eq_of_toNat_eq
    rw [encodeZigZag64_toNat, hw, hz]
  rw [← this, decode_encode_zigzag, this]

theorem varint64_decode {data : Bytes} {n : Nat} (h : Varint64 data n) :
    decodeVarint data = (BitVec.ofNat 64 n, data.length, none) := by
  have := decodeVarint_of h []
  simpa using this

theorem base256_digits : ∀ (data : Bytes), ∃ n, n < 256 ^ data.length ∧ base256 data.length n = data := by
  intro data
  induction data with
  | nil => exact ⟨0, by simp, rfl⟩
  | cons c cs ih =>
    obtain ⟨n, hn, e⟩ := ih
    have := c.isLt
    refine ⟨c.toNat + 256 * n, ?_, ?_⟩
    · rw [List.length_cons, Nat.pow_succ]; omega
    · have h1 : (c.toNat + 256 * n) % 256 = c.toNat := by omega
      have h2 : (c.toNat + 256 * n) / 256 = n := by omega
      simp only [List.length_cons, base256, h1, h2, e]
      simp

/-- A payload of the right wire type decodes to what it denotes (bool payloads of one byte). -/
theorem scalarRead_payload {s : Scalar} {data : Bytes} (hp : Payload s.wire data) (hb : s = .bool → data.length = 1) :
    (scalarRead s data).2 = (data.length, none) ∧ ReadsAs s data (scalarRead s data).1 := by
  cases s
  case bool =>
    have := hb rfl
    match data, this with
    | [c], _ =>
      cases hp with
      | varint _ n h =>
        simp only [scalarRead]
        refine ⟨rfl, ?_⟩
        have h1 := h.1
        cases h1 with
        | last _ hc =>
          have := ReadsAs.bool [c] c.toNat h
          have e : (decide (c ≠ 0#8)) = decide (c.toNat ≠ 0) := by
            have : (c ≠ 0#8) ↔ (c.toNat ≠ 0) := by
              constructor
              · intro h1 h2; exact h1 (BitVec.eq_of_toNat_eq (by simpa using h2))
              · rintro h1 rfl; exact h1 rfl
            simp only [this]
          rw [e]; exact this
        | cont _ _ _ _ h2 => cases h2
  case string =>
    cases hp with
    | varlen p s h =>
      have h3 := h.3
      simp only [scalarRead, decodeVarint_of h]
      simp only [BitVec.toNat_ofNat, Nat.mod_eq_of_lt h3, List.drop_left, List.take_length, List.length_append]
      have : ¬ (s.length > p.length + s.length - p.length) := by omega
      simp only [this, if_false]
      exact ⟨trivial, .string p s h⟩
  case fixed32 =>
    obtain ⟨n, hn, e⟩ := base256_digits data
    rw [payload5 hp] at hn e
    have h1 : (BitVec.ofNat 32 n).toNat = n := by simp; omega
    have h2 := decodeLE32_base256 (BitVec.ofNat 32 n) []
    rw [h1, List.append_nil, e] at h2
    simp only [scalarRead, h2]
    refine ⟨by rw [payload5 hp], ?_⟩
    have := ReadsAs.fixed32 (BitVec.ofNat 32 n)
    rwa [h1, e] at this
  case float32 =>
    obtain ⟨n, hn, e⟩ := base256_digits data
    rw [payload5 hp] at hn e
    have h1 : (BitVec.ofNat 32 n).toNat = n := by simp; omega
    have h2 := decodeLE32_base256 (BitVec.ofNat 32 n) []
    rw [h1, List.append_nil, e] at h2
    simp only [scalarRead, h2]
    refine ⟨by rw [payload5 hp], ?_⟩
    have := ReadsAs.float32 (BitVec.ofNat 32 n)
    rwa [h1, e] at this
  case fixed64 =>
    obtain ⟨n, hn, e⟩ := base256_digits data
    rw [payload1 hp] at hn e
    have h1 : (BitVec.ofNat 64 n).toNat = n := by simp; omega
    have h2 := decodeLE64_base256 (BitVec.ofNat 64 n) []
    rw [h1, List.append_nil, e] at h2
    simp only [scalarRead, h2]
    refine ⟨by rw [payload1 hp], ?_⟩
    have := ReadsAs.fixed64 (BitVec.ofNat 64 n)
    rwa [h1, e] at this
  case float64 =>
    obtain ⟨n, hn, e⟩ := base256_digits data
    rw [payload1 hp] at hn e
    have h1 : (BitVec.ofNat 64 n).toNat = n := by simp; omega
    have h2 := decodeLE64_base256 (BitVec.ofNat 64 n) []
    rw [h1, List.append_nil, e] at h2
    simp only [scalarRead, h2]
    refine ⟨by rw [payload1 hp], ?_⟩
    have := ReadsAs.float64 (BitVec.ofNat 64 n)
    rwa [h1, e] at this
  case int32 =>
    obtain ⟨n, h⟩ : ∃ n, Varint64 data n := by cases hp with | varint _ n h => exact ⟨n, h⟩
    have h3 := h.3
    have h1 : (BitVec.ofNat 64 n).toNat = n := by simp [Nat.mod_eq_of_lt h3]
    simp only [scalarRead, varint64_decode h]
    refine ⟨trivial, ?_⟩
    have : (BitVec.ofNat 64 n).setWidth 32 = BitVec.ofNat 32 n := by
      apply BitVec.eq_of_toNat_eq; simp
    rw [this]; exact .int32 _ n h
  case uint32 =>
    obtain ⟨n, h⟩ : ∃ n, Varint64 data n := by cases hp with | varint _ n h => exact ⟨n, h⟩
    have h3 := h.3
    have h1 : (BitVec.ofNat 64 n).toNat = n := by simp [Nat.mod_eq_of_lt h3]
    simp only [scalarRead, varint64_decode h]
    refine ⟨trivial, ?_⟩
    have : (BitVec.ofNat 64 n).setWidth 32 = BitVec.ofNat 32 n := by
      apply BitVec.eq_of_toNat_eq; simp
    rw [this]; exact .uint32 _ n h
  case int64 =>
    obtain ⟨n, h⟩ : ∃ n, Varint64 data n := by cases hp with | varint _ n h => exact ⟨n, h⟩
    have h3 := h.3
    have h1 : (BitVec.ofNat 64 n).toNat = n := by simp [Nat.mod_eq_of_lt h3]
    simp only [scalarRead, varint64_decode h]
    refine ⟨trivial, ?_⟩
    exact .int64 _ n h
  case uint64 =>
    obtain ⟨n, h⟩ : ∃ n, Varint64 data n := by cases hp with | varint _ n h => exact ⟨n, h⟩
    have h3 := h.3
    have h1 : (BitVec.ofNat 64 n).toNat = n := by simp [Nat.mod_eq_of_lt h3]
    simp only [scalarRead, varint64_decode h]
    refine ⟨trivial, ?_⟩
    exact .uint64 _ n h
  case zigzag32 =>
    obtain ⟨n, h⟩ : ∃ n, Varint64 data n := by cases hp with | varint _ n h => exact ⟨n, h⟩
    have h3 := h.3
    have h1 : (BitVec.ofNat 64 n).toNat = n := by simp [Nat.mod_eq_of_lt h3]
    simp only [scalarRead, varint64_decode h]
    refine ⟨trivial, ?_⟩
    have : (decodeZigZag64 (BitVec.ofNat 64 n)).setWidth 32 = BitVec.ofInt 32 (unzigzag n) := by
      rw [decode_zigzag_unzigzag, h1]
      apply BitVec.eq_of_toNat_eq
      simp [BitVec.toNat_setWidth, BitVec.toNat_ofInt]
      omega
    rw [this]; exact .zigzag32 _ n h
  case zigzag64 =>
    obtain ⟨n, h⟩ : ∃ n, Varint64 data n := by cases hp with | varint _ n h => exact ⟨n, h⟩
    have h3 := h.3
    have h1 : (BitVec.ofNat 64 n).toNat = n := by simp [Nat.mod_eq_of_lt h3]
    simp only [scalarRead, varint64_decode h]
    refine ⟨trivial, ?_⟩
    rw [decode_zigzag_unzigzag, h1]
    exact .zigzag64 _ n h

/-- A payload denotes at most one value. -/
theorem readsAs_unique {s : Scalar} {data : Bytes} {v w : Val} (h : ReadsAs s data v) (h' : ReadsAs s data w) : v = w := by
  have num : ∀ {n m : Nat}, Varint64 data n → Varint64 data m → n = m := fun h1 h2 =>
    (h1.1.prefix_unique (r := []) (s := []) h2.1 rfl).2.1
  have b4 : ∀ {x y : U32}, base256 4 x.toNat = base256 4 y.toNat → x = y := by
    intro x y e
    have h1 := decodeLE32_base256 x []
    rw [e, decodeLE32_base256 y []] at h1
    simp at h1; exact h1.symm
  have b8 : ∀ {x y : U64}, base256 8 x.toNat = base256 8 y.toNat → x = y := by
    intro x y e
    have h1 := decodeLE64_base256 x []
    rw [e, decodeLE64_base256 y []] at h1
    simp at h1; exact h1.symm
  generalize hd : data = d at h'
  cases h with
  | bool _ n h1 => subst hd; cases h' with | bool _ m h2 => rw [num h1 h2]
  | int32 _ n h1 => subst hd; cases h' with | int32 _ m h2 => rw [num h1 h2]
  | uint32 _ n h1 => subst hd; cases h' with | uint32 _ m h2 => rw [num h1 h2]
  | int64 _ n h1 => subst hd; cases h' with | int64 _ m h2 => rw [num h1 h2]
  | uint64 _ n h1 => subst hd; cases h' with | uint64 _ m h2 => rw [num h1 h2]
  | zigzag32 _ n h1 => subst hd; cases h' with | zigzag32 _ m h2 => rw [num h1 h2]
  | zigzag64 _ n h1 => subst hd; cases h' with | zigzag64 _ m h2 => rw [num h1 h2]
  | fixed32 x => cases h' with | fixed32 y => rw [b4 hd]
  | float32 x => cases h' with | float32 y => rw [b4 hd]
  | fixed64 x => cases h' with | fixed64 y => rw [b8 hd]
  | float64 x => cases h' with | float64 y => rw [b8 hd]
  | string p s h1 => cases h' with | string q t h2 => rw [(h1.1.prefix_unique h2.1 hd).2.2]

theorem decodeScalar_payload {L : Layout} {s : Scalar} {data : Bytes} {v : Val} (hf : Fits L s.shape v)
    (hp : Payload s.wire data) (hb : s = .bool → data.length = 1) :
    ∃ w, decodeScalar s data v = .ok (.ok w data.length) ∧ ReadsAs s data w := by
  obtain ⟨w, h1, _, h3⟩ := decodeScalar_eq L s data v hf
  obtain ⟨e, hr⟩ := scalarRead_payload hp hb
  rw [e] at h1 h3
  refine ⟨w, h1, ?_⟩
  rw [h3 rfl]; exact hr

/-! ### one field -/

/-- The payloads of the records with number `num`, in order. -/
def datasOf (num : Nat) (rs : List (Nat × Nat × Bytes)) : List Bytes :=
  (rs.filter fun r => decide (r.1 = num)).map fun r => r.2.2

/-- Decode payloads one after the other into the same memory. -/
inductive DecAll (dec : Bytes → Val → Except Fault DRes) : List Bytes → Val → Val → Prop
  | nil (v) : DecAll dec [] v v
  | cons (d ds v w x m) : dec d v = .ok (.ok w m) → DecAll dec ds w x → DecAll dec (d :: ds) v x

theorem applyRec_ok {idx : Nat → Option DField} {r : Nat × Nat × Bytes} {vs vs' : List Val}
    (h : applyRec idx r vs = .ok (vs', none)) :
    (idx r.1 = none ∧ vs' = vs) ∨
    ∃ f v v' m, idx r.1 = some f ∧ r.2.1 = f.wt ∧ vs[f.offset]? = some v ∧ f.dec r.2.2 v = .ok (.ok v' m) ∧
      vs' = vs.set f.offset v' := by
  unfold applyRec at h
  cases hi : idx r.1 with
  | none => simp [hi] at h; exact .inl ⟨rfl, h.symm⟩
  | some f =>
    right
    simp only [hi] at h
    split at h
    · simp at h
    · rename_i hw
      cases hv : vs[f.offset]? with
      | none => simp [slotOf, hv] at h
      | some v =>
        simp only [slotOf, hv] at h
        rcases hd : f.dec r.2.2 v with e | ⟨v', m⟩ | ⟨v', e⟩ <;> simp only [hd] at h
        · simp at h
        · simp at h; exact ⟨f, v, v', m, rfl, by simpa using hw, hv, hd, h.symm⟩
        · simp at h

/-- The final contents of a slot that belongs to field number `num` alone. -/
theorem slot_fold {idx : Nat → Option DField} {num : Nat} {f : DField} (hf : idx num = some f)
    (ho : ∀ n g, idx n = some g → g.offset = f.offset → n = num) :
    ∀ rs vs vs' v, foldRecs idx rs vs = .ok (vs', none) → vs[f.offset]? = some v →
      ∃ v', vs'[f.offset]? = some v' ∧ DecAll f.dec (datasOf num rs) v v' := by
  intro rs
  induction rs with
  | nil => intro vs vs' v h hv; simp [foldRecs] at h; subst h; exact ⟨v, hv, .nil v⟩
  | cons r rs ih =>
    intro vs vs' v h hv
    simp only [foldRecs] at h
    rcases ha : applyRec idx r vs with e | ⟨vs1, _ | e⟩ <;> simp only [ha] at h
    · simp at h
    · rcases applyRec_ok ha with ⟨hi, rfl⟩ | ⟨g, x, x', m, hi, hw, hx, hd, rfl⟩
      · have hne : r.1 ≠ num := by rintro rfl; rw [hf] at hi; simp at hi
        obtain ⟨v', h1, h2⟩ := ih vs1 vs' v h hv
        refine ⟨v', h1, ?_⟩
        unfold datasOf at h2 ⊢
        simpa [hne] using h2
      · by_cases hn : r.1 = num
        · have hfg : f = g := by rw [hn, hf] at hi; simpa using hi
          subst hfg
          rw [hv] at hx; cases hx
          have hlt : f.offset < vs.length := (List.getElem?_eq_some_iff.mp hv).1
          obtain ⟨v', h1, h2⟩ := ih (vs.set f.offset x') vs' x' h (by simp [hlt])
          refine ⟨v', h1, ?_⟩
          unfold datasOf at h2 ⊢
          simp only [List.filter_cons, hn, decide_true, if_true, List.map_cons]
          exact .cons _ _ _ _ _ _ hd h2
        · have hne : g.offset ≠ f.offset := fun e => hn (ho _ _ hi e)
          obtain ⟨v', h1, h2⟩ := ih (vs.set g.offset x') vs' v h (by rw [List.getElem?_set_ne hne]; exact hv)
          refine ⟨v', h1, ?_⟩
          unfold datasOf at h2 ⊢
          simpa [hn] using h2
    · simp at h

theorem datasOf_mem {num : Nat} {rs : List (Nat × Nat × Bytes)} {d : Bytes} (h : d ∈ datasOf num rs) :
    ∃ r ∈ rs, r.1 = num ∧ r.2.2 = d := by
  unfold datasOf at h
  simp only [List.mem_map, List.mem_filter, decide_eq_true_eq] at h
  obtain ⟨r, ⟨h1, h2⟩, h3⟩ := h
  exact ⟨r, h1, h2, h3⟩

/-- In an accepted input all records of a declared field carry its wire type. -/
theorem foldRecs_wt {idx : Nat → Option DField} :
    ∀ rs vs vs', foldRecs idx rs vs = .ok (vs', none) → ∀ r ∈ rs, ∀ f, idx r.1 = some f → r.2.1 = f.wt := by
  intro rs
  induction rs with
  | nil => simp
  | cons r rs ih =>
    intro vs vs' h r' hr' f hf
    simp only [foldRecs] at h
    rcases ha : applyRec idx r vs with e | ⟨vs1, _ | e⟩ <;> simp only [ha] at h
    · simp at h
    · rcases List.mem_cons.mp hr' with rfl | hr'
      · rcases applyRec_ok ha with ⟨hi, rfl⟩ | ⟨g, x, x', m, hi, hw, hx, hd, rfl⟩
        · rw [hf] at hi; simp at hi
        · rw [hf] at hi; cases hi; exact hw
      · exact ih vs1 vs' h r' hr' f hf
    · simp at h

end Pb
