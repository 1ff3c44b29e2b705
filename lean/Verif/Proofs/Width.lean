import Verif.Model.Width
import Verif.Proofs.Depth
import Verif.Proofs.Step
import Verif.Spec.Width
/-
Machine integers against natural numbers.
-/
namespace Pb
open Spec

variable {w : Nat}

theorem pow_split (hw : 5 ≤ w) : 2 ^ w = 2 * 2 ^ (w - 1) ∧ 16 ≤ 2 ^ (w - 1) := by
  obtain ⟨k, rfl⟩ : ∃ k, w = k + 5 := ⟨w - 5, by omega⟩
  refine ⟨by rw [show k + 5 - 1 = k + 4 by omega, Nat.pow_succ]; omega, ?_⟩
  rw [show k + 5 - 1 = k + 4 by omega, Nat.pow_add]
  have := Nat.one_le_two_pow (n := k)
  omega

theorem wrapInt_small (hw : 5 ≤ w) {x : Nat} (h : x < 2 ^ (w - 1)) : wrapInt w x = x := by
  obtain ⟨h1, h2⟩ := pow_split hw
  unfold wrapInt
  rw [BitVec.toInt_ofInt, h1, Int.bmod_def]
  generalize 2 ^ (w - 1) = K at *
  have : ((x : Int) % ((2 * K : Nat) : Int)) = x := Int.emod_eq_of_lt (by omega) (by omega)
  rw [this]; split <;> omega

theorem wrapInt_big (hw : 5 ≤ w) {x : Nat} (h : 2 ^ (w - 1) ≤ x) (h' : x < 2 * 2 ^ (w - 1)) : wrapInt w x < 0 := by
  obtain ⟨h1, h2⟩ := pow_split hw
  unfold wrapInt
  rw [BitVec.toInt_ofInt, h1, Int.bmod_def]
  generalize 2 ^ (w - 1) = K at *
  have : ((x : Int) % ((2 * K : Nat) : Int)) = x := Int.emod_eq_of_lt (by omega) (by omega)
  rw [this]; split <;> omega

theorem pow_le_64 (hw : w ≤ 64) : 2 ^ (w - 1) ≤ 2 ^ 63 := Nat.pow_le_pow_right (by omega) (by omega)

/-- `size > uint64(len(b)-n)` -/
theorem gt_len (hw : 5 ≤ w) (hw' : w ≤ 64) {l n : Nat} (hl : l < 2 ^ (w - 1)) (hn : n ≤ l) (v : U64) :
    v > intToU64 (wrapInt w ((l : Int) - (n : Int))) ↔ v.toNat > l - n := by
  have h64 := pow_le_64 hw'
  rw [show ((l : Int) - (n : Int)) = ((l - n : Nat) : Int) by omega, wrapInt_small hw (by omega)]
  unfold intToU64
  rw [gt_iff_lt, BitVec.lt_def, BitVec.ofInt_natCast, BitVec.toNat_ofNat, Nat.mod_eq_of_lt (by omega)]

theorem u64ToInt_small (hw : 5 ≤ w) {v : U64} (h : v.toNat < 2 ^ (w - 1)) : u64ToInt w v = v.toNat := wrapInt_small hw h

theorem fromI_nat (b : Bytes) (i : Nat) : fromI b i = goFrom b i := by
  unfold fromI goFrom
  by_cases h : i ≤ b.length <;> simp [h]

theorem sliceI_nat (b : Bytes) (i j : Nat) : sliceI b i j = goSlice b i j := by
  unfold sliceI goSlice
  by_cases h : i ≤ j ∧ j ≤ b.length
  · rw [if_pos h, if_pos (by omega)]; simp
  · rw [if_neg h, if_neg (by omega)]

theorem sliceI_neg (b : Bytes) (i : Nat) {j : Int} (h : j < 0) : sliceI b i j = .error .oob := by
  unfold sliceI
  rw [if_neg (by omega)]

/-- The result of Go `decodeVarlen` with the count as an `int`. -/
theorem decodeVarlenI_eq (hw : 5 ≤ w) (hw' : w ≤ 64) {b : Bytes} (hb : b.length < 2 ^ (w - 1)) :
    decodeVarlenI w b = (decodeVarlen b).map fun r => (r.1, (r.2.1 : Int), r.2.2) := by
  unfold decodeVarlenI decodeVarlen
  rcases hd : decodeVarint b with ⟨v, n, e⟩
  have hn := decodeVarint_le hd
  cases e with
  | some e => rfl
  | none =>
    simp only [gt_len hw hw' hb hn]
    split
    · rfl
    · rename_i h
      rw [u64ToInt_small hw (by omega), show ((n : Int) + (v.toNat : Int)) = ((n + v.toNat : Nat) : Int) by omega,
        wrapInt_small hw (by omega), sliceI_nat]
      cases goSlice b n (n + v.toNat) <;> rfl

theorem decodeScalarI_eq (hw : 5 ≤ w) (hw' : w ≤ 64) (s : Scalar) {b : Bytes} (hb : b.length < 2 ^ (w - 1)) (p : Val) :
    decodeScalarI w s b p = (decodeScalar s b p).map DRes.toI := by
  cases s
  case string =>
    simp only [decodeScalarI, decodeScalar, decodeVarlenI_eq hw hw' hb, bind, Except.bind, pure, Except.pure]
    rcases decodeVarlen b with f | ⟨d, n, e⟩
    · rfl
    simp only [Except.map]
    by_cases h : n = 0
    · subst h
      simp only [Int.natCast_zero, if_true]
      cases writeStr p [] with
      | error f => rfl
      | ok p => cases e <;> rfl
    · rw [if_neg (by omega), if_neg h]
      cases writeStr p d with
      | error f => rfl
      | ok p => cases e <;> rfl
  all_goals
    simp only [decodeScalarI, bind, Except.bind, pure, Except.pure]
    generalize decodeScalar _ b p = r
    cases r <;> rfl

theorem toI_wrap (g : Val → Val) (r : DRes) : (r.wrap g).toI = r.toI.wrap g := by cases r <;> rfl

theorem decodeOptionI_eq (hw : 5 ≤ w) (hw' : w ≤ 64) (s : Scalar) {b : Bytes} (hb : b.length < 2 ^ (w - 1)) (p : Val) :
    decodeOptionI w s b p = (decodeOption s b p).map DRes.toI := by
  unfold decodeOptionI decodeOption
  cases p <;> try rfl
  rename_i x v
  simp only [decodeScalarI_eq hw hw' s hb, bind, Except.bind, pure, Except.pure]
  cases decodeScalar s b v with
  | error f => rfl
  | ok r => simp only [Except.map, toI_wrap]

theorem decodeBytesI_eq (hw : 5 ≤ w) (hw' : w ≤ 64) {b : Bytes} (hb : b.length < 2 ^ (w - 1)) (p : Val) :
    decodeBytesI w b p = (decodeBytes b p).map DRes.toI := by
  unfold decodeBytesI decodeBytes
  simp only [decodeVarlenI_eq hw hw' hb, bind, Except.bind, pure, Except.pure]
  cases decodeVarlen b with
  | error f => rfl
  | ok r =>
    obtain ⟨d, n, e⟩ := r
    simp only [Except.map]
    cases p <;> try rfl
    cases e <;> rfl

/-- struct.go:66-96 with `int`s: as with natural numbers, or the sum has wrapped around. -/
theorem skipUnknownI_eq (hw : 5 ≤ w) (hw' : w ≤ 64) {b : Bytes} (hb : b.length < 2 ^ (w - 1)) {o : Nat} (ho : o ≤ b.length)
    (wt : Nat) : skipUnknownI w b o wt = (skipUnknown b o wt).map (fun r => ((r.1 : Int), r.2)) ∨
      (2 ^ (w - 1) ≤ 2 * b.length ∧ ∃ z : Int, z < 0 ∧ skipUnknownI w b o wt = .ok (z, none) ∧
        skipUnknown b o wt = .ok (b.length, some .unexpectedEOF)) := by
  have h2 := pow_split hw
  -- the sum and the comparison
  have key : ∀ (skip : Nat) (err : Option Err), skip < 2 ^ (w - 1) → (2 ^ (w - 1) ≤ o + skip → err = none ∧ 2 ^ (w - 1) ≤ 2 * b.length) →
      (if wrapInt w ((o : Int) + (skip : Int)) ≤ b.length then (Except.ok (wrapInt w ((o : Int) + (skip : Int)), err) : Except Fault (Int × Option Err))
        else Except.ok ((b.length : Int), some Err.unexpectedEOF)) =
          Except.map (fun (r : Nat × Option Err) => ((r.1 : Int), r.2))
            (if o + skip ≤ b.length then Except.ok (o + skip, err) else Except.ok (b.length, some .unexpectedEOF)) ∨
      (2 ^ (w - 1) ≤ 2 * b.length ∧ ∃ z : Int, z < 0 ∧
        (if wrapInt w ((o : Int) + (skip : Int)) ≤ b.length then (Except.ok (wrapInt w ((o : Int) + (skip : Int)), err) : Except Fault (Int × Option Err))
          else Except.ok ((b.length : Int), some Err.unexpectedEOF)) = .ok (z, none) ∧
        (if o + skip ≤ b.length then (Except.ok (o + skip, err) : Except Fault (Nat × Option Err)) else Except.ok (b.length, some .unexpectedEOF)) =
          .ok (b.length, some .unexpectedEOF)) := by
    intro skip err hs hbig
    rw [show ((o : Int) + (skip : Int)) = ((o + skip : Nat) : Int) by omega]
    by_cases h : o + skip < 2 ^ (w - 1)
    · left
      rw [wrapInt_small hw h]
      by_cases h' : o + skip ≤ b.length
      · rw [if_pos h', if_pos (by omega)]; rfl
      · rw [if_neg h', if_neg (by omega)]; rfl
    · right
      obtain ⟨he, hl⟩ := hbig (by omega)
      have hz := wrapInt_big hw (x := o + skip) (by omega) (by omega)
      refine ⟨hl, _, hz, ?_, ?_⟩
      · rw [if_pos (by omega), he]
      · rw [if_neg (by omega)]
  unfold skipUnknownI skipUnknown
  simp only [fromI_nat, goFrom_eq ho]
  by_cases h0 : wt = wtVarint
  · simp only [h0, if_true, bind, Except.bind, pure, Except.pure]
    rcases hd : decodeVarint (b.drop o) with ⟨v, n, e⟩
    have hn := decodeVarint_le hd
    simp only [List.length_drop] at hn
    have := key n e (by omega) (by omega)
    exact this
  simp only [h0, if_false]
  by_cases h1 : wt = wtVarlen
  · simp only [h1, if_true, bind, Except.bind, pure, Except.pure]
    rcases hd : decodeVarint (b.drop o) with ⟨v, n, e⟩
    have hn := decodeVarint_le hd
    simp only [List.length_drop] at hn
    cases e with
    | some e =>
      have := key n (some e) (by omega) (by omega)
      exact this
    | none =>
      simp only [gt_len hw hw' hb (show n ≤ b.length by omega)]
      by_cases hv : v.toNat > b.length - n
      · have := key n (some .unexpectedEOF) (by omega) (by omega)
        simpa only [hv, if_true] using this
      · have := key (n + v.toNat) none (by omega) (by intro _; exact ⟨rfl, by omega⟩)
        simp only [hv, if_false]
        rw [u64ToInt_small hw (by omega), show ((n : Int) + (v.toNat : Int)) = ((n + v.toNat : Nat) : Int) by omega,
          wrapInt_small hw (x := n + v.toNat) (by omega)]
        exact this
  simp only [h1, if_false]
  by_cases h5 : wt = wtFixed32
  · simp only [h5, if_true, bind, Except.bind, pure, Except.pure]
    have := key 4 none (by omega) (by intro _; exact ⟨rfl, by omega⟩)
    exact this
  simp only [h5, if_false]
  by_cases h8 : wt = wtFixed64
  · simp only [h8, if_true, bind, Except.bind, pure, Except.pure]
    have := key 8 none (by omega) (by intro _; exact ⟨rfl, by omega⟩)
    exact this
  · simp only [h8, if_false, bind, Except.bind, pure, Except.pure]
    have := key 0 (some .wireTypeUnknown) (by omega) (by omega)
    exact this

/-- struct.go:106-139 with `int`s. -/
theorem fieldDataI_eq (hw : 5 ≤ w) (hw' : w ≤ 64) {b : Bytes} (hb : b.length < 2 ^ (w - 1)) {o : Nat} (ho : o ≤ b.length)
    (wt : Nat) : fieldDataI w b o wt = fieldData b o wt ∨
      (2 ^ (w - 1) ≤ 2 * b.length ∧ fieldDataI w b o wt = .error .oob ∧ fieldData b o wt = .ok (.error .unexpectedEOF)) := by
  have h2 := pow_split hw
  unfold fieldDataI fieldData
  simp only [fromI_nat, goFrom_eq ho, bind, Except.bind, pure, Except.pure]
  by_cases h0 : wt = wtVarint
  · left
    simp only [h0, if_true]
    rcases hd : decodeVarint (b.drop o) with ⟨v, n, e⟩
    have hn := decodeVarint_le hd
    simp only [List.length_drop] at hn
    cases e with
    | some e => rfl
    | none =>
      simp only
      rw [show ((o : Int) + (n : Int)) = ((o + n : Nat) : Int) by omega, wrapInt_small hw (by omega), sliceI_nat]
  simp only [h0, if_false]
  by_cases h1 : wt = wtVarlen
  · left
    simp only [h1, if_true]
    rcases hd : decodeVarint (b.drop o) with ⟨v, n, e⟩
    have hn := decodeVarint_le hd
    simp only [List.length_drop] at hn
    cases e with
    | some e => rfl
    | none =>
      simp only
      rw [show ((o : Int) + (n : Int)) = ((o + n : Nat) : Int) by omega, wrapInt_small hw (show o + n < _ by omega)]
      simp only [gt_len hw hw' hb (show o + n ≤ b.length by omega)]
      by_cases hv : v.toNat > b.length - (o + n)
      · simp only [hv, if_true]
      · simp only [hv, if_false]
        rw [u64ToInt_small hw (by omega), show (((o + n : Nat) : Int) + (v.toNat : Int)) = ((o + n + v.toNat : Nat) : Int) by omega,
          wrapInt_small hw (by omega), sliceI_nat]
  simp only [h1, if_false]
  by_cases h5 : wt = wtFixed32
  · simp only [h5, if_true]
    rw [show ((o : Int) + 4) = ((o + 4 : Nat) : Int) by omega]
    by_cases h : o + 4 < 2 ^ (w - 1)
    · left
      rw [wrapInt_small hw h, sliceI_nat]
      by_cases h' : o + 4 > b.length
      · rw [if_pos h', if_pos (by omega)]
      · rw [if_neg h', if_neg (by omega)]
    · right
      have hz := wrapInt_big hw (x := o + 4) (by omega) (by omega)
      refine ⟨by omega, ?_, ?_⟩
      · rw [if_neg (by omega), sliceI_neg _ _ hz]
      · rw [if_pos (by omega)]
  simp only [h5, if_false]
  by_cases h8 : wt = wtFixed64
  · simp only [h8, if_true]
    rw [show ((o : Int) + 8) = ((o + 8 : Nat) : Int) by omega]
    by_cases h : o + 8 < 2 ^ (w - 1)
    · left
      rw [wrapInt_small hw h, sliceI_nat]
      by_cases h' : o + 8 > b.length
      · rw [if_pos h', if_pos (by omega)]
      · rw [if_neg h', if_neg (by omega)]
    · right
      have hz := wrapInt_big hw (x := o + 8) (by omega) (by omega)
      refine ⟨by omega, ?_, ?_⟩
      · rw [if_neg (by omega), sliceI_neg _ _ hz]
      · rw [if_pos (by omega)]
  · simp only [h8, if_false]; exact .inl trivial

theorem _root_.Pb.Spec.SmallVarints.sub {a b c : Bytes} (h : SmallVarints w (a ++ b ++ c)) : SmallVarints w b := by
  intro pre p suf n hb hp
  exact h (a ++ pre) p (suf ++ c) n (by rw [hb]; simp only [List.append_assoc]) hp

theorem _root_.Pb.Spec.SmallVarints.drop {b : Bytes} (h : SmallVarints w b) (n : Nat) : SmallVarints w (b.drop n) := by
  refine SmallVarints.sub (a := b.take n) (c := []) ?_
  rw [List.append_nil, List.take_append_drop]; exact h

theorem _root_.Pb.Spec.SmallVarints.take {b : Bytes} (h : SmallVarints w b) (n : Nat) : SmallVarints w (b.take n) := by
  refine SmallVarints.sub (a := []) (c := b.drop n) ?_
  rw [List.nil_append, List.take_append_drop]; exact h

theorem smallVarints_64 (b : Bytes) (hw : 62 ≤ w) : SmallVarints w b := by
  intro pre p suf n _ hp
  have := hp.small
  have : 2 ^ 64 ≤ 2 ^ (w + 2) := Nat.pow_le_pow_right (by omega) (by omega)
  omega

theorem decodeTagI_eq (hw : 5 ≤ w) {b : Bytes} (h : SmallVarints w b) {num wt n : Nat} (hd : decodeTag b = (num, wt, n, none)) :
    decodeTagI w b = (num, wt, n, none) := by
  unfold decodeTag at hd
  unfold decodeTagI
  rcases hv : decodeVarint b with ⟨v, m, e⟩
  rw [hv] at hd
  simp only [Prod.mk.injEq] at hd ⊢
  obtain ⟨h1, h2, h3, rfl⟩ := hd
  obtain ⟨p, r, hb, hp, _⟩ := decodeVarint_inv hv
  have hs := h [] p r _ (by simpa using hb) hp
  refine ⟨?_, h2, h3, rfl⟩
  rw [Nat.mod_eq_of_lt, h1]
  rw [BitVec.toNat_ushiftRight, Nat.shiftRight_eq_div_pow]
  have : 2 ^ (w + 2) ≤ 2 ^ w * 2 ^ 3 := by rw [← Nat.pow_add]; exact Nat.pow_le_pow_right (by omega) (by omega)
  exact Nat.div_lt_of_lt_mul (by rw [Nat.mul_comm]; omega)

theorem decodeTagI_err (w : Nat) {b : Bytes} {num wt n : Nat} {e : Err} (hd : decodeTag b = (num, wt, n, some e)) :
    ∃ num', decodeTagI w b = (num', wt, n, some e) := by
  unfold decodeTag at hd
  unfold decodeTagI
  rcases hv : decodeVarint b with ⟨v, m, e'⟩
  rw [hv] at hd
  simp only [Prod.mk.injEq] at hd ⊢
  exact ⟨_, rfl, hd.2⟩

/-- The result with `int`s is the one with natural numbers, or an index out of range where that one is an error. -/
def Agrees (w len : Nat) (r : Except Fault DRes) (rI : Except Fault DResI) : Prop :=
  rI = r.map DRes.toI ∨ (2 ^ (w - 1) ≤ 2 * len ∧ rI = .error .oob ∧ ∃ v e, r = .ok (.err v e) ∧ e.root = .unexpectedEOF)

theorem Agrees.mono {l l' : Nat} {r rI} (h : Agrees w l r rI) (hl : l ≤ l') : Agrees w l' r rI := by
  rcases h with h | ⟨h1, h2⟩
  · exact .inl h
  · exact .inr ⟨by omega, h2⟩

/-- Decode functions that agree on inputs that are not too long. -/
def DecAgree (w : Nat) (dec : Bytes → Val → Except Fault DRes) (decI : Bytes → Val → Except Fault DResI) : Prop :=
  ∀ b v, b.length < 2 ^ (w - 1) → SmallVarints w b → Agrees w b.length (dec b v) (decI b v)

def FieldAgree (w : Nat) (f : DField) (g : DFieldI) : Prop :=
  g.num = f.num ∧ g.wt = f.wt ∧ g.offset = f.offset ∧ DecAgree w f.dec g.dec

/-- Index maps that agree. -/
def IdxAgree (w : Nat) (idx : Nat → Option DField) (idxI : Nat → Option DFieldI) : Prop :=
  ∀ n, match idx n, idxI n with
    | none, none => True
    | some f, some g => FieldAgree w f g
    | _, _ => False

theorem fieldData_len {b d : Bytes} {o wt : Nat} (ho : o ≤ b.length) (h : fieldData b o wt = .ok (.ok d)) :
    o + d.length ≤ b.length := by
  have slice : ∀ {i j : Nat} {d : Bytes}, goSlice b i j = .ok d → i + d.length ≤ b.length := by
    intro i j d h
    unfold goSlice at h
    split at h
    · cases h; simp only [List.length_drop, List.length_take]; omega
    · cases h
  unfold fieldData at h
  simp only [goFrom_eq ho, bind, Except.bind, pure, Except.pure] at h
  repeat' split at h
  all_goals first
    | (cases h; done)
    | skip
  all_goals
    (rename_i hs; try rename_i hs1
     cases h
     first | exact slice hs | exact slice hs1)

theorem fieldData_small {b d : Bytes} {o wt : Nat} (hsm : SmallVarints w b) (ho : o ≤ b.length) (h : fieldData b o wt = .ok (.ok d)) :
    SmallVarints w d := by
  have slice : ∀ {i j : Nat} {d : Bytes}, goSlice b i j = .ok d → SmallVarints w d := by
    intro i j d h
    unfold goSlice at h
    split at h
    · cases h; exact (hsm.take _).drop _
    · cases h
  unfold fieldData at h
  simp only [goFrom_eq ho, bind, Except.bind, pure, Except.pure] at h
  repeat' split at h
  all_goals first
    | (cases h; done)
    | skip
  all_goals
    (rename_i hs; try rename_i hs1
     cases h
     first | exact slice hs | exact slice hs1)

theorem structLoopI_eq (hw : 5 ≤ w) (hw' : w ≤ 64) {idx : Nat → Option DField} {idxI : Nat → Option DFieldI}
    (hidx : IdxAgree w idx idxI) (hbd : ∀ n f, idx n = some f → Bounded f.dec) {b : Bytes} (hb : b.length < 2 ^ (w - 1))
    (hsm : SmallVarints w b) : ∀ fuel (o : Nat) vs, o ≤ b.length → b.length - o ≤ fuel →
      Agrees w b.length (structLoop idx b fuel o vs) (structLoopI w idxI b (fuel + 1) o vs) := by
  intro fuel
  induction fuel with
  | zero =>
    intro o vs ho hfu
    left
    unfold structLoop structLoopI
    rw [if_neg (by omega), if_neg (by omega)]; rfl
  | succ fuel ih =>
    intro o vs ho hfu
    unfold structLoop structLoopI
    by_cases h : o < b.length
    · rw [if_pos h, if_pos (by omega)]
      simp only [fromI_nat, goFrom_eq ho, bind, Except.bind, pure, Except.pure]
      rcases hd : decodeTag (b.drop o) with ⟨num, wt, n, e⟩
      have hn := decodeTag_le hd
      simp only [List.length_drop] at hn
      cases e with
      | some e =>
        obtain ⟨num', hd'⟩ := decodeTagI_err w hd
        rw [hd']; exact .inl rfl
      | none =>
        have hpos := decodeTag_pos hd
        rw [decodeTagI_eq hw (hsm.drop o) hd]
        simp only
        rw [show ((o : Int) + (n : Int)) = ((o + n : Nat) : Int) by omega, wrapInt_small hw (by omega)]
        have hi := hidx num
        cases h1 : idx num with
        | none =>
          cases h2 : idxI num with
          | some g => rw [h1, h2] at hi; exact hi.elim
          | none =>
            simp only
            rcases skipUnknownI_eq hw hw' hb (show o + n ≤ b.length by omega) wt with hs | ⟨hl, z, hz, hs, hs'⟩
            · rw [hs]
              obtain ⟨m, hm⟩ := skipUnknown_eq (wt := wt) (show o + n ≤ b.length by omega)
              rw [hm]
              cases ht : takePayload (b.drop (o + n)) wt with
              | error e => exact .inl rfl
              | ok dr =>
                obtain ⟨d, r⟩ := dr
                have := congrArg List.length (takePayload_append ht)
                simp only [List.length_drop, List.length_append] at this
                exact ih _ _ (by omega) (by omega)
            · rw [hs, hs']
              refine .inr ⟨hl, ?_, _, _, rfl, rfl⟩
              simp only
              unfold structLoopI
              rw [if_pos (by omega)]
              simp only [fromI, bind, Except.bind]; rw [if_neg (by omega)]
        | some f =>
          cases h2 : idxI num with
          | none => rw [h1, h2] at hi; exact hi.elim
          | some g =>
            rw [h1, h2] at hi
            obtain ⟨_, hwt, hof, hdec⟩ := hi
            simp only [hwt]
            by_cases hne : wt ≠ f.wt
            · rw [if_pos hne, if_pos hne]; exact .inl rfl
            rw [if_neg hne, if_neg hne]
            rcases fieldDataI_eq hw hw' hb (show o + n ≤ b.length by omega) wt with hs | ⟨hl, hs, hs'⟩
            · rw [hs]
              rcases hf : fieldData b (o + n) wt with e | (e | data)
              · exact .inl rfl
              · exact .inl rfl
              · simp only [hof]
                have hlen := fieldData_len (show o + n ≤ b.length by omega) hf
                cases hv : slotOf (.struct vs) f.offset with
                | error e => exact .inl rfl
                | ok v =>
                  simp only
                  rcases hdec data v (by omega) (fieldData_small hsm (show o + n ≤ b.length by omega) hf) with hr | ⟨hl, hr, v', e, hr', he⟩
                  · rw [hr]
                    rcases hx : f.dec data v with e | (⟨v', m⟩ | ⟨v', e⟩)
                    · exact .inl rfl
                    · have hm := hbd num f h1 _ _ _ _ hx
                      simp only [Except.map, DRes.toI]
                      rw [show (((o + n : Nat) : Int) + (m : Int)) = ((o + n + m : Nat) : Int) by omega, wrapInt_small hw (by omega)]
                      exact ih _ _ (by omega) (by omega)
                    · exact .inl rfl
                  · rw [hr, hr']
                    exact .inr ⟨by omega, rfl, _, _, rfl, he⟩
            · rw [hs, hs']
              exact .inr ⟨hl, rfl, _, _, rfl, rfl⟩
    · rw [if_neg h, if_neg (by omega)]; exact .inl rfl

theorem fieldIndex_agree {fs : List DField} {gs : List DFieldI} (h : fs.length = gs.length)
    (hfg : ∀ (i : Nat) f g, fs[i]? = some f → gs[i]? = some g → FieldAgree w f g) :
    IdxAgree w (fieldIndex fs) (fieldIndexI gs) := by
  unfold fieldIndex fieldIndexI
  have aux : ∀ (fs : List DField) (gs : List DFieldI) (m : Nat → Option DField) (mI : Nat → Option DFieldI), fs.length = gs.length →
      (∀ (i : Nat) f g, fs[i]? = some f → gs[i]? = some g → FieldAgree w f g) → IdxAgree w m mI →
      IdxAgree w (fs.foldl (fun m f => fun n => if n = f.num then some f else m n) m)
        (gs.foldl (fun m f => fun n => if n = f.num then some f else m n) mI) := by
    intro fs
    induction fs with
    | nil =>
      intro gs m mI hl _ hm
      cases gs with
      | nil => exact hm
      | cons => cases hl
    | cons f fs ih =>
      intro gs m mI hl hfg hm
      cases gs with
      | nil => cases hl
      | cons g gs =>
        have h0 := hfg 0 f g rfl rfl
        refine ih gs _ _ (by simpa using hl) (fun i f g h1 h2 => hfg (i + 1) f g h1 h2) ?_
        intro n
        simp only [h0.1]
        by_cases hn : n = f.num
        · simp only [hn, if_true]; exact h0
        · simp only [hn, if_false]; exact hm n
  exact aux fs gs _ _ h hfg (fun _ => trivial)

theorem structDecodeI_eq (hw : 5 ≤ w) (hw' : w ≤ 64) {fs : List DField} {gs : List DFieldI} (h : fs.length = gs.length)
    (hfg : ∀ (i : Nat) f g, fs[i]? = some f → gs[i]? = some g → FieldAgree w f g)
    (hbd : ∀ n f, fieldIndex fs n = some f → Bounded f.dec) : DecAgree w (structDecode fs) (structDecodeI w gs) := by
  intro b v hb hsm
  unfold structDecode structDecodeI
  cases v <;> try exact .inl rfl
  exact structLoopI_eq hw hw' (fieldIndex_agree h hfg) hbd hb hsm _ 0 _ (by omega) (by omega)

theorem structDecode_count {fs : List DField} (hbd : ∀ n f, fieldIndex fs n = some f → Bounded f.dec) : Bounded (structDecode fs) := by
  intro b v v' n h
  cases v with
  | struct vs =>
    rw [structDecode_eq _ hbd] at h
    rcases hr : run (fieldIndex fs) b vs with e | ⟨vs', e⟩
    · rw [hr] at h; cases h
    · rw [hr] at h
      cases e <;> cases h
      exact Nat.le_refl _
  | _ => cases h

theorem Agrees.wrap {l : Nat} {r rI} (g : Val → Val) (h : Agrees w l r rI) :
    Agrees w l (do return (← r).wrap g) (do return (← rI).wrap g) := by
  rcases h with rfl | ⟨h1, rfl, v, e, rfl, h4⟩
  · left
    cases r with
    | error f => rfl
    | ok r => cases r <;> rfl
  · exact .inr ⟨h1, rfl, _, _, rfl, h4⟩

theorem codecDecodeI_eq (hw : 5 ≤ w) (hw' : w ≤ 64) (zeros : TypeId → Val) {rec : TypeId → Bytes → Val → Except Fault DRes}
    {recI : TypeId → Bytes → Val → Except Fault DResI} (hrec : ∀ t, DecAgree w (rec t) (recI t)) (hbd : ∀ t, Bounded (rec t)) :
    ∀ c, DecAgree w (codecDecode zeros rec c) (codecDecodeI w zeros recI c) := by
  intro c
  induction c with
  | normal s => intro b v hb _; exact .inl (decodeScalarI_eq hw hw' s hb v)
  | required s => intro b v hb _; exact .inl (decodeScalarI_eq hw hw' s hb v)
  | option s => intro b v hb _; exact .inl (decodeOptionI_eq hw hw' s hb v)
  | bytes => intro b v hb _; exact .inl (decodeBytesI_eq hw hw' hb v)
  | ptr zero c ih =>
    intro b v hb hsm
    simp only [codecDecode, codecDecodeI]
    cases v <;> try exact .inl rfl
    · exact (ih b zero hb hsm).wrap _
    · exact (ih b _ hb hsm).wrap _
  | msg t =>
    intro b p hb hsm
    simp only [codecDecode, codecDecodeI, bind, Except.bind, pure, Except.pure, fromI_nat]
    rcases hd : decodeVarint b with ⟨l, n, e⟩
    have hn := decodeVarint_le hd
    cases p with
    | nilp =>
      generalize zeros t = v
      cases e with
      | some e => exact .inl rfl
      | none =>
        simp only [goFrom_eq hn]
        rcases hrec t (b.drop n) v (by simp only [List.length_drop]; omega) (hsm.drop n) with hr | ⟨h1, h2, v', e, h3, h4⟩
        · rw [hr]
          rcases hx : rec t (b.drop n) v with f | (⟨v', l⟩ | ⟨v', e⟩)
          · exact .inl rfl
          · have := hbd t _ _ _ _ hx
            simp only [List.length_drop] at this
            simp only [Except.map, DRes.toI]
            rw [show ((n : Int) + (l : Int)) = ((n + l : Nat) : Int) by omega, wrapInt_small hw (by omega)]
            exact .inl rfl
          · exact .inl rfl
        · rw [h2, h3]
          simp only [List.length_drop] at h1
          exact .inr ⟨by omega, rfl, _, _, rfl, h4⟩
    | ptr v =>
      cases e with
      | some e => exact .inl rfl
      | none =>
        simp only [goFrom_eq hn]
        rcases hrec t (b.drop n) v (by simp only [List.length_drop]; omega) (hsm.drop n) with hr | ⟨h1, h2, v', e, h3, h4⟩
        · rw [hr]
          rcases hx : rec t (b.drop n) v with f | (⟨v', l⟩ | ⟨v', e⟩)
          · exact .inl rfl
          · have := hbd t _ _ _ _ hx
            simp only [List.length_drop] at this
            simp only [Except.map, DRes.toI]
            rw [show ((n : Int) + (l : Int)) = ((n + l : Nat) : Int) by omega, wrapInt_small hw (by omega)]
            exact .inl rfl
          · exact .inl rfl
        · rw [h2, h3]
          simp only [List.length_drop] at h1
          exact .inr ⟨by omega, rfl, _, _, rfl, h4⟩
    | _ => exact .inl rfl
  | slice zero c ih =>
    intro b p hb hsm
    simp only [codecDecode, codecDecodeI, bind, Except.bind, pure, Except.pure]
    cases p <;> try exact .inl rfl
    rename_i isNil es spare
    simp only
    cases growIfFull zero es spare with
    | nil => exact .inl rfl
    | cons slot spare' =>
      simp only
      rcases ih b slot hb hsm with hr | ⟨h1, h2, v', e, h3, h4⟩
      · rw [hr]
        rcases codecDecode zeros rec c b slot with f | (⟨v', l⟩ | ⟨v', e⟩) <;> exact .inl rfl
      · rw [h2, h3]
        exact .inr ⟨h1, rfl, _, _, rfl, h4⟩
  | map i kc vc kd vd _ _ ihk ihv =>
    intro b p hb hsm
    simp only [codecDecode, codecDecodeI, bind, Except.bind, pure, Except.pure, fromI_nat]
    cases p <;> try exact .inl rfl
    rename_i isNil m
    simp only
    by_cases hnil : b = []
    · rw [if_pos hnil, if_pos hnil]; exact .inl rfl
    rw [if_neg hnil, if_neg hnil]
    rcases hd : decodeVarint b with ⟨l, n, e⟩
    have hn := decodeVarint_le hd
    cases e with
    | some e => exact .inl rfl
    | none =>
      simp only [goFrom_eq hn]
      have hs := structDecodeI_eq hw hw'
        (fs := [{ num := wtNumber i.eKey, wt := wtType i.eKey, offset := 0, dec := codecDecode zeros rec kd },
          { num := wtNumber i.eVal, wt := wtType i.eVal, offset := 1, dec := codecDecode zeros rec vd }])
        (gs := [{ num := wtNumber i.eKey, wt := wtType i.eKey, offset := 0, dec := codecDecodeI w zeros recI kd },
          { num := wtNumber i.eVal, wt := wtType i.eVal, offset := 1, dec := codecDecodeI w zeros recI vd }]) rfl
        (by
          intro k f g h1 h2
          rcases k with _ | _ | k
          · cases h1; cases h2; exact ⟨rfl, rfl, rfl, ihk⟩
          · cases h1; cases h2; exact ⟨rfl, rfl, rfl, ihv⟩
          · cases h1)
        (by
          intro k f hf
          simp only [fieldIndex, List.foldl] at hf
          split at hf
          · cases hf; exact bounded_codec zeros rec hbd vd
          · split at hf
            · cases hf; exact bounded_codec zeros rec hbd kd
            · cases hf)
        (b.drop n) (.struct [i.kzero, i.vzero]) (by simp only [List.length_drop]; omega) (hsm.drop n)
      have hbs := structDecode_count (fs := [{ num := wtNumber i.eKey, wt := wtType i.eKey, offset := 0, dec := codecDecode zeros rec kd },
          { num := wtNumber i.eVal, wt := wtType i.eVal, offset := 1, dec := codecDecode zeros rec vd }]) (by
          intro k f hf
          simp only [fieldIndex, List.foldl] at hf
          split at hf
          · cases hf; exact bounded_codec zeros rec hbd vd
          · split at hf
            · cases hf; exact bounded_codec zeros rec hbd kd
            · cases hf)
      rcases hs with hr | ⟨h1, h2, v', e, h3, h4⟩
      · rw [hr]
        rcases hx : structDecode _ (b.drop n) (.struct [i.kzero, i.vzero]) with f | (⟨v', l⟩ | ⟨v', e⟩)
        · exact .inl rfl
        · have hl := hbs _ _ _ _ hx
          simp only [List.length_drop] at hl
          simp only [Except.map, DRes.toI]
          have hc : wrapInt w ((l : Int) + (n : Int)) = ((l + n : Nat) : Int) := by
            rw [show ((l : Int) + (n : Int)) = ((l + n : Nat) : Int) by omega, wrapInt_small hw (by omega)]
          cases v' with
          | struct vs =>
            match vs with
            | [] => exact .inl rfl
            | [_] => exact .inl rfl
            | [k, v] =>
              simp only [hc]
              cases k.toKey? <;> exact .inl rfl
            | _ :: _ :: _ :: _ => exact .inl rfl
          | _ => exact .inl rfl
        · exact .inl rfl
      · rw [h2, h3]
        simp only [List.length_drop] at h1
        exact .inr ⟨by omega, rfl, _, _, rfl, h4⟩

theorem decodeMsgI_eq (hw : 5 ≤ w) (hw' : w ≤ 64) (env : Env) : ∀ d t, DecAgree w (decodeMsg env d t) (decodeMsgI w env d t) := by
  intro d
  induction d with
  | zero => intro t b v _ _; exact .inl rfl
  | succ d ih =>
    intro t
    show DecAgree w (structDecode _) (structDecodeI w _)
    refine structDecodeI_eq hw hw' (by simp [dfields, dfieldsI]) ?_ ?_
    · intro i f g h1 h2
      unfold dfields at h1
      unfold dfieldsI at h2
      rw [List.getElem?_map] at h1 h2
      cases hf : (env t).fields[i]? with
      | none => rw [hf] at h1; cases h1
      | some fd =>
        rw [hf] at h1 h2
        cases h1; cases h2
        exact ⟨rfl, rfl, rfl, codecDecodeI_eq hw hw' _ ih (bounded_msg env d) _⟩
    · intro k f hf
      rw [fieldIndex_dfields] at hf
      simp only [Option.map_eq_some_iff] at hf
      obtain ⟨g, _, rfl⟩ := hf
      exact bounded_codec _ _ (bounded_msg env d) _

/-! ### size -/

theorem sumSizes_ge {α : Type} {g : α → Except Fault Nat} {xs : List α} : ∀ {n0 n : Nat}, sumSizes g n0 xs = .ok n → n0 ≤ n := by
  induction xs with
  | nil => intro n0 n h; cases h; exact Nat.le_refl _
  | cons x xs ih =>
    intro n0 n h
    simp only [sumSizes, bind, Except.bind] at h
    split at h
    · cases h
    · have := ih h; omega

theorem sumSizesI_eq (hw : 5 ≤ w) {α : Type} {g : α → Except Fault Nat} {gI : α → Except Fault Int} {xs : List α}
    (hg : ∀ x ∈ xs, ∀ n, g x = .ok n → n < 2 ^ (w - 1) → gI x = .ok n) :
    ∀ {n0 n : Nat}, sumSizes g n0 xs = .ok n → n < 2 ^ (w - 1) → sumSizesI w gI n0 xs = .ok n := by
  induction xs with
  | nil => intro n0 n h _; cases h; rfl
  | cons x xs ih =>
    intro n0 n h hn
    simp only [sumSizes, bind, Except.bind] at h
    split at h
    · cases h
    · rename_i s hs
      have := sumSizes_ge h
      simp only [sumSizesI, hg x (List.mem_cons_self ..) s hs (by omega), bind, Except.bind]
      rw [show ((n0 : Int) + (s : Int)) = ((n0 + s : Nat) : Int) by omega, wrapInt_small hw (by omega)]
      exact ih (fun y hy => hg y (List.mem_cons_of_mem _ hy)) h hn

theorem intToU64_nat (n : Nat) : intToU64 n = BitVec.ofNat 64 n := BitVec.ofInt_natCast ..

theorem codecSizeI_eq (hw : 5 ≤ w) {rec : TypeId → Val → Except Fault Nat} {recI : TypeId → Val → Except Fault Int}
    (hrec : ∀ t v n, rec t v = .ok n → n < 2 ^ (w - 1) → recI t v = .ok n) :
    ∀ c v f n, codecSize rec c v f = .ok n → n < 2 ^ (w - 1) → codecSizeI w recI c v f = .ok n := by
  intro c
  induction c with
  | normal s | required s | option s | bytes =>
    intro v f n h hn
    simp only [codecSize] at h
    simp only [codecSizeI, h, bind, Except.bind, pure, Except.pure, wrapInt_small hw hn]
  | ptr z c ih =>
    intro v f n h hn
    cases v with
    | nilp => cases h; rfl
    | ptr v => exact ih v f n h hn
    | _ => cases h
  | msg t =>
    intro v f n h hn
    cases v with
    | nilp => cases h; rfl
    | ptr v =>
      simp only [codecSize, bind, Except.bind, pure, Except.pure] at h
      rcases hr : rec t v with e | m
      · rw [hr] at h; cases h
      · rw [hr] at h; cases h
        simp only [codecSizeI, hrec t v m hr (by omega), bind, Except.bind, pure, Except.pure, intToU64_nat]
        rw [show ((sizeOfVarint (BitVec.ofNat 64 m) : Int) + (f.tagsize : Int)) = ((sizeOfVarint (BitVec.ofNat 64 m) + f.tagsize : Nat) : Int) by omega,
          wrapInt_small hw (by omega),
          show ((m : Int) + ((sizeOfVarint (BitVec.ofNat 64 m) + f.tagsize : Nat) : Int)) = ((m + (sizeOfVarint (BitVec.ofNat 64 m) + f.tagsize) : Nat) : Int) by omega,
          wrapInt_small hw hn]
    | _ => cases h
  | slice z c ih =>
    intro v f n h hn
    cases v with
    | slice isNil es sp => exact sumSizesI_eq hw (fun e _ m hm hk => ih e f m hm hk) (n0 := 0) h hn
    | _ => cases h
  | map i kc vc kd vd ihk ihv _ _ =>
    intro v f n h hn
    cases v with
    | map isNil m =>
      simp only [codecSize, bind, Except.bind, pure, Except.pure] at h
      split at h
      · cases h
      · rename_i k hk
        have hk' : k < 2 ^ (w - 1) := by split at h <;> cases h <;> omega
        have hs := sumSizesI_eq hw (w := w) (gI := fun (e : Key × Val) => do
          let keySize ← codecSizeI w recI kc e.1.toVal i.key
          let valSize ← codecSizeI w recI vc e.2 i.val
          return wrapInt w (wrapInt w (wrapInt w (sizeOfVarint i.wiretag + sizeOfVarint (intToU64 (wrapInt w (keySize + valSize)))) + keySize) + valSize)) (by
            intro e _ s hs hlt
            split at hs
            · cases hs
            · rename_i ks hks
              split at hs
              · cases hs
              · rename_i vs hvs
                cases hs
                simp only [ihk _ _ _ hks (by omega), ihv _ _ _ hvs (by omega), bind, Except.bind, pure, Except.pure]
                rw [show ((ks : Int) + (vs : Int)) = ((ks + vs : Nat) : Int) by omega, wrapInt_small hw (by omega), intToU64_nat]
                generalize sizeOfVarint i.wiretag = a at hlt ⊢
                generalize sizeOfVarint (BitVec.ofNat 64 (ks + vs)) = c at hlt ⊢
                rw [show ((a : Int) + (c : Int)) = ((a + c : Nat) : Int) by omega, wrapInt_small hw (by omega),
                  show (((a + c : Nat) : Int) + (ks : Int)) = ((a + c + ks : Nat) : Int) by omega, wrapInt_small hw (by omega),
                  show (((a + c + ks : Nat) : Int) + (vs : Int)) = ((a + c + ks + vs : Nat) : Int) by omega, wrapInt_small hw (by omega)])
          (n0 := 0) hk hk'
        simp only [codecSizeI]
        simp only [bind, Except.bind, pure, Except.pure] at hs ⊢
        rw [show ((0 : Nat) : Int) = 0 from rfl] at hs
        rw [hs]
        by_cases h0 : k = 0
        · subst h0
          simp only [if_true] at h
          cases h
          simp only [Int.natCast_zero, if_true]
          rw [show ((sizeOfVarint i.wiretag : Int) + 1) = ((sizeOfVarint i.wiretag + 1 : Nat) : Int) by omega, wrapInt_small hw hn]
        · simp only [h0, if_false] at h
          cases h
          simp only
          rw [if_neg (by omega)]
    | _ => cases h

theorem sizeMsgI_eq (hw : 5 ≤ w) (env : Env) : ∀ d t v n, sizeMsg env d t v = .ok n → n < 2 ^ (w - 1) → sizeMsgI w env d t v = .ok n := by
  intro d
  induction d with
  | zero => intro t v n h; cases h
  | succ d ih =>
    intro t v n h hn
    refine sumSizesI_eq hw ?_ (n0 := 0) h hn
    intro f _ s hs hlt
    simp only [bind, Except.bind] at hs ⊢
    cases hv : slotOf v f.offset with
    | error e => rw [hv] at hs; cases hs
    | ok x => rw [hv] at hs; exact codecSizeI_eq hw ih _ _ _ _ hs hlt

end Pb
