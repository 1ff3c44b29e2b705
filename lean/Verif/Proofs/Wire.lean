import Verif.Spec.Wire
/-
Helper lemmas about the wire primitives.
-/
namespace Pb
open Spec

theorem contByte_eq (v : U64) (s : Nat) :
    contByte v s = BitVec.ofNat 8 (v.toNat / 2 ^ s % 128 + 128) := by
  apply BitVec.eq_of_toNat_eq
  have h1 : (v.toNat / 2 ^ s &&& 127) = v.toNat / 2 ^ s % 128 := Nat.and_two_pow_sub_one_eq_mod _ 7
  have h2 : v.toNat / 2 ^ s % 128 ||| 128 = 2 ^ 7 * 1 + v.toNat / 2 ^ s % 128 := by
    rw [Nat.two_pow_add_eq_or_of_lt (by omega)]
    simp [Nat.or_comm]
  simp only [contByte, BitVec.toNat_setWidth, BitVec.toNat_or, BitVec.toNat_and,
    BitVec.toNat_ushiftRight, Nat.shiftRight_eq_div_pow, BitVec.toNat_ofNat]
  simp only [Nat.reducePow, Nat.reduceMod] at *
  rw [h1, h2]; omega

theorem lastByte_eq (v : U64) (s : Nat) : lastByte v s = BitVec.ofNat 8 (v.toNat / 2 ^ s) := by
  apply BitVec.eq_of_toNat_eq
  simp [lastByte, Nat.shiftRight_eq_div_pow]

theorem leb128_lt {n : Nat} (h : n < 128) : leb128 n = [BitVec.ofNat 8 n] := by
  rw [leb128, if_pos h]

theorem leb128_ge {n : Nat} (h : ¬ n < 128) :
    leb128 n = BitVec.ofNat 8 (n % 128 + 128) :: leb128 (n / 128) := by
  rw [leb128, if_neg h]

theorem leb128_step (n k : Nat) (h : ¬ n / k < 128) :
    leb128 (n / k) = BitVec.ofNat 8 (n / k % 128 + 128) :: leb128 (n / (k * 128)) := by
  rw [leb128_ge h, Nat.div_div_eq_div_mul]

theorem appendVarint_eq (b : Bytes) (v : U64) : appendVarint b v = b ++ leb128 v.toNat := by
  have hv := v.isLt
  unfold appendVarint
  simp only [BitVec.lt_def, contByte_eq, lastByte_eq]
  generalize hn : v.toNat = n at *
  simp only [BitVec.toNat_shiftLeft, BitVec.toNat_ofNat, Nat.shiftLeft_eq, Nat.reducePow, Nat.reduceMod,
    Nat.one_mul, Nat.div_one]
  have e0 : BitVec.setWidth 8 v = BitVec.ofNat 8 n := by
    apply BitVec.eq_of_toNat_eq; simp [hn]
  repeat' split
  all_goals (congr 1)
  · rw [leb128_lt (by omega), e0]
  · rw [leb128_ge (by omega), leb128_lt (by omega)]
  · rw [leb128_ge (by omega), leb128_step _ _ (by omega), leb128_lt (by omega)]
  · rw [leb128_ge (by omega), leb128_step _ _ (by omega), leb128_step _ _ (by omega), leb128_lt (by omega)]
  · rw [leb128_ge (by omega), leb128_step _ _ (by omega), leb128_step _ _ (by omega), leb128_step _ _ (by omega), leb128_lt (by omega)]
  · rw [leb128_ge (by omega), leb128_step _ _ (by omega), leb128_step _ _ (by omega), leb128_step _ _ (by omega), leb128_step _ _ (by omega), leb128_lt (by omega)]
  · rw [leb128_ge (by omega), leb128_step _ _ (by omega), leb128_step _ _ (by omega), leb128_step _ _ (by omega), leb128_step _ _ (by omega), leb128_step _ _ (by omega), leb128_lt (by omega)]
  · rw [leb128_ge (by omega), leb128_step _ _ (by omega), leb128_step _ _ (by omega), leb128_step _ _ (by omega), leb128_step _ _ (by omega), leb128_step _ _ (by omega), leb128_step _ _ (by omega), leb128_lt (by omega)]
  · rw [leb128_ge (by omega), leb128_step _ _ (by omega), leb128_step _ _ (by omega), leb128_step _ _ (by omega), leb128_step _ _ (by omega), leb128_step _ _ (by omega), leb128_step _ _ (by omega), leb128_step _ _ (by omega), leb128_lt (by omega)]
  · have h9 : n / 9223372036854775808 = 1 := by omega
    rw [leb128_ge (by omega), leb128_step _ _ (by omega), leb128_step _ _ (by omega), leb128_step _ _ (by omega), leb128_step _ _ (by omega), leb128_step _ _ (by omega), leb128_step _ _ (by omega), leb128_step _ _ (by omega), leb128_step _ _ (by omega)]
    simp [h9, leb128_lt]

theorem leb128_ne_nil (n : Nat) : leb128 n ≠ [] := by
  rw [leb128]; split <;> simp

theorem leb128_length_pos (n : Nat) : 0 < (leb128 n).length :=
  List.length_pos_iff.mpr (leb128_ne_nil n)

/-- The notation of `n` has at most `k` bytes iff `n < 128 ^ k`. -/
theorem leb128_length_le (k : Nat) : ∀ n, (leb128 n).length ≤ k + 1 ↔ n < 128 ^ (k + 1) := by
  induction k with
  | zero =>
    intro n
    by_cases h : n < 128
    · simp [leb128_lt h, h]
    · have := leb128_length_pos (n / 128)
      simp only [leb128_ge h, List.length_cons]; omega
  | succ k ih =>
    intro n
    by_cases h : n < 128
    · have : 128 ≤ 128 ^ (k + 1 + 1) := by
        rw [Nat.pow_succ]
        exact Nat.le_mul_of_pos_left _ (Nat.pow_pos (by omega))
      simp only [leb128_lt h, List.length_singleton]; omega
    · simp only [leb128_ge h, List.length_cons]
      have := ih (n / 128)
      rw [Nat.div_lt_iff_lt_mul (by omega)] at this
      rw [Nat.pow_succ 128 (k + 1)]
      omega

theorem bitsLen64_go (v : U64) : ∀ k, bitsLen64.go k v ≤ k ∧ (∀ j, j < k → (bitsLen64.go k v ≤ j ↔ v.toNat % 2 ^ k < 2 ^ j)) := by
  intro k
  induction k with
  | zero => simp [bitsLen64.go]
  | succ k ih =>
    rw [bitsLen64.go]
    have hb : v.getLsbD k = v.toNat.testBit k := rfl
    have hmod : v.toNat % 2 ^ (k + 1) = v.toNat % 2 ^ k + 2 ^ k * (v.toNat.testBit k).toNat := by
      rw [Nat.mod_pow_succ, Nat.toNat_testBit]
    cases h : v.toNat.testBit k with
    | true =>
      simp only [hb, h, if_true]
      refine ⟨by omega, fun j hj => ?_⟩
      rw [h] at hmod
      have : 2 ^ j ≤ 2 ^ k := Nat.pow_le_pow_right (by omega) (by omega)
      simp at hmod
      omega
    | false =>
      simp only [hb, h]
      refine ⟨by have := ih.1; simp; omega, fun j hj => ?_⟩
      rw [h] at hmod
      simp at hmod
      simp only [hmod, Bool.false_eq_true, if_false]
      by_cases hjk : j < k
      · exact ih.2 j hjk
      · have hjk' : j = k := by omega
        subst hjk'
        exact ⟨fun _ => Nat.mod_lt _ (Nat.pow_pos (by omega)), fun _ => ih.1⟩

theorem bitsLen64_le (v : U64) (j : Nat) (hj : j < 64) : bitsLen64 v ≤ j ↔ v.toNat < 2 ^ j := by
  have h := (bitsLen64_go v 64).2 j hj
  rw [Nat.mod_eq_of_lt v.isLt] at h
  exact h

theorem bitsLen64_le64 (v : U64) : bitsLen64 v ≤ 64 := (bitsLen64_go v 64).1

theorem sizeOfVarint_eq (v : U64) : sizeOfVarint v = (leb128 v.toNat).length := by
  have hv := v.isLt
  have hp := leb128_length_pos v.toNat
  have b64 := bitsLen64_le64 v
  have l := fun k => leb128_length_le k v.toNat
  have l0 := l 0; have l1 := l 1; have l2 := l 2; have l3 := l 3; have l4 := l 4; have l5 := l 5
  have l6 := l 6; have l7 := l 7; have l8 := l 8; have l9 := l 9
  have b1 := bitsLen64_le v 7 (by omega)
  have b2 := bitsLen64_le v 14 (by omega)
  have b3 := bitsLen64_le v 21 (by omega)
  have b4 := bitsLen64_le v 28 (by omega)
  have b5 := bitsLen64_le v 35 (by omega)
  have b6 := bitsLen64_le v 42 (by omega)
  have b7 := bitsLen64_le v 49 (by omega)
  have b8 := bitsLen64_le v 56 (by omega)
  have b9 := bitsLen64_le v 63 (by omega)
  clear l
  unfold sizeOfVarint
  simp only [Nat.reducePow, Nat.reduceAdd] at *
  omega

theorem sizeOfVarint_length (v : U64) : (leb128 v.toNat).length = sizeOfVarint v := (sizeOfVarint_eq v).symm

theorem sizeOfVarint_pos (v : U64) : 0 < sizeOfVarint v := by
  rw [sizeOfVarint_eq]; exact leb128_length_pos _

theorem leb128_length_le_ten (v : U64) : (leb128 v.toNat).length ≤ 10 := by
  rw [leb128_length_le 9]; have := v.isLt; omega

theorem appendVarint_nil (v : U64) : appendVarint [] v = leb128 v.toNat := by
  simp [appendVarint_eq]

theorem varint_leb128 (n : Nat) : Varint (leb128 n) n := by
  induction n using Nat.strongRecOn with
  | ind n ih =>
    by_cases h : n < 128
    · rw [leb128_lt h]
      have := Varint.last (BitVec.ofNat 8 n) (by simp; omega)
      have h2 : (BitVec.ofNat 8 n).toNat = n := by simp; omega
      rw [h2] at this; exact this
    · rw [leb128_ge h]
      have hc : (BitVec.ofNat 8 (n % 128 + 128)).toNat = n % 128 + 128 := by simp; omega
      have := Varint.cont (BitVec.ofNat 8 (n % 128 + 128)) _ _ (by omega) (ih (n / 128) (by omega))
      rw [hc] at this
      have e : n % 128 + 128 - 128 + 128 * (n / 128) = n := by omega
      rwa [e] at this

theorem _root_.Pb.Spec.Varint.length_pos {bs n} (h : Varint bs n) : 0 < bs.length := by
  cases h <;> simp

/-- A base-128 notation determines its number, and where it ends. -/
theorem _root_.Pb.Spec.Varint.prefix_unique {p q : Bytes} {m n : Nat} (hp : Varint p m) :
    ∀ {r s : Bytes}, Varint q n → p ++ r = q ++ s → p = q ∧ m = n ∧ r = s := by
  induction hp generalizing q n with
  | last c hc =>
    intro r s hq e
    cases hq with
    | last d hd => simp at e; simp [e]
    | cont d ds k hd _ => simp at e; rw [e.1] at hc; omega
  | cont c cs k hc _ ih =>
    intro r s hq e
    cases hq with
    | last d hd => simp at e; rw [e.1] at hc; omega
    | cont d ds k' hd hq =>
      simp at e
      obtain ⟨h1, h2, h3⟩ := ih hq e.2
      simp [e.1, h1, h2, h3]

theorem _root_.Pb.Spec.Varint.lt_pow {bs n} (h : Varint bs n) : n < 128 ^ bs.length := by
  induction h with
  | last c hc => simpa using hc
  | cont c cs n hc _ ih =>
    have := c.isLt
    simp only [List.length_cons, Nat.pow_succ]; omega

/-- `bs` is at least as long as the minimal notation. -/
theorem _root_.Pb.Spec.Varint.leb128_le {bs n} (h : Varint bs n) : (leb128 n).length ≤ bs.length := by
  have hp := h.length_pos
  obtain ⟨k, hk⟩ : ∃ k, bs.length = k + 1 := ⟨bs.length - 1, by omega⟩
  rw [hk, leb128_length_le, ← hk]; exact h.lt_pow

/-- Every byte string either starts with a base-128 notation or consists of continuation bytes only. -/
theorem varint_or_all_cont (b : Bytes) :
    (∃ p r n, b = p ++ r ∧ Varint p n) ∨ (∀ c ∈ b, 128 ≤ c.toNat) := by
  induction b with
  | nil => right; simp
  | cons c cs ih =>
    by_cases h : c.toNat < 128
    · exact .inl ⟨[c], cs, _, rfl, .last c h⟩
    · cases ih with
      | inl ih =>
        obtain ⟨p, r, n, e, hp⟩ := ih
        exact .inl ⟨c :: p, r, _, by rw [e]; rfl, .cont c p n (by omega) hp⟩
      | inr ih => right; intro d hd; cases hd with
        | head => omega
        | tail _ hd => exact ih d hd

theorem or_shift (x : U64) (y : U64) (s : Nat) (hx : x.toNat < 2 ^ s) (hy : y.toNat * 2 ^ s < 2 ^ 64) :
    (x ||| (y <<< s)).toNat = x.toNat + y.toNat * 2 ^ s := by
  rw [BitVec.toNat_or, BitVec.toNat_shiftLeft, Nat.shiftLeft_eq, Nat.mod_eq_of_lt hy, Nat.mul_comm,
    Nat.or_comm, ← Nat.two_pow_add_eq_or_of_lt hx, Nat.add_comm]

theorem and7f (c : Byte) (h : 128 ≤ c.toNat) : ((c &&& 0x7f#8).setWidth 64).toNat = c.toNat - 128 := by
  have h1 : c.toNat &&& 127 = c.toNat % 128 := Nat.and_two_pow_sub_one_eq_mod _ 7
  have := c.isLt
  have h2 : ((c &&& 0x7f#8).setWidth 64).toNat = (c.toNat &&& 127) % 2 ^ 64 := by
    rw [BitVec.toNat_setWidth, BitVec.toNat_and]; rfl
  rw [h2, h1]; omega

theorem loop_late (p : Bytes) (r : Bytes) (n : Nat) (hp : Varint p n) :
    ∀ x s i, 10 ≤ i → decodeVarintLoop x s i (p ++ r) = (0#64, i + p.length - 1, some .varintOverflow) := by
  induction hp with
  | last c hc =>
    intro x s i hi
    have : c < 0x80#8 := by simp [BitVec.lt_def]; omega
    simp [decodeVarintLoop, this]
    omega
  | cont c cs n hc _ ih =>
    intro x s i hi
    have : ¬ c < 0x80#8 := by simp [BitVec.lt_def]; omega
    simp only [List.cons_append, decodeVarintLoop, this, if_false]
    rw [ih _ _ _ (by omega)]
    simp

theorem loop_ok (p : Bytes) (r : Bytes) (n : Nat) (hp : Varint p n) :
    ∀ (x : U64) i, x.toNat < 2 ^ (7 * i) → i + p.length ≤ 10 → x.toNat + n * 2 ^ (7 * i) < 2 ^ 64 →
      decodeVarintLoop x (7 * i) i (p ++ r)
        = (BitVec.ofNat 64 (x.toNat + n * 2 ^ (7 * i)), i + p.length, none) := by
  induction hp with
  | last c hc =>
    intro x i hx hl hn
    have hlt : c < 0x80#8 := by simp [BitVec.lt_def]; omega
    simp only [List.length_singleton] at *
    have hc9 : ¬ (i > 9 || (i == 9 && c > 1#8)) = true := by
      simp [BitVec.lt_def]
      refine ⟨by omega, fun h => ?_⟩
      subst h
      simp only [Nat.reducePow, Nat.reduceMul] at hn
      omega
    simp only [List.cons_append, List.nil_append, decodeVarintLoop, hlt, if_true, hc9]
    have e := or_shift x (c.setWidth 64) (7 * i) hx (by
      have : (BitVec.setWidth 64 c).toNat = c.toNat := by simp; omega
      rw [this]; omega)
    have : (BitVec.setWidth 64 c).toNat = c.toNat := by simp; omega
    rw [this] at e
    have : x ||| BitVec.setWidth 64 c <<< (7 * i) = BitVec.ofNat 64 (x.toNat + c.toNat * 2 ^ (7 * i)) := by
      apply BitVec.eq_of_toNat_eq; rw [e]; simp; omega
    simp [this]
  | cont c cs n hc hcs ih =>
    intro x i hx hl hn
    have hnlt : ¬ c < 0x80#8 := by simp [BitVec.lt_def]; omega
    have hcl := hcs.length_pos
    simp only [List.length_cons] at *
    have hcc := c.isLt
    have hp7 : (2 : Nat) ^ (7 * (i + 1)) = 128 * 2 ^ (7 * i) := by
      rw [Nat.mul_add, Nat.pow_add]; omega
    have hle : 2 ^ (7 * (i + 1)) ≤ 2 ^ 63 := Nat.pow_le_pow_right (by omega) (by omega)
    have hmul : (c.toNat - 128) * 2 ^ (7 * i) ≤ 127 * 2 ^ (7 * i) := Nat.mul_le_mul_right _ (by omega)
    have e := or_shift x ((c &&& 0x7f#8).setWidth 64) (7 * i) hx (by rw [and7f c hc]; omega)
    rw [and7f c hc] at e
    have dist : (c.toNat - 128 + 128 * n) * 2 ^ (7 * i)
        = (c.toNat - 128) * 2 ^ (7 * i) + n * (128 * 2 ^ (7 * i)) := by
      rw [Nat.add_mul]; congr 1
      rw [Nat.mul_comm 128 n, Nat.mul_assoc]
    rw [dist] at hn
    simp only [List.cons_append, decodeVarintLoop, hnlt, if_false]
    have := ih (x ||| (BitVec.setWidth 64 (c &&& 127#8)) <<< (7 * i)) (i + 1) (by omega) (by omega) (by
      rw [e, hp7]; omega)
    rw [show 7 * i + 7 = 7 * (i + 1) by omega, this, e, hp7, dist]
    simp only [Prod.mk.injEq, and_true]
    exact ⟨by congr 1; omega, by omega⟩

theorem loop_overflow (p : Bytes) (r : Bytes) (n : Nat) (hp : Varint p n) :
    ∀ (x : U64) i, i ≤ 9 → x.toNat < 2 ^ (7 * i) → (¬ i + p.length ≤ 10 ∨ 2 ^ 64 ≤ x.toNat + n * 2 ^ (7 * i)) →
      decodeVarintLoop x (7 * i) i (p ++ r) = (0#64, i + p.length - 1, some .varintOverflow) := by
  induction hp with
  | last c hc =>
    intro x i hi hx hn
    have hlt : c < 0x80#8 := by simp [BitVec.lt_def]; omega
    have hn : 2 ^ 64 ≤ x.toNat + c.toNat * 2 ^ (7 * i) := by
      cases hn with
      | inl h => simp at h; omega
      | inr h => exact h
    have hi9 : i = 9 := by
      rcases Nat.lt_or_ge i 9 with h | h
      · exfalso
        have : 2 ^ (7 * i) ≤ 2 ^ 56 := Nat.pow_le_pow_right (by omega) (by omega)
        have : c.toNat * 2 ^ (7 * i) ≤ 127 * 2 ^ (7 * i) := Nat.mul_le_mul_right _ (by omega)
        omega
      · omega
    subst hi9
    have : c > 1#8 := by simp [BitVec.lt_def]; simp only [Nat.reducePow, Nat.reduceMul] at *; omega
    simp [decodeVarintLoop, hlt, this]
  | cont c cs n hc hcs ih =>
    intro x i hi hx hn
    have hnlt : ¬ c < 0x80#8 := by simp [BitVec.lt_def]; omega
    simp only [List.cons_append, decodeVarintLoop, hnlt, if_false]
    rcases Nat.lt_or_ge i 9 with h | h
    · have hcc := c.isLt
      have hp7 : (2 : Nat) ^ (7 * (i + 1)) = 128 * 2 ^ (7 * i) := by
        rw [Nat.mul_add, Nat.pow_add]; omega
      have hle : 2 ^ (7 * (i + 1)) ≤ 2 ^ 63 := Nat.pow_le_pow_right (by omega) (by omega)
      have hmul : (c.toNat - 128) * 2 ^ (7 * i) ≤ 127 * 2 ^ (7 * i) := Nat.mul_le_mul_right _ (by omega)
      have e := or_shift x ((c &&& 0x7f#8).setWidth 64) (7 * i) hx (by rw [and7f c hc]; omega)
      rw [and7f c hc] at e
      have dist : (c.toNat - 128 + 128 * n) * 2 ^ (7 * i)
          = (c.toNat - 128) * 2 ^ (7 * i) + n * (128 * 2 ^ (7 * i)) := by
        rw [Nat.add_mul]; congr 1
        rw [Nat.mul_comm 128 n, Nat.mul_assoc]
      rw [dist] at hn
      rw [show 7 * i + 7 = 7 * (i + 1) by omega, ih _ (i + 1) (by omega) (by omega) (by
        rw [e, hp7]; simp only [List.length_cons] at hn; omega)]
      simp
    · rw [loop_late cs r n hcs _ _ _ (by omega)]
      simp

theorem loop_eof (b : Bytes) (h : ∀ c ∈ b, 128 ≤ c.toNat) :
    ∀ x s i, ∃ y, decodeVarintLoop x s i b = (y, i + b.length, some .unexpectedEOF) := by
  induction b with
  | nil => intro x s i; exact ⟨x, rfl⟩
  | cons c cs ih =>
    intro x s i
    have hnlt : ¬ c < 0x80#8 := by have := h c (by simp); simp [BitVec.lt_def]; omega
    simp only [decodeVarintLoop, hnlt, if_false]
    obtain ⟨y, hy⟩ := ih (fun d hd => h d (by simp [hd])) (x ||| BitVec.setWidth 64 (c &&& 127#8) <<< s) (s + 7) (i + 1)
    exact ⟨y, by rw [hy]; simp; omega⟩

/-- The fast path agrees with the loop. -/
theorem decodeVarint_eq_loop (b : Bytes) : decodeVarint b = decodeVarintLoop 0#64 0 0 b := by
  cases b with
  | nil => rfl
  | cons c cs =>
    by_cases h : c < 0x80#8
    · simp [decodeVarint, decodeVarintLoop, h]
    · simp [decodeVarint, h]

theorem decodeVarint_ok {p : Bytes} {n : Nat} (hp : Varint p n) (hl : p.length ≤ 10) (hn : n < 2 ^ 64)
    (r : Bytes) : decodeVarint (p ++ r) = (BitVec.ofNat 64 n, p.length, none) := by
  rw [decodeVarint_eq_loop]
  simpa using loop_ok p r n hp 0#64 0 (by simp) (by omega) (by simpa using hn)

theorem decodeVarint_overflow {p : Bytes} {n : Nat} (hp : Varint p n) (h : ¬ (p.length ≤ 10 ∧ n < 2 ^ 64))
    (r : Bytes) : decodeVarint (p ++ r) = (0#64, p.length - 1, some .varintOverflow) := by
  rw [decodeVarint_eq_loop]
  simpa using loop_overflow p r n hp 0#64 0 (by omega) (by simp) (by
    simp only [BitVec.toNat_ofNat, Nat.mul_zero, Nat.pow_zero]; omega)

theorem decodeVarint_eof {b : Bytes} (h : ∀ c ∈ b, 128 ≤ c.toNat) :
    ∃ y, decodeVarint b = (y, b.length, some .unexpectedEOF) := by
  rw [decodeVarint_eq_loop]
  simpa using loop_eof b h 0#64 0 0

/-- The three ways in which reading a varint can end. -/
theorem decodeVarint_cases (b : Bytes) :
    (∃ p r n, b = p ++ r ∧ Varint p n ∧ p.length ≤ 10 ∧ n < 2 ^ 64 ∧
      decodeVarint b = (BitVec.ofNat 64 n, p.length, none)) ∨
    (∃ p r n, b = p ++ r ∧ Varint p n ∧ ¬ (p.length ≤ 10 ∧ n < 2 ^ 64) ∧
      decodeVarint b = (0#64, p.length - 1, some .varintOverflow)) ∨
    ((∀ c ∈ b, 128 ≤ c.toNat) ∧ ∃ y, decodeVarint b = (y, b.length, some .unexpectedEOF)) := by
  rcases varint_or_all_cont b with ⟨p, r, n, rfl, hp⟩ | h
  · by_cases hh : p.length ≤ 10 ∧ n < 2 ^ 64
    · exact .inl ⟨p, r, n, rfl, hp, hh.1, hh.2, decodeVarint_ok hp hh.1 hh.2 r⟩
    · exact .inr (.inl ⟨p, r, n, rfl, hp, hh, decodeVarint_overflow hp hh r⟩)
  · exact .inr (.inr ⟨h, decodeVarint_eof h⟩)

theorem decodeVarint_leb128 (v : U64) (r : Bytes) :
    decodeVarint (leb128 v.toNat ++ r) = (v, sizeOfVarint v, none) := by
  rw [decodeVarint_ok (varint_leb128 _) (leb128_length_le_ten v) v.isLt, sizeOfVarint_eq]
  simp

/-- Count bounds. -/
theorem decodeVarint_n_le (b : Bytes) : (decodeVarint b).2.1 ≤ b.length := by
  rcases decodeVarint_cases b with ⟨p, r, n, rfl, _, _, _, e⟩ | ⟨p, r, n, rfl, _, _, e⟩ | ⟨_, y, e⟩ <;>
    rw [e] <;> simp <;> omega

theorem decodeVarint_n_pos (b : Bytes) (h : (decodeVarint b).2.2 = none) : 0 < (decodeVarint b).2.1 := by
  rcases decodeVarint_cases b with ⟨p, r, n, rfl, hp, _, _, e⟩ | ⟨p, r, n, rfl, _, _, e⟩ | ⟨_, y, e⟩
  · rw [e]; exact hp.length_pos
  · rw [e] at h; simp at h
  · rw [e] at h; simp at h

/-! zig-zag -/

theorem toInt_neg_shift (v : U64) : v.sshiftRight 63 = if v.msb then BitVec.allOnes 64 else 0#64 := by
  apply BitVec.eq_of_getLsbD_eq
  intro i hi
  rw [BitVec.getLsbD_sshiftRight]
  cases h : v.msb
  · simp
    intro _ h2
    have : i = 0 := by omega
    subst this
    simpa [BitVec.msb_eq_getLsbD_last] using h
  · by_cases h2 : 63 + i < 64
    · have : i = 0 := by omega
      subst this
      simpa [BitVec.msb_eq_getLsbD_last] using h
    · have hi0 : 63 + i ≥ 64 := by omega
      rw [if_pos rfl, BitVec.getLsbD_allOnes]; simp [h2, hi]

theorem encodeZigZag64_toNat (v : U64) : (encodeZigZag64 v).toNat = zigzag v.toInt := by
  unfold encodeZigZag64 zigzag
  rw [toInt_neg_shift]
  have hlt := v.isLt
  cases h : v.msb
  · have h0 : v.toInt = v.toNat := BitVec.toInt_eq_toNat_of_msb h
    have hm : 2 * v.toNat < 2 ^ 64 := by
      have := BitVec.msb_eq_false_iff_two_mul_lt.mp h; exact this
    simp [h0, Nat.shiftLeft_eq]
    omega
  · have hm : 2 ^ 64 ≤ 2 * v.toNat := BitVec.msb_eq_true_iff_two_mul_ge.mp h
    have h0 : v.toInt = (v.toNat : Int) - 2 ^ 64 := by
      rw [BitVec.toInt_eq_toNat_cond, if_neg (by omega)]
      omega
    have hn : ¬ 0 ≤ v.toInt := by omega
    rw [if_neg hn, h0, if_pos rfl, BitVec.xor_allOnes, BitVec.toNat_not, BitVec.toNat_shiftLeft, Nat.shiftLeft_eq]
    omega

theorem decode_encode_zigzag (v : U64) : decodeZigZag64 (encodeZigZag64 v) = v := by
  unfold decodeZigZag64 encodeZigZag64
  rw [toInt_neg_shift]
  cases h : v.msb
  · apply BitVec.eq_of_toNat_eq
    have hm := BitVec.msb_eq_false_iff_two_mul_lt.mp h
    have e : (v <<< 1).toNat = 2 * v.toNat := by
      rw [BitVec.toNat_shiftLeft, Nat.shiftLeft_eq]; omega
    have e2 : (v <<< 1 &&& 1#64) = 0#64 := by
      apply BitVec.eq_of_toNat_eq
      rw [BitVec.toNat_and, e]
      have := Nat.and_two_pow_sub_one_eq_mod (2 * v.toNat) 1
      simp at this ⊢
    simp [e2, Nat.shiftRight_eq_div_pow, e]
  · have hm := BitVec.msb_eq_true_iff_two_mul_ge.mp h
    have hlt := v.isLt
    have e : (v <<< 1).toNat = 2 * v.toNat - 2 ^ 64 := by
      rw [BitVec.toNat_shiftLeft, Nat.shiftLeft_eq]; omega
    have e1 : (~~~(v <<< 1)).toNat = 2 ^ 64 - 1 - (2 * v.toNat - 2 ^ 64) := by
      rw [BitVec.toNat_not, e]
    rw [if_pos rfl, BitVec.xor_allOnes]
    have e2 : (~~~(v <<< 1) &&& 1#64) = 1#64 := by
      apply BitVec.eq_of_toNat_eq
      rw [BitVec.toNat_and, e1]
      have := Nat.and_two_pow_sub_one_eq_mod (2 ^ 64 - 1 - (2 * v.toNat - 2 ^ 64)) 1
      simp at this ⊢
      omega
    rw [e2]
    have e3 : (-1#64) = BitVec.allOnes 64 := by decide
    rw [e3, BitVec.xor_allOnes]
    apply BitVec.eq_of_toNat_eq
    rw [BitVec.toNat_not, BitVec.toNat_ushiftRight, Nat.shiftRight_eq_div_pow, e1]
    omega

/-! little endian -/

theorem encodeLE32_eq (b : Bytes) (v : U32) : encodeLE32 b v = b ++ base256 4 v.toNat := by
  unfold encodeLE32
  congr 1
  simp only [base256, Nat.div_div_eq_div_mul]
  simp only [List.cons.injEq, and_true]
  refine ⟨?_, ?_, ?_, ?_⟩ <;> apply BitVec.eq_of_toNat_eq <;>
    simp [Nat.shiftRight_eq_div_pow]

theorem encodeLE64_eq (b : Bytes) (v : U64) : encodeLE64 b v = b ++ base256 8 v.toNat := by
  unfold encodeLE64
  congr 1
  simp only [base256, Nat.div_div_eq_div_mul]
  simp only [List.cons.injEq, and_true]
  refine ⟨?_, ?_, ?_, ?_, ?_, ?_, ?_, ?_⟩ <;> apply BitVec.eq_of_toNat_eq <;>
    simp [Nat.shiftRight_eq_div_pow]

theorem base256_length (k n : Nat) : (base256 k n).length = k := by
  induction k generalizing n with
  | zero => rfl
  | succ k ih => simp [base256, ih]

theorem or_shift_gen {w : Nat} (x y : BitVec w) (s : Nat) (hx : x.toNat < 2 ^ s) (hy : y.toNat * 2 ^ s < 2 ^ w) :
    (x ||| (y <<< s)).toNat = x.toNat + y.toNat * 2 ^ s := by
  rw [BitVec.toNat_or, BitVec.toNat_shiftLeft, Nat.shiftLeft_eq, Nat.mod_eq_of_lt hy, Nat.mul_comm,
    Nat.or_comm, ← Nat.two_pow_add_eq_or_of_lt hx, Nat.add_comm]

theorem leUint32_toNat (b0 b1 b2 b3 : Byte) :
    (leUint32 b0 b1 b2 b3).toNat = b0.toNat + b1.toNat * 2^8 + b2.toNat * 2^16 + b3.toNat * 2^24 := by
  have s : ∀ b : Byte, (b.setWidth 32).toNat = b.toNat := fun b => by simp; omega
  have h0 := b0.isLt; have h1 := b1.isLt; have h2 := b2.isLt; have h3 := b3.isLt
  unfold leUint32
  have e1 := or_shift_gen (b0.setWidth 32) (b1.setWidth 32) 8 (by rw [s]; omega) (by rw [s]; omega)
  rw [s, s] at e1
  have e2 := or_shift_gen (b0.setWidth 32 ||| b1.setWidth 32 <<< 8) (b2.setWidth 32) 16 (by rw [e1]; omega) (by rw [s]; omega)
  rw [e1, s] at e2
  have e3 := or_shift_gen _ (b3.setWidth 32) 24 (by rw [e2]; omega) (by rw [s]; omega)
  rw [e3, e2, s]

theorem leUint64_toNat (b0 b1 b2 b3 b4 b5 b6 b7 : Byte) :
    (leUint64 b0 b1 b2 b3 b4 b5 b6 b7).toNat = b0.toNat + b1.toNat * 2^8 + b2.toNat * 2^16 + b3.toNat * 2^24
      + b4.toNat * 2^32 + b5.toNat * 2^40 + b6.toNat * 2^48 + b7.toNat * 2^56 := by
  have s : ∀ b : Byte, (b.setWidth 64).toNat = b.toNat := fun b => by simp; omega
  have h0 := b0.isLt; have h1 := b1.isLt; have h2 := b2.isLt; have h3 := b3.isLt
  have h4 := b4.isLt; have h5 := b5.isLt; have h6 := b6.isLt; have h7 := b7.isLt
  unfold leUint64
  have e1 := or_shift_gen (b0.setWidth 64) (b1.setWidth 64) 8 (by rw [s]; omega) (by rw [s]; omega)
  rw [s, s] at e1
  have e2 := or_shift_gen _ (b2.setWidth 64) 16 (by rw [e1]; omega) (by rw [s]; omega)
  rw [e1, s] at e2
  have e3 := or_shift_gen _ (b3.setWidth 64) 24 (by rw [e2]; omega) (by rw [s]; omega)
  rw [e2, s] at e3
  have e4 := or_shift_gen _ (b4.setWidth 64) 32 (by rw [e3]; omega) (by rw [s]; omega)
  rw [e3, s] at e4
  have e5 := or_shift_gen _ (b5.setWidth 64) 40 (by rw [e4]; omega) (by rw [s]; omega)
  rw [e4, s] at e5
  have e6 := or_shift_gen _ (b6.setWidth 64) 48 (by rw [e5]; omega) (by rw [s]; omega)
  rw [e5, s] at e6
  have e7 := or_shift_gen _ (b7.setWidth 64) 56 (by rw [e6]; omega) (by rw [s]; omega)
  rw [e7, e6, s]

theorem decodeLE32_base256 (v : U32) (r : Bytes) : decodeLE32 (base256 4 v.toNat ++ r) = (v, 4, none) := by
  simp only [base256, List.cons_append, List.nil_append, decodeLE32, Prod.mk.injEq, and_true]
  apply BitVec.eq_of_toNat_eq
  have := v.isLt
  rw [leUint32_toNat]
  simp only [BitVec.toNat_ofNat, Nat.div_div_eq_div_mul]
  omega

theorem decodeLE64_base256 (v : U64) (r : Bytes) : decodeLE64 (base256 8 v.toNat ++ r) = (v, 8, none) := by
  simp only [base256, List.cons_append, List.nil_append, decodeLE64, Prod.mk.injEq, and_true]
  apply BitVec.eq_of_toNat_eq
  have := v.isLt
  rw [leUint64_toNat]
  simp only [BitVec.toNat_ofNat, Nat.div_div_eq_div_mul]
  omega

theorem decodeLE32_short (b : Bytes) (h : b.length < 4) : decodeLE32 b = (0#32, 0, some .unexpectedEOF) := by
  match b, h with
  | [], _ => rfl
  | [_], _ => rfl
  | [_, _], _ => rfl
  | [_, _, _], _ => rfl

theorem decodeLE64_short (b : Bytes) (h : b.length < 8) : decodeLE64 b = (0#64, 0, some .unexpectedEOF) := by
  match b, h with
  | [], _ => rfl
  | [_], _ => rfl
  | [_, _], _ => rfl
  | [_, _, _], _ => rfl
  | [_, _, _, _], _ => rfl
  | [_, _, _, _, _], _ => rfl
  | [_, _, _, _, _, _], _ => rfl
  | [_, _, _, _, _, _, _], _ => rfl

end Pb
