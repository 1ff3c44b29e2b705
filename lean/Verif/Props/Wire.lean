import Verif.Proofs.Size
/-
C12-C15: wire primitives.
-/
namespace Pb.Props
open Spec

/-- C12. `appendVarint` appends the minimal base-128 notation: it denotes the number, no other notation is shorter,
it has between 1 and 10 bytes, and `sizeOfVarint` computes its length. -/
theorem C12_varint_canonical (b : Bytes) (v : U64) :
    ∃ bs, appendVarint b v = b ++ bs ∧ Varint bs v.toNat ∧
      (∀ cs, Varint cs v.toNat → bs.length ≤ cs.length) ∧
      1 ≤ bs.length ∧ bs.length ≤ 10 ∧ sizeOfVarint v = bs.length :=
  ⟨leb128 v.toNat, appendVarint_eq b v, varint_leb128 _, fun _ h => h.leb128_le, leb128_length_pos _,
    leb128_length_le_ten v, sizeOfVarint_eq v⟩

/-- C12, the same stated by the notation itself. -/
theorem C12_varint_is_leb128 (b : Bytes) (v : U64) : appendVarint b v = b ++ leb128 v.toNat := appendVarint_eq b v

example : appendVarint [7#8] 300#64 = [7#8, 0xac#8, 0x02#8] := by decide
example : Varint [0xac#8, 0x02#8] 300 := .cont 0xac#8 _ 2 (by decide) (.last 2#8 (by decide))
example : sizeOfVarint (BitVec.allOnes 64) = 10 := by decide

/-- C13. `decodeVarint` succeeds exactly on inputs starting with a base-128 notation of at most ten bytes of a number
below 2^64, and then returns the number and the notation's length, whatever follows. -/
theorem C13_varint_decode (b : Bytes) (v : U64) (n : Nat) :
    decodeVarint b = (v, n, none) ↔
      ∃ p r, b = p ++ r ∧ Varint p v.toNat ∧ p.length ≤ 10 ∧ n = p.length := by
  constructor
  · intro h
    rcases decodeVarint_cases b with ⟨p, r, m, rfl, hp, hl, hm, e⟩ | ⟨p, r, m, rfl, _, _, e⟩ | ⟨_, y, e⟩
    · rw [e] at h
      simp only [Prod.mk.injEq, and_true] at h
      obtain ⟨rfl, rfl⟩ := h
      exact ⟨p, r, rfl, by simpa [Nat.mod_eq_of_lt hm] using hp, hl, rfl⟩
    · rw [e] at h; simp at h
    · rw [e] at h; simp at h
  · rintro ⟨p, r, rfl, hp, hl, rfl⟩
    rw [decodeVarint_ok hp hl v.isLt]
    simp

/-- C13. It reports the overflow error exactly when the input starts with a complete notation that is too long or too
large. -/
theorem C13_varint_overflow (b : Bytes) :
    (decodeVarint b).2.2 = some .varintOverflow ↔
      ∃ p r n, b = p ++ r ∧ Varint p n ∧ (10 < p.length ∨ 2 ^ 64 ≤ n) := by
  constructor
  · intro h
    rcases decodeVarint_cases b with ⟨p, r, m, rfl, hp, hl, hm, e⟩ | ⟨p, r, m, rfl, hp, hn, e⟩ | ⟨_, y, e⟩
    · rw [e] at h; simp at h
    · exact ⟨p, r, m, rfl, hp, by omega⟩
    · rw [e] at h; simp at h
  · rintro ⟨p, r, n, rfl, hp, h⟩
    rw [decodeVarint_overflow hp (by omega)]

/-- C13. It reports `io.ErrUnexpectedEOF` exactly when no notation ends within the input; these are all outcomes. -/
theorem C13_varint_eof (b : Bytes) :
    (decodeVarint b).2.2 = some .unexpectedEOF ↔ ¬ ∃ p r n, b = p ++ r ∧ Varint p n := by
  constructor
  · intro h ⟨p, r, n, e, hp⟩
    subst e
    by_cases hc : p.length ≤ 10 ∧ n < 2 ^ 64
    · rw [decodeVarint_ok hp hc.1 hc.2] at h; simp at h
    · rw [decodeVarint_overflow hp hc] at h; simp at h
  · intro h
    rcases decodeVarint_cases b with ⟨p, r, m, rfl, hp, hl, hm, e⟩ | ⟨p, r, m, rfl, hp, hn, e⟩ | ⟨_, y, e⟩
    · exact absurd ⟨p, r, m, rfl, hp⟩ h
    · exact absurd ⟨p, r, m, rfl, hp⟩ h
    · rw [e]

/-- C13. The number of bytes reported never exceeds the input. -/
theorem C13_varint_within (b : Bytes) : (decodeVarint b).2.1 ≤ b.length := decodeVarint_n_le b

example : decodeVarint [0xac#8, 0x02#8, 0xff#8] = (300#64, 2, none) := by decide
example : decodeVarint [0x80#8, 0x80#8, 0x00#8] = (0#64, 3, none) := by decide
example : (decodeVarint (List.replicate 9 0xff#8 ++ [0x02#8])).2.2 = some .varintOverflow := by decide
example : (decodeVarint [0x80#8, 0x80#8]).2.2 = some .unexpectedEOF := by decide

/-- C14. sint64 values are written as the varint of their zig-zag number. -/
theorem C14_zigzag64_encode (b : Bytes) (v x : U64) (f : FTag) :
    appendVarintZigZag b v = b ++ leb128 (zigzag v.toInt) ∧
    encodeRequired .zigzag64 b (.w64 x) f = .ok (b ++ leb128 f.wiretag.toNat ++ leb128 (zigzag x.toInt)) := by
  constructor
  · rw [appendVarintZigZag, appendVarint_eq, encodeZigZag64_toNat]
  · simp [encodeRequired, read64, bind, Except.bind, pure, Except.pure, appendVarint_eq, encodeZigZag64_toNat]

/-- C14. sint32 values are written as the varint of their zig-zag number. -/
theorem C14_zigzag32_encode (b : Bytes) (x : U32) (f : FTag) :
    encodeRequired .zigzag32 b (.w32 x) f = .ok (b ++ leb128 f.wiretag.toNat ++ leb128 (zigzag x.toInt)) := by
  simp [encodeRequired, read32, bind, Except.bind, pure, Except.pure, appendVarint_eq, encodeZigZag64_toNat, sext_toInt]

/-- C14. Zig-zag numbers enumerate the integers: the numbering is a bijection between integers and naturals. -/
theorem C14_zigzag_bijective (n m : Int) : (zigzag n = zigzag m → n = m) ∧ ∀ k : Nat, ∃ j : Int, zigzag j = k := by
  refine ⟨fun h => ?_, fun k => ?_⟩
  · unfold zigzag at h; split at h <;> split at h <;> omega
  · by_cases hk : k % 2 = 0
    · exact ⟨(k / 2 : Nat), by unfold zigzag; split <;> omega⟩
    · exact ⟨-((k / 2 : Nat) : Int) - 1, by unfold zigzag; split <;> omega⟩

/-- C14. Reading inverts writing, for sint64 and sint32 fields and whatever follows in the input. -/
theorem C14_zigzag_decode (x x' : U64) (y y' : U32) (r : Bytes) :
    decodeScalar .zigzag64 (leb128 (zigzag x.toInt) ++ r) (.w64 x') =
      .ok (.ok (.w64 x) (leb128 (zigzag x.toInt)).length) ∧
    decodeScalar .zigzag32 (leb128 (zigzag y.toInt) ++ r) (.w32 y') =
      .ok (.ok (.w32 y) (leb128 (zigzag y.toInt)).length) := by
  have e1 := encodeZigZag64_toNat x
  have e2 := encodeZigZag64_toNat (sext y)
  rw [sext_toInt] at e2
  constructor
  · rw [← e1]
    simp [decodeScalar, decodeVarint_leb128, write64, bind, Except.bind, pure, Except.pure,
      DRes.mk, decode_encode_zigzag, sizeOfVarint_eq]
  · rw [← e2]
    simp [decodeScalar, decodeVarint_leb128, write32, bind, Except.bind, pure, Except.pure,
      DRes.mk, decode_encode_zigzag, sizeOfVarint_eq, sext_setWidth]

example : zigzag (-1) = 1 ∧ zigzag 1 = 2 ∧ zigzag (-2) = 3 := by decide
example : encodeRequired .zigzag32 [] (.w32 (-1#32)) ⟨8#64, 1⟩ = .ok [8#8, 1#8] := rfl

/-- C15. Fixed-width values and floats are written as little-endian base-256 digits. -/
theorem C15_fixed_encode (b : Bytes) (x : U32) (y : U64) (f : FTag) :
    (∀ s, s = Scalar.fixed32 ∨ s = Scalar.float32 →
      encodeRequired s b (.w32 x) f = .ok (b ++ leb128 f.wiretag.toNat ++ base256 4 x.toNat)) ∧
    (∀ s, s = Scalar.fixed64 ∨ s = Scalar.float64 →
      encodeRequired s b (.w64 y) f = .ok (b ++ leb128 f.wiretag.toNat ++ base256 8 y.toNat)) := by
  constructor <;> rintro s (rfl | rfl) <;>
    simp [encodeRequired, read32, read64, bind, Except.bind, pure, Except.pure, appendVarint_eq, encodeLE32_eq,
      encodeLE64_eq]

/-- C15. They are read back bit for bit, whatever follows in the input and whatever the target held. -/
theorem C15_fixed_decode (x x' : U32) (y y' : U64) (r : Bytes) :
    (∀ s, s = Scalar.fixed32 ∨ s = Scalar.float32 →
      decodeScalar s (base256 4 x.toNat ++ r) (.w32 x') = .ok (.ok (.w32 x) 4)) ∧
    (∀ s, s = Scalar.fixed64 ∨ s = Scalar.float64 →
      decodeScalar s (base256 8 y.toNat ++ r) (.w64 y') = .ok (.ok (.w64 y) 8)) := by
  constructor <;> rintro s (rfl | rfl) <;>
    simp [decodeScalar, decodeLE32_base256, decodeLE64_base256, write32, write64, bind, Except.bind, pure,
      Except.pure, DRes.mk]

/-- The digits determine the number (so distinct bit patterns give distinct bytes). -/
theorem C15_base256_value (k n : Nat) (h : n < 256 ^ k) :
    (base256 k n).length = k ∧ (base256 k n).foldr (fun c acc => c.toNat + 256 * acc) 0 = n := by
  refine ⟨base256_length k n, ?_⟩
  induction k generalizing n with
  | zero => simp at h; simp [base256, h]
  | succ k ih =>
    simp only [base256, List.foldr_cons]
    rw [ih (n / 256) (by rw [Nat.pow_succ] at h; omega)]
    simp; omega

-- a NaN with payload, and negative zero
example : encodeRequired .float32 [] (.w32 0x7fc12345#32) ⟨13#64, 1⟩ = .ok [13#8, 0x45#8, 0x23#8, 0xc1#8, 0x7f#8] :=
  rfl
example : decodeScalar .float32 [0x00#8, 0x00#8, 0x00#8, 0x80#8] (.w32 0#32) = .ok (.ok (.w32 0x80000000#32) 4) :=
  rfl

end Pb.Props
