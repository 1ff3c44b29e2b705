import Verif.Proofs.SourceRun
/-
Running the functions of decode.go that use `decodeVarint`.
-/
namespace Pb.Go
open Tree

set_option linter.unusedSimpArgs false

variable {X : Calls} {d : Nat} (k : Nat) {m : Val}

theorem run_decodeVarintZigZag (b : Bytes) (hb : b.length < 2 ^ 60) :
    invoke library X d (k + 2) none t!"decodeVarintZigZag" [.bytes (some b)] m
      = .ok ([.i64 (decodeVarintZigZag b).1, .int (BitVec.ofNat 64 (decodeVarintZigZag b).2.1), .err (decodeVarintZigZag b).2.2], m) := by
  go_call find_decodeVarintZigZag decode_decodeVarintZigZag
  go_run [run_decodeVarint, hb, varintResult, run_decodeZigZag64, decodeVarintZigZag]

theorem run_decodeTag (b : Bytes) (hb : b.length < 2 ^ 60) :
    invoke library X d (k + 2) none t!"decodeTag" [.bytes (some b)] m
      = .ok ([.uint (BitVec.ofNat 64 (decodeTag b).1), .uint (BitVec.ofNat 64 (decodeTag b).2.1),
          .int (BitVec.ofNat 64 (decodeTag b).2.2.1), .err (decodeTag b).2.2.2], m) := by
  go_call find_decodeTag decode_decodeTag
  have e : ∀ v : U64, v >>> 3 = BitVec.ofNat 64 (BitVec.toNat v >>> 3) := fun v => by
    rw [← BitVec.toNat_ushiftRight, BitVec.ofNat_toNat, BitVec.setWidth_eq]
  go_run [run_decodeVarint, hb, varintResult, decodeTag]
  exact e _

theorem run_decodeLE32 (b : Bytes) (hb : b.length < 2 ^ 60) :
    invoke library X d (k + 1) none t!"decodeLE32" [.bytes (some b)] m
      = .ok ([.u32 (decodeLE32 b).1, .int (BitVec.ofNat 64 (decodeLE32 b).2.1), .err (decodeLE32 b).2.2], m) := by
  go_call find_decodeLE32 decode_decodeLE32
  have hs : (BitVec.ofNat 64 b.length).slt 4#64 = decide (b.length < 4) := slt_ofNat (b := 4) (by omega) (by decide)
  by_cases h : b.length < 4
  · have e : decodeLE32 b = (0#32, 0, some .unexpectedEOF) := by
      match b, h with
      | [], _ => rfl
      | [_], _ => rfl
      | [_, _], _ => rfl
      | [_, _, _], _ => rfl
    go_run [hs, h, e]
  · match b, h with
    | b0 :: b1 :: b2 :: b3 :: r, h =>
      simp only [List.length_cons] at hs h
      go_run [hs, h, decodeLE32]
    | [], h => simp at h
    | [_], h => simp at h
    | [_, _], h => simp at h
    | [_, _, _], h => simp at h

theorem run_decodeLE64 (b : Bytes) (hb : b.length < 2 ^ 60) :
    invoke library X d (k + 1) none t!"decodeLE64" [.bytes (some b)] m
      = .ok ([.u64 (decodeLE64 b).1, .int (BitVec.ofNat 64 (decodeLE64 b).2.1), .err (decodeLE64 b).2.2], m) := by
  go_call find_decodeLE64 decode_decodeLE64
  have hs : (BitVec.ofNat 64 b.length).slt 8#64 = decide (b.length < 8) := slt_ofNat (b := 8) (by omega) (by decide)
  by_cases h : b.length < 8
  · have e : decodeLE64 b = (0#64, 0, some .unexpectedEOF) := by
      match b, h with
      | [], _ => rfl
      | [_], _ => rfl
      | [_, _], _ => rfl
      | [_, _, _], _ => rfl
      | [_, _, _, _], _ => rfl
      | [_, _, _, _, _], _ => rfl
      | [_, _, _, _, _, _], _ => rfl
      | [_, _, _, _, _, _, _], _ => rfl
    go_run [hs, h, e]
  · match b, h with
    | b0 :: b1 :: b2 :: b3 :: b4 :: b5 :: b6 :: b7 :: r, h =>
      simp only [List.length_cons] at hs h
      go_run [hs, h, decodeLE64]
    | [], h => simp at h
    | [_], h => simp at h
    | [_, _], h => simp at h
    | [_, _, _], h => simp at h
    | [_, _, _, _], h => simp at h
    | [_, _, _, _, _], h => simp at h
    | [_, _, _, _, _, _], h => simp at h
    | [_, _, _, _, _, _, _], h => simp at h

theorem run_decodeVarlen (b : Bytes) (hb : b.length < 2 ^ 60) :
    invoke library X d (k + 2) none t!"decodeVarlen" [.bytes (some b)] m
      = (decodeVarlen b).map fun r => (varlenResult r, m) := by
  go_call find_decodeVarlen decode_decodeVarlen
  have hn := decodeVarint_n_le b
  unfold decodeVarlen
  have hr := run_decodeVarint (X := X) (d := d) k (m := m) b hb
  generalize hv : decodeVarint b = r at hn hr ⊢
  obtain ⟨v, n, e⟩ := r
  cases e with
  | some e => go_run [hr, varintResult, varlenResult]
  | none =>
    simp only at hn
    have hsub : BitVec.ofNat 64 b.length - BitVec.ofNat 64 n = BitVec.ofNat 64 (b.length - n) := by
      apply BitVec.eq_of_toNat_eq
      rw [BitVec.toNat_sub]
      simp only [BitVec.toNat_ofNat]
      omega
    have hlt : (BitVec.ofNat 64 (b.length - n) < v) ↔ b.length - n < v.toNat := by
      rw [BitVec.lt_def, BitVec.toNat_ofNat, Nat.mod_eq_of_lt (by omega)]
    by_cases h : b.length - n < v.toNat
    · go_run [hr, varintResult, varlenResult, hsub, hlt, h]
    · have hadd : BitVec.ofNat 64 n + v = BitVec.ofNat 64 (n + v.toNat) := by
        rw [BitVec.ofNat_add]; congr 1; simp
      have hm : (BitVec.ofNat 64 (n + v.toNat)).msb = false := by
        rw [BitVec.msb_eq_false_iff_two_mul_lt, BitVec.toNat_ofNat]; omega
      have hm2 : (BitVec.ofNat 64 n).msb = false := by
        rw [BitVec.msb_eq_false_iff_two_mul_lt, BitVec.toNat_ofNat]; omega
      have e1 : (n + v.toNat) % 18446744073709551616 = n + v.toNat := Nat.mod_eq_of_lt (by omega)
      have e2 : n % 18446744073709551616 = n := Nat.mod_eq_of_lt (by omega)
      have hle : n + v.toNat ≤ b.length := by omega
      go_run [hr, varintResult, varlenResult, hsub, hlt, h, hadd, hm, hm2, goSlice, e1, e2, hle]
end Pb.Go
