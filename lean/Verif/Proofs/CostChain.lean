import Verif.Proofs.CostEncode
import Verif.Proofs.Wire
import Verif.Spec.Sample
/-
A chain of messages, for C65: `type Chain struct { Next *Chain "protobuf:\"bytes,1,opt\"" }`.
-/
namespace Pb
open Spec

/-- The type `Chain`; type 1 and up have no fields. -/
def chainEnv : Env
  | 0 => ⟨[⟨0, ⟨10#64, 1⟩, .msg 0⟩], .struct [.nilp]⟩
  | _ + 1 => ⟨[], .struct []⟩

/-- The memory of `Chain`. -/
def chainLayout : Layout
  | 0 => [.msg 0]
  | _ + 1 => []

/-- A chain with `n` links. -/
def chain : Nat → Val
  | 0 => .struct [.nilp]
  | n + 1 => .struct [.ptr (chain n)]

theorem chain_depth (n : Nat) : n < (chain n).depth + 1 := by
  induction n with
  | zero => omega
  | succ n ih => simp only [chain, Val.depth, Val.depthL]; omega

theorem chain_size (n : Nat) : ∀ d, n < d → ∃ s, sizeMsgK chainEnv d 0 (chain n) = .ok (s, n + 1) := by
  induction n with
  | zero =>
    intro d hd
    obtain ⟨d, rfl⟩ : ∃ e, d = e + 1 := ⟨d - 1, by omega⟩
    exact ⟨0, rfl⟩
  | succ n ih =>
    intro d hd
    obtain ⟨d, rfl⟩ : ∃ e, d = e + 1 := ⟨d - 1, by omega⟩
    obtain ⟨s, hs⟩ := ih d (by omega)
    refine ⟨0 + (s + (sizeOfVarint (BitVec.ofNat 64 s) + 1)), ?_⟩
    simp only [sizeMsgK, structSizeK, chainEnv, chain, sumSizesK, slotOf, codecSizeK, bind, Except.bind, pure, Except.pure,
      List.getElem?_cons_zero, hs]
    congr 2
    omega

theorem appendVarint_len (b : Bytes) (v : U64) : (appendVarint b v).length ≤ b.length + 10 := by
  rw [appendVarint_eq]
  have := leb128_length_le_ten v
  simp; omega

theorem chain_encode (n : Nat) : ∀ d b, n < d → ∃ b' e, encodeMsgK chainEnv d 0 b (chain n) = .ok (b', e) ∧
    b'.length ≤ b.length + 20 * n ∧ n * n ≤ 2 * e := by
  induction n with
  | zero =>
    intro d b hd
    obtain ⟨d, rfl⟩ : ∃ e, d = e + 1 := ⟨d - 1, by omega⟩
    exact ⟨b, 1, rfl, by omega, by omega⟩
  | succ n ih =>
    intro d b hd
    obtain ⟨d, rfl⟩ : ∃ e, d = e + 1 := ⟨d - 1, by omega⟩
    obtain ⟨s, hs⟩ := chain_size n d (by omega)
    obtain ⟨b', e, h1, h2, h3⟩ := ih d (appendVarint (appendVarint b 10#64) (BitVec.ofNat 64 s)) (by omega)
    refine ⟨b', 0 + 1 + (n + 1 + e), ?_, ?_, ?_⟩
    · simp only [encodeMsgK, structEncodeK, chainEnv, chain, appendAllK, slotOf, codecEncodeK, bind, Except.bind, pure, Except.pure,
        List.getElem?_cons_zero, hs, h1]
    · have h4 := appendVarint_len (appendVarint b 10#64) (BitVec.ofNat 64 s)
      have h5 := appendVarint_len b 10#64
      omega
    · have : (n + 1) * (n + 1) = n * n + 2 * n + 1 := by
        simp only [Nat.add_mul, Nat.mul_add]; omega
      omega

/-- The steps of Marshal on a chain, against the length of what it returns. -/
theorem chain_marshal (n : Nat) : ∃ b k, marshalK chainEnv (.msg 0 (chain n)) = .ok (.ok b, k) ∧ b.length ≤ 20 * n ∧ n * n ≤ 2 * k := by
  have hd := chain_depth n
  obtain ⟨s, hs⟩ := chain_size n _ hd
  obtain ⟨b, e, h1, h2, h3⟩ := chain_encode n _ [] hd
  refine ⟨b, n + 1 + e, ?_, by simpa using h2, by omega⟩
  simp only [marshalK, hs, h1, bind, Except.bind, pure, Except.pure]

theorem chain_obs : ∀ n (w : Val), w.obs = chain n → w = chain n
  | 0, w, h => by
    cases w with
    | struct fs =>
      match fs, h with
      | [.nilp], _ => rfl
    | _ => simp [Val.obs, chain] at h
  | n + 1, w, h => by
    cases w with
    | struct fs =>
      match fs, h with
      | [.ptr v], h =>
        simp only [Val.obs, Val.obsL, chain, Val.struct.injEq, List.cons.injEq, Val.ptr.injEq, and_true] at h
        rw [chain_obs n v h]; rfl
      | .ptr _ :: _ :: _, h => simp [Val.obs, Val.obsL, chain] at h
    | _ => simp [Val.obs, chain] at h

theorem chain_obs_self (n : Nat) : (chain n).obs = chain n := by
  induction n with
  | zero => rfl
  | succ n ih => simp only [chain, Val.obs, Val.obsL, ih]

theorem chain_isStruct (n : Nat) : ∃ vs, chain n = .struct vs := by
  cases n <;> exact ⟨_, rfl⟩

theorem chain_fits (n : Nat) : FitsMsg chainLayout 0 (chain n) := by
  induction n with
  | zero => exact .msg 0 [.nilp] rfl (by
      intro i s v h1 h2
      match i with
      | 0 => simp [chainLayout] at h1 h2; subst h1 h2; exact .msgNil _
      | _ + 1 => simp [chainLayout] at h1)
  | succ n ih =>
    rw [chain]
    exact .msg 0 [.ptr (chain n)] rfl (by
      intro i s v h1 h2
      match i with
      | 0 => simp [chainLayout] at h1 h2; subst h1 h2; exact ih
      | _ + 1 => simp [chainLayout] at h1)

theorem chain_canon (n : Nat) : Canon chainEnv (.msg 0) (.ptr (chain n)) := by
  have key : ∀ v : Val, Canon chainEnv (.msg 0) v → Canon chainEnv (.msg 0) (.ptr (.struct [v])) := by
    intro v hv
    refine .msg 0 [v] [.nilp] rfl ?_ ?_
    · intro f hf w hw
      simp only [chainEnv, List.mem_cons, List.not_mem_nil, or_false] at hf
      subst hf
      simp at hw; subst hw; exact hv
    · intro i hi
      match i with
      | 0 => exact absurd rfl (hi _ (List.mem_cons_self))
      | _ + 1 => rfl
  induction n with
  | zero => exact key _ (.msgNil 0)
  | succ n ih => exact key _ ih

theorem chain_good : Good chainLayout chainEnv where
  wf := {
    zero := fun t => by match t with | 0 | _ + 1 => rfl
    slot := fun t f h => by
      match t with
      | 0 => simp only [chainEnv, List.mem_cons, List.not_mem_nil, or_false] at h; subst h; rfl
      | _ + 1 => simp [chainEnv] at h
    codec := fun t f h => by
      match t with
      | 0 => simp only [chainEnv, List.mem_cons, List.not_mem_nil, or_false] at h; subst h; trivial
      | _ + 1 => simp [chainEnv] at h }
  tags t f h := by
    match t with
    | 0 =>
      simp only [chainEnv, List.mem_cons, List.not_mem_nil, or_false] at h; subst h
      simp [FTag.OK, Codec.TagsOK]
      rfl
    | _ + 1 => simp [chainEnv] at h
  writes t f h := by
    match t with
    | 0 =>
      simp only [chainEnv, List.mem_cons, List.not_mem_nil, or_false] at h; subst h
      simp [Codec.Writes, keyType]
    | _ + 1 => simp [chainEnv] at h
  supported t f h := by
    match t with
    | 0 => simp only [chainEnv, List.mem_cons, List.not_mem_nil, or_false] at h; subst h; trivial
    | _ + 1 => simp [chainEnv] at h
  distinct t := by
    match t with
    | 0 => simp [chainEnv]
    | _ + 1 => simp [chainEnv]

end Pb
