import Verif.Proofs.CostChain
import Verif.Proofs.Nesting
import Verif.Props.RoundTrip
import Verif.Props.Safety
import Verif.Props.Memory
/-
C64: the time of Unmarshal. C65: the time of Size and Marshal. C66: how deep Unmarshal recurses. Steps are counted by `Model/Cost.lean`.
-/
namespace Pb.Props
open Spec

/-! ### C64 -/

/-- C64. The counting Unmarshal is Unmarshal. -/
theorem C64_counts (env : Env) (b : Bytes) (a : Arg) (r : UnmarshalRes) :
    unmarshal env b a = .ok r ↔ ∃ k, unmarshalK env b a = .ok (r, k) := drops_iff (unmarshal_drops env b a) r

/-- One call, with what the message's slices still owe before and after. -/
theorem unmarshal_pays {L : Layout} {env : Env} (hwf : WFEnv L env) (hf : FlatEnv env) (t : TypeId) (b : Bytes) (v v' : Val)
    (err : Option ApiErr) (k : Nat) (h : unmarshalK env b (.msg t v) = .ok (⟨.msg t v', err⟩, k)) :
    k + v'.debt ≤ 12 * b.length + v.debt := by
  unfold unmarshalK at h
  split at h
  · cases h; omega
  · simp only at h
    rcases hr : decodeMsgK env (b.length + 1) t b v with e | ⟨r, c⟩
    · rw [hr] at h; cases h
    · have hp := msg_pays hwf hf (b.length + 1) t b v _ hr
      rw [hr] at h
      cases r with
      | err w e => cases h; simp only [PaysMsg] at hp; omega
      | ok w n =>
        simp only [PaysMsg] at hp
        simp only [bind, Except.bind, pure, Except.pure] at h
        split at h <;> cases h <;> omega

/-- C64. Whatever the input, the outcome, and the message decoded into: Unmarshal takes at most twelve steps per byte of input, and
three per element that the message held before. -/
theorem C64_linear {L : Layout} {env : Env} (hwf : WFEnv L env) (hf : FlatEnv env) (t : TypeId) (b : Bytes) (v v' : Val)
    (err : Option ApiErr) (k : Nat) (h : unmarshalK env b (.msg t v) = .ok (⟨.msg t v', err⟩, k)) :
    k ≤ 12 * b.length + 3 * v.elements := by
  have := unmarshal_pays hwf hf t b v v' err k h
  have := debt_le v
  omega

/-- C64. Into a fresh message: at most twelve steps per byte. -/
theorem C64_fresh {L : Layout} {env : Env} (hwf : WFEnv L env) (hf : FlatEnv env) (t : TypeId) (b : Bytes) (v' : Val)
    (err : Option ApiErr) (k : Nat) (h : unmarshalK env b (.msg t (env t).zero) = .ok (⟨.msg t v', err⟩, k)) :
    k ≤ 12 * b.length := by
  have := unmarshal_pays hwf hf t b _ v' err k h
  have := zeros_debt hwf t
  omega

/-- Unmarshal is called with the inputs one after the other, on the same message; `k` steps in all. -/
inductive Series (env : Env) (t : TypeId) : Val → List Bytes → Val → Nat → Prop
  | nil (v) : Series env t v [] v 0
  | cons (v w u b bs err k j) : unmarshalK env b (.msg t v) = .ok (⟨.msg t w, err⟩, k) → Series env t w bs u j →
      Series env t v (b :: bs) u (k + j)

/-- C64. Decoding many inputs into the same message, as when a stream is merged: the cost of growing slices does not add up, twelve
steps per byte of all inputs together. -/
theorem C64_series {L : Layout} {env : Env} (hwf : WFEnv L env) (hf : FlatEnv env) (t : TypeId) (v u : Val) (bs : List Bytes)
    (k : Nat) (h : Series env t v bs u k) : k ≤ 12 * bs.flatten.length + 3 * v.elements := by
  have key : k + u.debt ≤ 12 * bs.flatten.length + v.debt := by
    induction h with
    | nil v => simp
    | cons v w u b bs err k j h1 _ ih =>
      have := unmarshal_pays hwf hf t b v w err k h1
      simp only [List.flatten_cons, List.length_append]
      omega
  have := debt_le v
  omega

/-- C64 for programs: every program that type analysis accepts and whose memory it gets right. Unmarshal returns, and within twelve
steps per byte. -/
theorem C64_program (D : Decls) (h : ProgramSane D) (t : TypeId) (b : Bytes) :
    ∃ v' err k, unmarshalK (envOf D) b (.msg t (envOf D t).zero) = .ok (⟨.msg t v', err⟩, k) ∧ k ≤ 12 * b.length := by
  have hwf := (wf_of_sane h).2.1
  obtain ⟨v', err, h1, _⟩ := C03_unmarshal_safe hwf b t (envOf D t).zero (hwf.zero_fits t)
  obtain ⟨k, hk⟩ := (C64_counts _ _ _ _).mp h1
  exact ⟨v', err, k, hk, C64_fresh hwf (flat_of_sane h) t b v' err k hk⟩

-- one repeated message: an iteration, tag and (twice) length, and the ten slots of a new array
example : unmarshalK Sample.env [26, 0] (.msg 0 (Sample.env 0).zero) =
    .ok (⟨.msg 0 (.struct [.w32 0, .str [], .slice false [.ptr (Sample.env 0).zero] (List.replicate 9 .nilp), .opt false (.w64 0),
      .map true [], .opaque 0, .bytes none, .nilp]), none⟩, 14) := by rfl
example : WFEnv Sample.layout Sample.env ∧ FlatEnv Sample.env := 
  ⟨Sample.wf, Sample.envOf_decls ▸ flat_of_sane (sane_of_ok Sample.programOK)⟩
-- two inputs one after the other
example : ∃ u, Series Sample.env 0 (Sample.env 0).zero [[26, 0], [18, 2, 65, 66]] u 20 :=
  ⟨_, .cons _ _ _ _ _ _ 14 6 rfl (.cons _ _ _ _ _ _ 6 0 rfl (.nil _))⟩

-- a varint that never ends is read to the end of the input, once
example : unmarshalK Sample.env (List.replicate 20 255) (.msg 0 (Sample.env 0).zero) =
    .ok (⟨.msg 0 (Sample.env 0).zero, some (.decode .unexpectedEOF)⟩, 21) := by rfl

/-! ### C65 -/

/-- C65. The counting Size is Size. -/
theorem C65_size_counts (env : Env) (a : Arg) (n : Nat) : size env a = .ok n ↔ ∃ k, sizeK env a = .ok (n, k) :=
  drops_iff (size_drops env a) n

/-- C65. The counting Marshal is Marshal. -/
theorem C65_marshal_counts (env : Env) (a : Arg) (r : Except ApiErr Bytes) :
    marshal env a = .ok r ↔ ∃ k, marshalK env a = .ok (r, k) := drops_iff (marshal_drops env a) r

/-- C65. Size looks at everything once: the fields of every message, at most `W` of them, the elements and the entries. -/
theorem C65_size_linear {L : Layout} {env : Env} (hwf : WFEnv L env)
    (hdis : ∀ t, (env t).fields.Pairwise fun f g => f.offset ≠ g.offset) (W : Nat) (hW : ∀ t, (env t).fields.length ≤ W)
    (t : TypeId) (v : Val) (n k : Nat) (h : sizeK env (.msg t v) = .ok (n, k)) : k ≤ v.visits W :=
  sizeMsg_visits hwf.codec hdis W hW _ t v _ h

/-- C65. Marshal takes no longer than Size as many times as messages are nested, and once more. Partial: C65 asks for a bound that
does not depend on the nesting, which is false, see `C65_false_linear`. -/
theorem C65_marshal_partial {L : Layout} {env : Env} (hwf : WFEnv L env) (t : TypeId) (v : Val) (r : Except ApiErr Bytes) (n k m : Nat)
    (h : sizeK env (.msg t v) = .ok (n, k)) (hm : marshalK env (.msg t v) = .ok (r, m)) : m ≤ (v.nesting + 1) * k := by
  simp only [sizeK] at h
  simp only [marshalK, h] at hm
  rcases he : encodeMsgK env (v.depth + 1) t [] v with e | ⟨b, c⟩
  · rw [he] at hm; cases hm
  · rw [he] at hm
    have := encodeMsg_steps hwf.codec _ t v _ h [] _ he
    cases hm
    simp only at this ⊢
    rw [Nat.add_mul]
    omega

theorem chain_arith (K n m : Nat) (h : n ≤ 20 * (42 * K + 1)) (hm : (42 * K + 1) * (42 * K + 1) ≤ 2 * m) : K * (n + 1) < m := by
  have h1 : K * (n + 1) ≤ K * (840 * K + 21) := Nat.mul_le_mul_left K (by omega)
  have h2 : K * (840 * K + 21) = 840 * (K * K) + 21 * K := by rw [Nat.mul_add, Nat.mul_left_comm, Nat.mul_comm K 21]
  have h3 : 42 * K * (42 * K) = 1764 * (K * K) := by
    rw [Nat.mul_assoc, Nat.mul_left_comm K 42 K, ← Nat.mul_assoc 42 42]
  have h4 : (42 * K + 1) * (42 * K + 1) = 1764 * (K * K) + 84 * K + 1 := by
    simp only [Nat.mul_add, Nat.add_mul, Nat.mul_one, Nat.one_mul, h3]
    omega
  omega

/-- C65 is false: every level of nesting measures again all the levels below it (walker.go:101), so that a chain of `n` messages
takes more than `n²/2` steps. No bound proportional to the length of the output holds. -/
theorem C65_false_linear : ∀ K : Nat, ∃ v b m, FitsMsg chainLayout 0 v ∧ marshalK chainEnv (.msg 0 v) = .ok (.ok b, m) ∧
    K * (b.length + 1) < m := by
  intro K
  obtain ⟨b, m, h1, h2, h3⟩ := chain_marshal (42 * K + 1)
  refine ⟨_, b, m, chain_fits _, h1, ?_⟩
  exact chain_arith K b.length m h2 h3

/-- A chain that fits into an input is read. -/
theorem chain_read (n : Nat) (hn : n < 2 ^ 59) (b : Bytes) (hb : b.length ≤ 20 * n)
    (h : marshal chainEnv (.msg 0 (chain n)) = .ok (.ok b)) :
    unmarshal chainEnv b (.msg 0 (chainEnv 0).zero) = .ok ⟨.msg 0 (chain n), none⟩ := by
  obtain ⟨vs, hvs⟩ := chain_isStruct n
  have hfit := chain_fits n
  have hcan := chain_canon n
  have hobs := fun w => chain_obs n w
  have hobs' := chain_obs_self n
  rw [hvs] at hfit hcan h hobs hobs'
  have hs : ∀ t, ∀ f ∈ (chainEnv t).fields, f.codec.MapsSized := by
    intro t f h
    match t with
    | 0 => simp only [chainEnv, List.mem_cons, List.not_mem_nil, or_false] at h; subst h; trivial
    | _ + 1 => simp [chainEnv] at h
  obtain ⟨w, hw, how⟩ := C01_round_trip_partial chain_good 0 vs b hfit (encOK_of_types chain_good hs 0 _ hfit) hcan h (by omega)
  rw [hobs'] at how
  obtain rfl := hobs w how
  exact hvs ▸ hw

/-- C65 is false for messages that come from outside, too: an input can be found that Unmarshal reads in time proportional to its
length, and for which Marshal then takes more than `K` steps per byte. -/
theorem C65_false_after_unmarshal : ∀ K : Nat, K < 2 ^ 32 → ∃ b v u m, FitsMsg chainLayout 0 v ∧
    unmarshalK chainEnv b (.msg 0 (chainEnv 0).zero) = .ok (⟨.msg 0 v, none⟩, u) ∧ u ≤ 12 * b.length ∧
    marshalK chainEnv (.msg 0 v) = .ok (.ok b, m) ∧ K * (b.length + 1) < m := by
  intro K hK
  obtain ⟨b, m, h1, h2, h3⟩ := chain_marshal (42 * K + 1)
  have hw := chain_read (42 * K + 1) (by omega) b h2 ((C65_marshal_counts _ _ _).mpr ⟨m, h1⟩)
  obtain ⟨u, hu⟩ := (C64_counts _ _ _ _).mp hw
  have hflat : FlatEnv chainEnv := by
    intro t f h
    match t with
    | 0 => simp only [chainEnv, List.mem_cons, List.not_mem_nil, or_false] at h; subst h; trivial
    | _ + 1 => simp [chainEnv] at h
  exact ⟨b, _, u, m, chain_fits _, hu, C64_fresh chain_good.wf hflat 0 b _ _ u hu, h1, chain_arith K b.length m h2 h3⟩

/-- C65. What was read from `b` into a fresh message is written in time at most quadratic in the length of `b`. Partial: see
`C65_false_after_unmarshal`. -/
theorem C65_quadratic_partial {L : Layout} {env : Env} (hwf : WFEnv L env) (hf : FlatEnv env)
    (hdis : ∀ t, (env t).fields.Pairwise fun f g => f.offset ≠ g.offset) (W : Nat) (hW : ∀ t, (env t).fields.length ≤ W)
    (t : TypeId) (b : Bytes) (v : Val) (err : Option ApiErr) (r : Except ApiErr Bytes) (m : Nat)
    (h : unmarshal env b (.msg t (env t).zero) = .ok ⟨.msg t v, err⟩) (hm : marshalK env (.msg t v) = .ok (r, m)) :
    4 * m ≤ (b.length + 4) * (W * (b.length + 2) + b.length) := by
  obtain ⟨h1, h2, _⟩ := C35_fresh hwf hf t b v err h
  rcases hs : sizeK env (.msg t v) with e | ⟨n, k⟩
  · simp only [sizeK] at hs
    simp only [marshalK, hs] at hm
    cases hm
  · have h3 := C65_marshal_partial hwf t v r n k m hs hm
    have h4 := C65_size_linear hwf hdis W hW t v n k hs
    have h5 := visits_le W v
    have h6 := nesting_le v
    have h7 : 2 * k ≤ W * (b.length + 2) + b.length := by
      have : W * (2 * v.messages) ≤ W * (b.length + 2) := Nat.mul_le_mul_left W (by omega)
      rw [Nat.mul_left_comm] at this
      omega
    have h8 : (2 * (v.nesting + 1)) * (2 * k) ≤ (b.length + 4) * (W * (b.length + 2) + b.length) :=
      Nat.mul_le_mul (by omega) h7
    have h9 : (2 * (v.nesting + 1)) * (2 * k) = 4 * ((v.nesting + 1) * k) := by
      rw [Nat.mul_assoc, Nat.mul_left_comm _ 2 k, ← Nat.mul_assoc 2 2]
    omega

-- the sample message: Size visits 23 places out of at most 26, Marshal takes 60 steps with two levels
example : ∃ n r, sizeK Sample.env (.msg 0 Sample.node) = .ok (n, 23) ∧ marshalK Sample.env (.msg 0 Sample.node) = .ok (r, 60) ∧
    Sample.node.nesting = 2 ∧ Sample.node.visits 8 = 26 := ⟨_, _, rfl, rfl, rfl, rfl⟩
example : WFEnv Sample.layout Sample.env ∧ (∀ t, (Sample.env t).fields.Pairwise fun f g => f.offset ≠ g.offset) ∧
    ∀ t, (Sample.env t).fields.length ≤ 8 := by
  refine ⟨Sample.wf, fun t => (Sample.good.distinct t).imp fun h => h.1, fun t => ?_⟩
  match t with
  | 0 => decide
  | 1 => decide
  | 2 => decide
  | _ + 3 => exact Nat.zero_le 8

/-! ### C66 -/

/-- C66. What `d` levels of recursion can do: nothing is nested deeper than `d + 1` that was not before. -/
theorem C66_levels {L : Layout} {env : Env} (hwf : WFEnv L env) (d : Nat) (t : TypeId) (b : Bytes) (v v' : Val) (n : Nat)
    (h : decodeMsg env d t b v = .ok (.ok v' n)) : v'.nesting ≤ max v.deep (d + 1) := by
  have h1 : v'.deep ≤ 1 + (max v.deep (d + 1) - 1) := msg_deep hwf d (max v.deep (d + 1) - 1) t b v (by omega) (by omega) _ h
  have := nesting_deep v'
  omega

/-- C66. Messages read into a fresh one are nested at most half as deep as the input is long, and one more. Partial: C66 asks for
a limit that does not depend on the input; there is none, see `C66_false_no_limit`. -/
theorem C66_depth_partial {L : Layout} {env : Env} (hwf : WFEnv L env) (hf : FlatEnv env) (t : TypeId) (b : Bytes) (v : Val)
    (err : Option ApiErr) (h : unmarshal env b (.msg t (env t).zero) = .ok ⟨.msg t v, err⟩) : 2 * (v.nesting - 1) ≤ b.length := by
  have := (C35_fresh hwf hf t b v err h).2.1
  have := nesting_le v
  omega

/-- C66 is false: for every `K` (within the sizes a 64-bit machine can address) an input of at most `20 * K` bytes is accepted that
is nested deeper than `K`, and no recursion of depth `K - 2` can read it. -/
theorem C66_false_no_limit : ∀ K : Nat, K < 2 ^ 59 → ∃ b v, b.length ≤ 20 * K ∧
    unmarshal chainEnv b (.msg 0 (chainEnv 0).zero) = .ok ⟨.msg 0 v, none⟩ ∧ v.nesting = K + 1 ∧
    ∀ d n, d + 1 ≤ K → decodeMsg chainEnv d 0 b (chainEnv 0).zero ≠ .ok (.ok v n) := by
  intro K hK
  obtain ⟨b, m, h1, h2, h3⟩ := chain_marshal K
  refine ⟨b, chain K, h2, chain_read K hK b h2 ((C65_marshal_counts _ _ _).mpr ⟨m, h1⟩), chain_nesting K, ?_⟩
  intro d n hd h
  have h4 := C66_levels chain_good.wf d 0 b _ _ n h
  rw [zeros_deep chain_good.wf, chain_nesting] at h4
  omega

-- two levels of recursion, three messages nested
example : ∃ v, decodeMsg chainEnv 3 0 [10, 2, 10, 0] (chainEnv 0).zero = .ok (.ok v 4) ∧ v.nesting = 3 := ⟨_, rfl, rfl⟩
example : decodeMsg chainEnv 1 0 [10, 2, 10, 0] (chainEnv 0).zero = .error .depth := rfl
example : WFEnv chainLayout chainEnv := chain_good.wf

end Pb.Props
