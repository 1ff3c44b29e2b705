import Verif.Model.Api
import Verif.Proofs.Loop
/-
The recursion bounds of the model are immaterial: `sizeM`, `encM`, `decM` satisfy the recursion equations
of the Go code without any bound.
-/
namespace Pb
open Spec

/-! ### field lookup -/

theorem wtNumber_eq (w : U64) : wtNumber w = keyNumber w := by
  simp [wtNumber, keyNumber, BitVec.toNat_ushiftRight, Nat.shiftRight_eq_div_pow]

theorem wtType_eq (w : U64) : wtType w = keyType w := by
  unfold wtType keyType
  rw [BitVec.toNat_and]
  exact Nat.and_two_pow_sub_one_eq_mod w.toNat 3

/-- The last field with number `n`. -/
def lookup (fields : List Field) (n : Nat) : Option Field :=
  fields.reverse.find? fun f => decide (n = keyNumber f.tag.wiretag)

/-- The decode view of one field. -/
def toD (zeros : TypeId → Val) (rec : TypeId → Bytes → Val → Except Fault DRes) (f : Field) : DField :=
  { num := keyNumber f.tag.wiretag, wt := keyType f.tag.wiretag, offset := f.offset,
    dec := codecDecode zeros rec f.codec }

theorem fieldIndex_eq (fs : List DField) :
    fieldIndex fs = fun n => fs.reverse.find? fun f => decide (n = f.num) := by
  unfold fieldIndex
  rw [List.foldl_eq_foldr_reverse]
  induction fs.reverse with
  | nil => rfl
  | cons f l ih =>
    funext n
    simp only [List.foldr_cons, List.find?_cons, ih]
    by_cases h : n = f.num <;> simp [h]

theorem fieldIndex_dfields (zeros rec) (fields : List Field) :
    fieldIndex (dfields zeros rec fields) = fun n => (lookup fields n).map (toD zeros rec) := by
  rw [fieldIndex_eq]
  funext n
  unfold dfields lookup
  simp only [wtNumber_eq, wtType_eq]
  rw [← List.map_reverse, List.find?_map]
  rfl

theorem lookup_mem {fields : List Field} {n f} (h : lookup fields n = some f) :
    f ∈ fields ∧ keyNumber f.tag.wiretag = n := by
  unfold lookup at h
  have h1 := List.mem_of_find?_eq_some h
  have h2 := List.find?_some h
  simp at h1 h2
  exact ⟨h1, h2.symm⟩

/-! ### decode functions are bounded -/

theorem DRes.mk_ok {v n e v' m} (h : DRes.mk v n e = .ok v' m) : v = v' ∧ n = m ∧ e = none := by
  cases e <;> simp [DRes.mk] at h; exact ⟨h.1, h.2, rfl⟩

theorem decodeLE32_le {b v n e} (h : decodeLE32 b = (v, n, e)) : n ≤ b.length := by
  unfold decodeLE32 at h
  split at h
  · simp at h; simp; omega
  · simp at h; omega

theorem decodeLE64_le {b v n e} (h : decodeLE64 b = (v, n, e)) : n ≤ b.length := by
  unfold decodeLE64 at h
  split at h
  · simp at h; simp; omega
  · simp at h; omega

/-- `decodeVarlen` never goes out of range. -/
theorem decodeVarlen_eq (b : Bytes) : decodeVarlen b = .ok (match decodeVarint b with
    | (v, n, none) => if v.toNat > b.length - n then ([], n, some .unexpectedEOF)
        else ((b.drop n).take v.toNat, n + v.toNat, none)
    | (_, n, some e) => ([], n, some e)) := by
  unfold decodeVarlen
  rcases hd : decodeVarint b with ⟨v, n, e⟩
  have hle := decodeVarint_le hd
  cases e with
  | some e => rfl
  | none =>
    simp only
    split
    · rfl
    · rw [goSlice_eq (by simp; omega) hle]; rfl

theorem decodeVarlen_le {b d n e} (h : decodeVarlen b = .ok (d, n, e)) : n ≤ b.length := by
  rw [decodeVarlen_eq] at h
  rcases hd : decodeVarint b with ⟨v, m, e'⟩
  have hle := decodeVarint_le hd
  rw [hd] at h
  cases e' with
  | some e => simp at h; omega
  | none =>
    simp only at h
    split at h <;> simp at h <;> omega

theorem bounded_scalar (s : Scalar) : Bounded (decodeScalar s) := by
  intro b v v' n h
  cases s <;> simp only [decodeScalar, bind, Except.bind, pure, Except.pure] at h
  case bool =>
    split at h
    · simp at h
    · split at h
      · simp at h
      · simp at h; simp; omega
  case string =>
    split at h
    · simp at h
    · rename_i r hr
      obtain ⟨d, m, e⟩ := r
      have := decodeVarlen_le hr
      simp only at h
      repeat' split at h
      all_goals simp at h
      all_goals (have := (DRes.mk_ok h).2.1; omega)
  all_goals
    first
      | (rcases hd : decodeVarint b with ⟨x, m, e⟩
         have := decodeVarint_le hd
         rw [hd] at h; simp only at h
         split at h
         · simp at h
         · simp at h; have := (DRes.mk_ok h).2.1; omega)
      | (rcases hd : decodeLE32 b with ⟨x, m, e⟩
         have := decodeLE32_le hd
         rw [hd] at h; simp only at h
         split at h
         · simp at h
         · simp at h; have := (DRes.mk_ok h).2.1; omega)
      | (rcases hd : decodeLE64 b with ⟨x, m, e⟩
         have := decodeLE64_le hd
         rw [hd] at h; simp only at h
         split at h
         · simp at h
         · simp at h; have := (DRes.mk_ok h).2.1; omega)

/-! ### the composite decoders in plain form -/

/-- What `structCodec`'s decode works on: the existing message or a new one. -/
def msgTarget (zero : Val) : Val → Except Fault Val
  | .nilp => .ok zero
  | .ptr v => .ok v
  | _ => .error .confused

theorem codecDecode_msg (zeros : TypeId → Val) (rec : TypeId → Bytes → Val → Except Fault DRes) (t : TypeId)
    (b : Bytes) (p : Val) :
    codecDecode zeros rec (.msg t) b p = match msgTarget (zeros t) p with
      | .error e => .error e
      | .ok v =>
        match decodeVarint b with
        | (_, _, some e) => .ok (.err (.ptr v) e)
        | (_, n, none) =>
          match rec t (b.drop n) v with
          | .error e => .error e
          | .ok (.ok v l) => .ok (.ok (.ptr v) (n + l))
          | .ok (.err v e) => .ok (.err (.ptr v) e) := by
  have key : ∀ v, (do
      let (_, n, err) := decodeVarint b
      match err with
      | some e => return .err (.ptr v) e
      | none =>
        match ← rec t (← goFrom b n) v with
        | .ok v l => return .ok (.ptr v) (n + l)
        | .err v e => return .err (.ptr v) e : Except Fault DRes)
      = match decodeVarint b with
        | (_, _, some e) => .ok (.err (.ptr v) e)
        | (_, n, none) =>
          match rec t (b.drop n) v with
          | .error e => .error e
          | .ok (.ok v l) => .ok (.ok (.ptr v) (n + l))
          | .ok (.err v e) => .ok (.err (.ptr v) e) := by
    intro v
    rcases hd : decodeVarint b with ⟨l, m, e⟩
    have hle := decodeVarint_le hd
    cases e with
    | some e => rfl
    | none =>
      simp only [goFrom_eq hle, bind, Except.bind, pure, Except.pure]
      cases rec t (b.drop m) v with
      | error e => rfl
      | ok r => cases r <;> rfl
  cases p with
  | nilp => exact key (zeros t)
  | ptr v => exact key v
  | _ => rfl

/-- The lookup table of the entry struct of a map (map.go:101-106). -/
def entryIdx (zeros : TypeId → Val) (rec : TypeId → Bytes → Val → Except Fault DRes) (i : MapInfo)
    (kd vd : Codec) : Nat → Option DField := fun n =>
  if n = keyNumber i.eVal then
    some { num := keyNumber i.eVal, wt := keyType i.eVal, offset := 1, dec := codecDecode zeros rec vd }
  else if n = keyNumber i.eKey then
    some { num := keyNumber i.eKey, wt := keyType i.eKey, offset := 0, dec := codecDecode zeros rec kd }
  else none

theorem codecDecode_map (zeros : TypeId → Val) (rec : TypeId → Bytes → Val → Except Fault DRes) (i : MapInfo)
    (kc vc kd vd : Codec) (hk : Bounded (codecDecode zeros rec kd)) (hv : Bounded (codecDecode zeros rec vd))
    (b : Bytes) (isNil : Bool) (m : List (Key × Val)) :
    codecDecode zeros rec (.map i kc vc kd vd) b (.map isNil m) =
      if b = [] then .ok (.ok (.map false m) 0)
      else
        match decodeVarint b with
        | (_, _, some e) => .ok (.err (.map false m) e)
        | (_, n, none) =>
          match run (entryIdx zeros rec i kd vd) (b.drop n) [i.kzero, i.vzero] with
          | .error e => .error e
          | .ok (_, some e) => .ok (.err (.map false m) e)
          | .ok ([k, v], none) =>
            match k.toKey? with
            | some k => .ok (.ok (.map false (mapAssign m k v)) b.length)
            | none => .error .confused
          | .ok (_, none) => .error .confused := by
  simp only [codecDecode]
  split
  · rfl
  · rcases hd : decodeVarint b with ⟨l, n, e⟩
    have hle := decodeVarint_le hd
    cases e with
    | some e => rfl
    | none =>
      simp only [goFrom_eq hle, bind, Except.bind, pure, Except.pure, wtNumber_eq, wtType_eq]
      have hidx : fieldIndex
          [{ num := keyNumber i.eKey, wt := keyType i.eKey, offset := 0, dec := codecDecode zeros rec kd },
           { num := keyNumber i.eVal, wt := keyType i.eVal, offset := 1, dec := codecDecode zeros rec vd }]
          = entryIdx zeros rec i kd vd := rfl
      rw [structDecode_eq, hidx]
      · cases hr : run (entryIdx zeros rec i kd vd) (b.drop n) [i.kzero, i.vzero] with
        | error e => rfl
        | ok r =>
          obtain ⟨vs, e⟩ := r
          cases e with
          | some e => rfl
          | none =>
            simp only [toDRes]
            match vs with
            | [] => rfl
            | [_] => rfl
            | [k, v] =>
              simp only
              cases k.toKey? with
              | none => rfl
              | some k => simp; omega
            | _ :: _ :: _ :: _ => rfl
      · rw [hidx]
        intro k f hf
        unfold entryIdx at hf
        split at hf
        · simp at hf; rw [← hf]; exact hv
        · split at hf
          · simp at hf; rw [← hf]; exact hk
          · simp at hf

theorem codecDecode_map_other (zeros : TypeId → Val) (rec : TypeId → Bytes → Val → Except Fault DRes) (i : MapInfo)
    (kc vc kd vd : Codec) (b : Bytes) (v : Val) (h : ∀ n m, v ≠ .map n m) :
    codecDecode zeros rec (.map i kc vc kd vd) b v = .error .confused := by
  cases v with
  | map n m => exact absurd rfl (h n m)
  | _ => rfl

theorem bounded_codec (zeros : TypeId → Val) (rec : TypeId → Bytes → Val → Except Fault DRes)
    (hrec : ∀ t, Bounded (rec t)) : ∀ c, Bounded (codecDecode zeros rec c) := by
  intro c
  induction c with
  | normal s => exact bounded_scalar s
  | required s => exact bounded_scalar s
  | option s =>
    intro b v v' n h
    simp only [codecDecode, decodeOption, bind, Except.bind, pure, Except.pure] at h
    split at h
    · split at h
      · simp at h
      · rename_i r hr
        cases r with
        | ok w m => simp [DRes.wrap] at h; have := bounded_scalar s _ _ _ _ hr; omega
        | err w e => simp [DRes.wrap] at h
    · simp at h
  | bytes =>
    intro b v v' n h
    simp only [codecDecode, decodeBytes, bind, Except.bind, pure, Except.pure] at h
    split at h
    · simp at h
    · rename_i r hr
      obtain ⟨d, m, e⟩ := r
      have := decodeVarlen_le hr
      simp only at h
      split at h
      · simp at h
        have := (DRes.mk_ok h).2.1; omega
      · simp at h
  | ptr zero c ih =>
    intro b v v' n h
    simp only [codecDecode, bind, Except.bind, pure, Except.pure] at h
    split at h
    · split at h
      · simp at h
      · rename_i r hr
        cases r with
        | ok w m => simp [DRes.wrap] at h; have := ih _ _ _ _ hr; omega
        | err w e => simp [DRes.wrap] at h
    · split at h
      · simp at h
      · rename_i r hr
        cases r with
        | ok w m => simp [DRes.wrap] at h; have := ih _ _ _ _ hr; omega
        | err w e => simp [DRes.wrap] at h
    · simp at h
  | msg t =>
    intro b v v' n h
    rw [codecDecode_msg] at h
    cases hm : msgTarget (zeros t) v with
    | error e => simp [hm] at h
    | ok w =>
      rcases hd : decodeVarint b with ⟨l, m, e⟩
      have hle := decodeVarint_le hd
      cases e with
      | some e => simp [hm, hd] at h
      | none =>
        simp only [hm, hd] at h
        cases hr : rec t (b.drop m) w with
        | error e => simp [hr] at h
        | ok r =>
          cases r with
          | err w e => simp [hr] at h
          | ok w k => simp [hr] at h; have := hrec _ _ _ _ _ hr; simp at this; omega
  | slice zero c ih =>
    intro b v v' n h
    simp only [codecDecode, bind, Except.bind, pure, Except.pure] at h
    split at h
    · split at h
      · simp at h
      · split at h
        · simp at h
        · rename_i r hr
          cases r with
          | ok w m => simp at h; have := ih _ _ _ _ hr; omega
          | err w e => simp at h
    · simp at h
  | map i kc vc kd vd _ _ ihk ihv =>
    intro b v v' n h
    cases v with
    | map isNil m =>
      rw [codecDecode_map _ _ _ _ _ _ _ ihk ihv] at h
      split at h
      · simp at h; omega
      · repeat' split at h
        all_goals simp at h
        omega
    | _ => rw [codecDecode_map_other _ _ _ _ _ _ _ _ _ (by simp)] at h; simp at h

theorem bounded_msg (env : Env) : ∀ d t, Bounded (decodeMsg env d t) := by
  intro d
  induction d with
  | zero => intro t b v v' n h; simp [decodeMsg] at h
  | succ d ih =>
    intro t b v v' n h
    rw [decodeMsg] at h
    cases v with
    | struct vs =>
      rw [structDecode_eq] at h
      · cases hr : run (fieldIndex (dfields (fun t => (env t).zero) (decodeMsg env d) (env t).fields)) b vs with
        | error e => simp [hr, toDRes] at h
        | ok r =>
          obtain ⟨vs, e⟩ := r
          rw [hr] at h
          cases e <;> simp [toDRes] at h
          omega
      · intro k f hf
        rw [fieldIndex_dfields] at hf
        simp at hf
        obtain ⟨g, _, rfl⟩ := hf
        exact bounded_codec _ _ ih _
    | _ => simp [structDecode] at h

/-! ### decode does not depend on the bound -/

/-- Lookup tables that agree except that the decode functions need only agree on short inputs. -/
def IdxEq (L : Nat) (idx idx' : Nat → Option DField) : Prop :=
  ∀ n, (idx n = none ∧ idx' n = none) ∨ ∃ f f', idx n = some f ∧ idx' n = some f' ∧
    f.wt = f'.wt ∧ f.offset = f'.offset ∧ ∀ data v, data.length < L → f.dec data v = f'.dec data v

theorem takePayload_len {s : Bytes} {wt d r} (h : takePayload s wt = .ok (d, r)) : d.length ≤ s.length := by
  have := congrArg List.length (takePayload_append h); simp at this; omega

theorem stepS_congr {idx idx' : Nat → Option DField} {L : Nat} (hi : IdxEq L idx idx') (s : Bytes) (vs : List Val)
    (hs : s.length ≤ L) : stepS idx s vs = stepS idx' s vs := by
  unfold stepS
  rcases hd : decodeTag s with ⟨num, wt, n, e⟩
  cases e with
  | some e => rfl
  | none =>
    simp only
    have hp := decodeTag_pos hd
    have hl := decodeTag_le hd
    rcases hi num with ⟨h1, h2⟩ | ⟨f, f', h1, h2, hw, ho, hdec⟩
    · simp only [h1, h2]
    · simp only [h1, h2, hw, ho]
      cases ht : takePayload (s.drop n) wt with
      | error e => rfl
      | ok dr =>
        obtain ⟨d, r⟩ := dr
        have := takePayload_len ht
        simp at this
        simp only
        cases hsl : slotOf (.struct vs) f'.offset with
        | error e => rfl
        | ok v => simp only; rw [hdec d v (by omega)]

theorem run_congr {idx idx' : Nat → Option DField} {L : Nat} (hi : IdxEq L idx idx') :
    ∀ s vs, s.length ≤ L → run idx s vs = run idx' s vs := by
  intro s
  induction hs : s.length using Nat.strongRecOn generalizing s with
  | ind k ih =>
    intro vs hL
    by_cases h0 : s = []
    · subst h0; rw [run_nil, run_nil]
    · rw [run_cons _ _ _ h0, run_cons _ _ _ h0, stepS_congr hi s vs (by omega)]
      cases hst : stepS idx' s vs with
      | error e => rfl
      | ok st =>
        cases st with
        | fail vs e => rfl
        | next rest vs' =>
          have := stepS_lt hst
          simp only
          exact ih rest.length (by omega) rest rfl vs' (by omega)

theorem codecDecode_congr (zeros : TypeId → Val) (rec rec' : TypeId → Bytes → Val → Except Fault DRes)
    (hb : ∀ t, Bounded (rec t)) (hb' : ∀ t, Bounded (rec' t)) (L : Nat)
    (hrec : ∀ t b v, b.length < L → rec t b v = rec' t b v) :
    ∀ c b v, b.length ≤ L → codecDecode zeros rec c b v = codecDecode zeros rec' c b v := by
  intro c
  induction c with
  | normal s => intros; rfl
  | required s => intros; rfl
  | option s => intros; rfl
  | bytes => intros; rfl
  | ptr zero c ih => intro b v hL; simp only [codecDecode, ih _ _ hL]
  | slice zero c ih => intro b v hL; simp only [codecDecode, ih _ _ hL]
  | msg t =>
    intro b v hL
    rw [codecDecode_msg, codecDecode_msg]
    cases hm : msgTarget (zeros t) v with
    | error e => rfl
    | ok w =>
      rcases hd : decodeVarint b with ⟨l, m, e⟩
      have hle := decodeVarint_le hd
      cases e with
      | some e => rfl
      | none =>
        have hp := decodeVarint_pos hd
        simp only
        rw [hrec _ _ _ (by simp; omega)]
  | map i kc vc kd vd _ _ ihk ihv =>
    intro b v hL
    cases v with
    | map isNil m =>
      rw [codecDecode_map _ _ _ _ _ _ _ (bounded_codec _ _ hb _) (bounded_codec _ _ hb _),
        codecDecode_map _ _ _ _ _ _ _ (bounded_codec _ _ hb' _) (bounded_codec _ _ hb' _)]
      rcases hd : decodeVarint b with ⟨l, n, e⟩
      have hle := decodeVarint_le hd
      cases e with
      | some e => rfl
      | none =>
        simp only
        rw [run_congr (L := L) (idx' := entryIdx zeros rec' i kd vd) _ _ _ (by simp; omega)]
        intro n
        unfold entryIdx
        by_cases h1 : n = keyNumber i.eVal
        · simp only [h1, if_true]
          exact .inr ⟨_, _, rfl, rfl, rfl, rfl, fun data v h => ihv data v (by omega)⟩
        · by_cases h2 : n = keyNumber i.eKey
          · simp only [h2, if_true]
            rw [← h2, if_neg h1, if_neg h1]
            exact .inr ⟨_, _, rfl, rfl, rfl, rfl, fun data v h => ihk data v (by omega)⟩
          · simp [h1, h2]
    | _ =>
      rw [codecDecode_map_other _ _ _ _ _ _ _ _ _ (by simp),
        codecDecode_map_other _ _ _ _ _ _ _ _ _ (by simp)]

theorem idxEq_dfields (zeros : TypeId → Val) (rec rec' : TypeId → Bytes → Val → Except Fault DRes)
    (hb : ∀ t, Bounded (rec t)) (hb' : ∀ t, Bounded (rec' t)) (L : Nat)
    (hrec : ∀ t b v, b.length + 2 ≤ L → rec t b v = rec' t b v) (fields : List Field) :
    IdxEq L (fieldIndex (dfields zeros rec fields)) (fieldIndex (dfields zeros rec' fields)) := by
  intro n
  rw [fieldIndex_dfields, fieldIndex_dfields]
  cases h : lookup fields n with
  | none => simp [h]
  | some f =>
    refine .inr ⟨toD zeros rec f, toD zeros rec' f, by simp [h], by simp [h], rfl, rfl, fun data v hdl => ?_⟩
    exact codecDecode_congr zeros rec rec' hb hb' data.length (fun t b v h => hrec t b v (by omega)) _ _ _ (by omega)

theorem decodeMsg_stable (env : Env) : ∀ d t b v, b.length < 2 * d →
    decodeMsg env d t b v = decodeMsg env (d + 1) t b v := by
  intro d
  induction d with
  | zero => intro t b v h; omega
  | succ d ih =>
    intro t b v h
    rw [decodeMsg, decodeMsg]
    cases v with
    | struct vs =>
      rw [structDecode_eq, structDecode_eq]
      · rw [run_congr (L := b.length) _ _ _ (by omega)]
        exact idxEq_dfields _ _ _ (bounded_msg env d) (bounded_msg env (d + 1)) _
          (fun t b v hh => ih t b v (by omega)) _
      all_goals
        intro k f hf
        rw [fieldIndex_dfields] at hf
        simp at hf
        obtain ⟨g, _, rfl⟩ := hf
        exact bounded_codec _ _ (bounded_msg env _) _
    | _ => rfl

theorem decodeMsg_depth (env : Env) (t : TypeId) (b : Bytes) (v : Val) :
    ∀ d d', b.length < 2 * d → d ≤ d' → decodeMsg env d t b v = decodeMsg env d' t b v := by
  intro d d' h hd
  induction hd with
  | refl => rfl
  | step hd ih => rw [ih, decodeMsg_stable env _ t b v (by simp at hd; omega)]

/-- `info.decode` without recursion bound. -/
def decM (env : Env) (t : TypeId) (b : Bytes) (v : Val) : Except Fault DRes :=
  decodeMsg env (b.length + 1) t b v

/-- The zero values of the message types. -/
def zerosOf (env : Env) (t : TypeId) : Val := (env t).zero

/-- The lookup table of a message type. -/
def idxM (env : Env) (t : TypeId) : Nat → Option DField :=
  fun n => (lookup (env t).fields n).map (toD (zerosOf env) (decM env))

theorem bounded_decM (env : Env) (t : TypeId) : Bounded (decM env t) :=
  fun b v v' n h => bounded_msg env (b.length + 1) t b v v' n h

theorem decM_eq (env : Env) (t : TypeId) (b : Bytes) (vs : List Val) :
    decM env t b (.struct vs) = toDRes b.length (run (idxM env t) b vs) := by
  rw [decM, decodeMsg, structDecode_eq]
  · congr 1
    rw [run_congr (L := b.length) (idx' := idxM env t) _ _ _ (by omega)]
    have := idxEq_dfields (zerosOf env) (decodeMsg env b.length) (decM env) (bounded_msg env _)
      (bounded_decM env) b.length (fun t b' v hh => by
        unfold decM
        exact (decodeMsg_depth env t b' v _ _ (by omega) (by omega)).symm) (env t).fields
    rw [fieldIndex_dfields (rec := decM env)] at this
    exact this
  · intro k f hf
    rw [fieldIndex_dfields] at hf
    simp at hf
    obtain ⟨g, _, rfl⟩ := hf
    exact bounded_codec _ _ (bounded_msg env _) _

theorem decM_nonstruct (env : Env) (t : TypeId) (b : Bytes) (v : Val) (h : ∀ vs, v ≠ .struct vs) :
    decM env t b v = .error .confused := by
  rw [decM, decodeMsg]
  cases v with
  | struct vs => exact absurd rfl (h vs)
  | _ => rfl

end Pb
