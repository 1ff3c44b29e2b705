import Verif.Spec.Cost
import Verif.Proofs.Cost
import Verif.Proofs.Memory
/-
Lemmas for C64: the steps of decoding are paid for by the input.
-/
namespace Pb
open Spec

/-! ### what a computation may return -/

/-- Whatever `x` returns satisfies `P`. -/
def Returns {α : Type} (x : Except Fault α) (P : α → Prop) : Prop := ∀ a, x = .ok a → P a

theorem returns_ok {α : Type} {a : α} {P : α → Prop} (h : P a) : Returns (.ok a) P := by
  intro b e; cases e; exact h
theorem returns_error {α : Type} {e : Fault} {P : α → Prop} : Returns (.error e) P := by
  intro b h; cases h

theorem returns_bind {α β : Type} {x : Except Fault α} {f : α → Except Fault β} {Q : α → Prop} {P : β → Prop}
    (h : Returns x Q) (hf : ∀ a, Q a → Returns (f a) P) : Returns (x >>= f) P := by
  cases x with
  | ok a => exact hf a (h a rfl)
  | error e => exact returns_error

theorem returns_lift {α β : Type} {x : Except Fault α} {f : α → Except Fault β} {P : β → Prop}
    (hf : ∀ a, x = .ok a → Returns (f a) P) : Returns (x >>= f) P := by
  cases x with
  | ok a => exact hf a rfl
  | error e => exact returns_error

/-! ### debt -/

theorem debt_zero (s : Shape) : (Shape.zero s).debt = 0 := by
  induction s with
  | opt s ih => simpa [Shape.zero, Val.debt] using ih
  | _ => simp [Shape.zero, Val.debt, Val.debtL, Val.debtM]

theorem debtL_append (a b : List Val) : Val.debtL (a ++ b) = Val.debtL a + Val.debtL b := by
  induction a with
  | nil => simp [Val.debtL]
  | cons v a ih => simp only [List.cons_append, Val.debtL, ih]; omega

theorem debtL_zeros (sh : List Shape) : Val.debtL (sh.map Shape.zero) = 0 := by
  induction sh with
  | nil => rfl
  | cons s sh ih => simp [Val.debtL, debt_zero, ih]

theorem debtL_replicate (s : Shape) (n : Nat) : Val.debtL (List.replicate n s.zero) = 0 := by
  induction n with
  | zero => rfl
  | succ n ih => simp [List.replicate_succ, Val.debtL, debt_zero, ih]

theorem debtL_set : ∀ (vs : List Val) (o : Nat) (v w : Val), vs[o]? = some v →
    Val.debtL (vs.set o w) + v.debt = Val.debtL vs + w.debt
  | [], o, v, w, h => by simp at h
  | x :: vs, 0, v, w, h => by
    simp at h; subst h
    simp only [List.set_cons_zero, Val.debtL]; omega
  | x :: vs, o + 1, v, w, h => by
    have := debtL_set vs o v w (by simpa using h)
    simp only [List.set_cons_succ, Val.debtL]; omega

theorem debtM_assign (m : List (Key × Val)) (k : Key) (v : Val) :
    Val.debtM (mapAssign m k v) ≤ Val.debtM m + v.debt := by
  induction m with
  | nil => simp [mapAssign, Val.debtM]
  | cons e m ih =>
    obtain ⟨k0, v0⟩ := e
    simp only [mapAssign]
    split
    · simp only [Val.debtM]; omega
    · simp only [Val.debtM]; omega

mutual
theorem debt_le : ∀ v : Val, v.debt ≤ 3 * v.elements
  | .opt _ v => by simpa only [Val.debt, Val.elements] using debt_le v
  | .ptr v => by simpa only [Val.debt, Val.elements] using debt_le v
  | .struct fs => by simpa only [Val.debt, Val.elements] using debt_leL fs
  | .slice _ es sp => by
    have h1 := debt_leL es
    have h2 := debt_leL sp
    simp only [Val.debt, Val.elements]; omega
  | .map _ m => by
    have := debt_leM m
    simp only [Val.debt, Val.elements]; omega
  | .b8 _ | .w32 _ | .w64 _ | .str _ | .bytes _ | .nilp | .opaque _ => by simp [Val.debt]
theorem debt_leL : ∀ vs : List Val, Val.debtL vs ≤ 3 * Val.elementsL vs
  | [] => by simp [Val.debtL]
  | v :: vs => by
    have h1 := debt_le v
    have h2 := debt_leL vs
    simp only [Val.debtL, Val.elementsL]; omega
theorem debt_leM : ∀ m : List (Key × Val), Val.debtM m ≤ 3 * Val.elementsM m
  | [] => by simp [Val.debtM]
  | (_, v) :: m => by
    have h1 := debt_le v
    have h2 := debt_leM m
    simp only [Val.debtM, Val.elementsM]; omega
end

/-! ### scanning -/

theorem scanned_le (b : Bytes) : scanned b ≤ b.length := by
  induction b with
  | nil => simp [scanned]
  | cons c cs ih =>
    simp only [scanned, List.length_cons]
    split <;> omega

theorem scanned_loop : ∀ (b : Bytes) (x : U64) (s i : Nat) v n, decodeVarintLoop x s i b = (v, n, none) →
    scanned b + i = n ∧ n ≤ 10
  | [], x, s, i, v, n, h => by cases h
  | c :: cs, x, s, i, v, n, h => by
    simp only [decodeVarintLoop] at h
    simp only [scanned]
    split at h
    · rename_i hc
      rw [if_pos hc]
      split at h
      · cases h
      · rename_i hi
        simp only [Prod.mk.injEq] at h
        simp at hi
        omega
    · rename_i hc
      rw [if_neg hc]
      have := scanned_loop cs _ _ _ v n h
      omega

/-- A varint that is accepted has at most ten bytes, and no more are looked at. -/
theorem scanned_ok {b : Bytes} {v n} (h : decodeVarint b = (v, n, none)) : scanned b = n ∧ n ≤ 10 := by
  rw [decodeVarint_eq_loop] at h
  simpa using scanned_loop b _ _ _ v n h

theorem scanned_tag {b : Bytes} {num wt n} (h : decodeTag b = (num, wt, n, none)) : scanned b = n := by
  unfold decodeTag at h
  rcases hd : decodeVarint b with ⟨v, m, e⟩
  rw [hd] at h
  cases h
  exact (scanned_ok hd).1

theorem scannedPayload_le (s : Bytes) (wt : Nat) : scannedPayload s wt ≤ s.length := by
  have := scanned_le s
  unfold scannedPayload
  split <;> omega

theorem scannedPayload_ok {s : Bytes} {wt : Nat} {d r : Bytes} (h : takePayload s wt = .ok (d, r)) :
    scannedPayload s wt ≤ 10 ∧ scannedPayload s wt ≤ d.length := by
  unfold takePayload at h
  unfold scannedPayload
  rcases hd : decodeVarint s with ⟨l, n, _ | e⟩
  · obtain ⟨h1, h2⟩ := scanned_ok hd
    have h3 := decodeVarint_le hd
    rw [hd] at h
    split at h
    · rename_i hw
      cases h
      simp only [hw, true_or, if_true, List.length_take]
      omega
    · split at h
      · rename_i hw
        simp only at h
        split at h
        · cases h
        · cases h
          simp only [hw, or_true, if_true, List.length_take]
          omega
      · rename_i h4 h5
        simp [h4, h5]
  · rw [hd] at h
    split at h
    · cases h
    · split at h
      · cases h
      · rename_i h4 h5
        simp [h4, h5]

/-! ### contracts -/

/-- A single value leaves eleven steps of what its bytes pay. -/
def PaysSingle (b : Bytes) (v : Val) : DRes × Nat → Prop
  | (.ok v' n, c) => n ≤ b.length ∧ c + 11 + v'.debt ≤ v.debt + 12 * n
  | (.err v' _, c) => c + 11 + v'.debt ≤ v.debt + 12 * b.length

/-- Any field is paid by its bytes. -/
def PaysField (b : Bytes) (v : Val) : DRes × Nat → Prop
  | (.ok v' n, c) => n ≤ b.length ∧ c + v'.debt ≤ v.debt + 12 * n
  | (.err v' _, c) => c + v'.debt ≤ v.debt + 12 * b.length

/-- A message is paid by its bytes. -/
def PaysMsg (b : Bytes) (v : Val) : DRes × Nat → Prop
  | (.ok v' n, c) => n ≤ b.length ∧ c + v'.debt ≤ v.debt + 12 * n
  | (.err v' _, c) => c + v'.debt ≤ v.debt + 12 * b.length

theorem PaysSingle.field {b : Bytes} {v : Val} {r : DRes × Nat} (h : PaysSingle b v r) : PaysField b v r := by
  rcases r with ⟨r | r, c⟩ <;> simp only [PaysSingle, PaysField] at h ⊢ <;> omega

/-- The loop: the tag of a record pays for the iteration and for what the field needs in addition. -/
theorem loop_pays {idx : Nat → Option CostField} (b : Bytes)
    (hi : ∀ k f, idx k = some f → ∀ d v, d ≠ [] → Returns (f.dec d v) (PaysField d v)) :
    ∀ fuel offset vs k, offset ≤ b.length → Returns (structLoopK idx b fuel offset vs k) fun
      | (.ok v' n, c) => n = b.length ∧ c + v'.debt ≤ k + Val.debtL vs + 12 * (b.length - offset)
      | (.err v' _, c) => c + v'.debt ≤ k + Val.debtL vs + 12 * (b.length - offset) := by
  intro fuel
  induction fuel with
  | zero =>
    intro offset vs k ho
    unfold structLoopK
    split
    · exact returns_error
    · refine returns_ok ⟨by omega, ?_⟩
      simp only [Val.debt]; omega
  | succ fuel ih =>
    intro offset vs k ho
    unfold structLoopK
    split
    · rename_i hlt
      rw [goFrom_eq ho]
      refine returns_lift fun rest hrest => ?_
      cases hrest
      rcases hd : decodeTag (b.drop offset) with ⟨num, wt, n, _ | e⟩
      · have hpos := decodeTag_pos hd
        have hle := decodeTag_le hd
        have hscan := scanned_tag hd
        simp only [List.length_drop] at hle
        have hsp := scannedPayload_le (b.drop (offset + n)) wt
        simp only [List.length_drop] at hsp
        have ho' : offset + n ≤ b.length := by omega
        simp only
        cases hidx : idx num with
        | none =>
          simp only
          obtain ⟨m, hsk⟩ := skipUnknown_eq (wt := wt) ho'
          rw [hsk]
          rcases htp : takePayload (b.drop (offset + n)) wt with e | ⟨d, rest⟩
          · refine returns_ok ?_
            simp only [Val.debt]; omega
          · have hsc := scannedPayload_ok htp
            have hdl := congrArg List.length (takePayload_append htp)
            simp only [List.length_drop, List.length_append] at hdl
            refine fun a ha => ?_
            have := ih (b.length - rest.length) vs _ (by omega) a ha
            rcases a with ⟨r | r, c⟩ <;> simp only at this ⊢ <;> omega
        | some f =>
          simp only
          split
          · refine returns_ok ?_
            simp only [Val.debt]; omega
          · rw [fieldData_eq ho']
            rcases htp : takePayload (b.drop (offset + n)) wt with e | ⟨d, rest⟩
            · refine returns_ok ?_
              simp only [Val.debt]; omega
            · have hsc := scannedPayload_ok htp
              have hdl := congrArg List.length (takePayload_append htp)
              have hne := takePayload_ne htp
              simp only [List.length_drop, List.length_append] at hdl
              refine returns_lift fun x hx => ?_
              cases hx
              refine returns_lift fun v hv => ?_
              have hs := slotOf_inv hv
              refine returns_bind (hi _ _ hidx d v hne) fun r hr => ?_
              rcases r with ⟨⟨v', m⟩ | ⟨v', e⟩, c⟩
              · have hset := debtL_set vs f.offset v v' hs
                simp only [PaysField] at hr
                refine fun a ha => ?_
                have := ih (offset + n + m) (vs.set f.offset v') _ (by omega) a ha
                rcases a with ⟨r | r, c⟩ <;> simp only at this ⊢ <;> omega
              · have hset := debtL_set vs f.offset v v' hs
                simp only [PaysField] at hr
                refine returns_ok ?_
                simp only [Val.debt]; omega
      · refine returns_ok ?_
        have := scanned_le (b.drop offset)
        simp only [List.length_drop] at this
        simp only [Val.debt]; omega
    · refine returns_ok ⟨by omega, ?_⟩
      simp only [Val.debt]; omega

theorem struct_pays {fs : List CostField}
    (hi : ∀ f ∈ fs, ∀ d v, d ≠ [] → Returns (f.dec d v) (PaysField d v)) (b : Bytes) (v : Val) :
    Returns (structDecodeK fs b v) (PaysMsg b v) := by
  unfold structDecodeK
  cases v with
  | struct vs =>
    refine fun a ha => ?_
    have := loop_pays b (idx := fieldIndexK fs) (by
      intro k f hf
      rw [fieldIndexK_eq] at hf
      exact hi f (by simpa using List.mem_of_find?_eq_some hf)) b.length 0 vs 0 (by omega) a ha
    rcases a with ⟨r | r, c⟩ <;> simp only [PaysMsg, Val.debt] at this ⊢ <;> omega
  | _ => exact returns_error

theorem scalar_copies (s : Scalar) (b : Bytes) (v : Val) :
    (∀ v' m, decodeScalar s b v = .ok (.ok v' m) → copiedScalar s b + 1 ≤ m ∧ v'.debt = 0) ∧
    (∀ v' e, decodeScalar s b v = .ok (.err v' e) → copiedScalar s b ≤ b.length - 1 ∧ v'.debt ≤ v.debt) := by
  cases s <;> simp only [decodeScalar, bind, Except.bind, pure, Except.pure, copiedScalar]
  case bool =>
    cases b with
    | nil =>
      refine ⟨fun v' m h => (by simp at h), fun v' e h => ?_⟩
      simp at h; rw [h.1]; simp
    | cons c cs =>
      cases v with
      | b8 x =>
        refine ⟨fun v' m h => ?_, fun v' e h => (by simp [writeB8] at h)⟩
        simp [writeB8] at h; rw [← h.1, ← h.2]; simp [Val.debt]
      | _ => exact ⟨fun v' m h => (by simp [writeB8] at h), fun v' e h => (by simp [writeB8] at h)⟩
  case string =>
    cases v with
    | str x =>
      simp only [decodeVarlen_eq, writeStr]
      rcases hd : decodeVarint b with ⟨l, n, e⟩
      cases e with
      | some e =>
        refine ⟨fun v' m h => ?_, fun v' e' h => ?_⟩
        · simp only at h
          repeat' split at h
          all_goals simp [DRes.mk] at h
        · simp only at h
          repeat' split at h
          all_goals
            simp [DRes.mk] at h
            rw [← h.1]; simp [Val.debt]
      | none =>
        have hp := decodeVarint_pos hd
        have hle := decodeVarint_le hd
        simp only
        split
        · refine ⟨fun v' m h => ?_, fun v' e' h => ?_⟩
          · simp only at h
            repeat' split at h
            all_goals simp [DRes.mk] at h
          · simp only at h
            repeat' split at h
            all_goals
              simp [DRes.mk] at h
              rw [← h.1]; simp [Val.debt]
        · refine ⟨fun v' m h => ?_, fun v' e' h => ?_⟩
          · have : ¬ (n + l.toNat = 0) := by omega
            simp only [if_neg this, DRes.mk, Except.ok.injEq, DRes.ok.injEq] at h
            rw [← h.1, ← h.2]; simp [Val.debt]; omega
          · have : ¬ (n + l.toNat = 0) := by omega
            simp only [if_neg this, DRes.mk, Except.ok.injEq, reduceCtorEq] at h
    | _ =>
      simp only [decodeVarlen_eq, writeStr]
      refine ⟨fun v' m h => ?_, fun v' m h => ?_⟩ <;> repeat' split at h
      all_goals cases h
  all_goals
    cases v <;> simp only [write32, write64] <;>
    first
      | (refine ⟨fun v' m h => ?_, fun v' m h => ?_⟩ <;> (cases h; done))
      | (rcases hd : decodeVarint b with ⟨l, n, e⟩
         cases e with
         | none =>
           have := decodeVarint_pos hd
           refine ⟨fun v' m h => ?_, fun v' e h => (by simp [DRes.mk] at h)⟩
           simp [DRes.mk] at h; rw [← h.1, ← h.2]; simp [Val.debt]; omega
         | some e =>
           refine ⟨fun v' m h => (by simp [DRes.mk] at h), fun v' e h => ?_⟩
           simp [DRes.mk] at h; rw [← h.1]; simp [Val.debt])
      | (unfold decodeLE32
         split
         · refine ⟨fun v' m h => ?_, fun v' e h => (by simp [DRes.mk] at h)⟩
           simp [DRes.mk] at h; rw [← h.1, ← h.2]; simp [Val.debt]
         · refine ⟨fun v' m h => (by simp [DRes.mk] at h), fun v' e h => ?_⟩
           simp [DRes.mk] at h; rw [← h.1]; simp [Val.debt])
      | (unfold decodeLE64
         split
         · refine ⟨fun v' m h => ?_, fun v' e h => (by simp [DRes.mk] at h)⟩
           simp [DRes.mk] at h; rw [← h.1, ← h.2]; simp [Val.debt]
         · refine ⟨fun v' m h => (by simp [DRes.mk] at h), fun v' e h => ?_⟩
           simp [DRes.mk] at h; rw [← h.1]; simp [Val.debt])

theorem scalar_scans (s : Scalar) (b : Bytes) (v v' : Val) (m : Nat) (h : decodeScalar s b v = .ok (.ok v' m)) :
    scannedScalar s b ≤ m := by
  rcases hd : decodeVarint b with ⟨l, n, e⟩
  have key : e = none → scanned b = n := fun he => by subst he; exact (scanned_ok hd).1
  cases s <;> simp only [scannedScalar, Nat.zero_le] <;>
    simp only [decodeScalar, bind, Except.bind, pure, Except.pure, decodeVarlen_eq, decodeVarintZigZag, hd] at h <;>
    cases e <;> simp only [DRes.mk] at h <;> repeat' split at h
  all_goals first
    | (cases h; done)
    | (cases h; rw [key rfl]; omega)
    | (cases h; rw [key rfl])

theorem scalar_pays (s : Scalar) (b : Bytes) (v : Val) (hb : b ≠ []) :
    Returns (decodeScalar s b v) fun r => PaysSingle b v (r, scannedScalar s b + copiedScalar s b) := by
  have hpos := List.length_pos_iff.mpr hb
  intro r hr
  obtain ⟨h1, h2⟩ := scalar_copies s b v
  cases r with
  | ok v' n =>
    have := bounded_scalar s b v v' n hr
    have := h1 v' n hr
    have := scalar_scans s b v v' n hr
    simp only [PaysSingle]; omega
  | err v' e =>
    have := h2 v' e hr
    have : scannedScalar s b ≤ b.length := by
      have := scanned_le b
      unfold scannedScalar
      split <;> omega
    simp only [PaysSingle]; omega

theorem bytes_pays (b : Bytes) (v : Val) (hb : b ≠ []) :
    Returns (decodeBytes b v) fun r => PaysSingle b v (r, scanned b + copiedBytes b) := by
  have hpos := List.length_pos_iff.mpr hb
  cases v with
  | bytes o =>
    have hsl := scanned_le b
    simp only [decodeBytes, copiedBytes, decodeVarlen_eq, bind, Except.bind, pure, Except.pure]
    rcases hd : decodeVarint b with ⟨l, n, e⟩
    cases e with
    | some e =>
      refine returns_ok ?_
      simp [DRes.mk, PaysSingle, Val.debt]; omega
    | none =>
      have hp := decodeVarint_pos hd
      have hsc := (scanned_ok hd).1
      have hle := decodeVarint_le hd
      simp only
      split
      · refine returns_ok ?_
        simp [DRes.mk, PaysSingle, Val.debt]; omega
      · refine returns_ok ?_
        simp [DRes.mk, PaysSingle, Val.debt]; omega
  | _ =>
    simp only [decodeBytes, decodeVarlen_eq, bind, Except.bind, pure, Except.pure]
    exact returns_error

theorem PaysSingle.ptr {b : Bytes} {v w : Val} {r : DRes} {k : Nat} (h : PaysSingle b v (r, k)) (hw : v.debt = w.debt) :
    PaysSingle b w (r.wrap .ptr, k) := by
  cases r <;> simp only [PaysSingle, DRes.wrap, Val.debt] at h ⊢ <;> omega

/-- A single value. -/
theorem single_pays (zeros : TypeId → Val) (rec : TypeId → Bytes → Val → Except Fault (DRes × Nat))
    (hz : ∀ t, (zeros t).debt = 0) (hrec : ∀ t b v, Returns (rec t b v) (PaysMsg b v)) :
    ∀ c : Codec, c.WF → c.shape.single → ∀ b v, b ≠ [] → Returns (codecDecodeK zeros rec c b v) (PaysSingle b v) := by
  intro c
  induction c with
  | normal s | required s =>
    intro _ _ b v hb
    exact returns_bind (scalar_pays s b v hb) fun r hr => returns_ok hr
  | option s =>
    intro _ _ b v hb
    unfold codecDecodeK
    refine returns_bind (Q := fun r => PaysSingle b v (r, scannedScalar s b + copiedScalar s b)) ?_ fun r hr => returns_ok hr
    cases v with
    | opt o w =>
      refine returns_bind (scalar_pays s b w hb) fun r hr => returns_ok ?_
      cases r <;> simp only [PaysSingle, DRes.wrap, Val.debt] at hr ⊢ <;> omega
    | _ => exact returns_error
  | bytes =>
    intro _ _ b v hb
    exact returns_bind (bytes_pays b v hb) fun r hr => returns_ok hr
  | ptr zero c ih =>
    intro hwf hs b v hb
    obtain ⟨rfl, hwf⟩ := hwf
    cases v with
    | nilp =>
      refine returns_bind (ih hwf hs b _ hb) fun r hr => returns_ok ?_
      exact PaysSingle.ptr hr (by rw [debt_zero]; simp [Val.debt])
    | ptr w =>
      refine returns_bind (ih hwf hs b _ hb) fun r hr => returns_ok ?_
      exact PaysSingle.ptr hr (by simp [Val.debt])
    | _ => exact returns_error
  | msg t =>
    intro _ _ b v hb
    have hpos := List.length_pos_iff.mpr hb
    have hsl := scanned_le b
    have key : ∀ w : Val, w.debt = v.debt → Returns
        (match decodeVarint b with
          | (_, n, err) =>
            match err with
            | some e => pure (DRes.err (.ptr w) e, scanned b)
            | none => do
              match ← rec t (← goFrom b n) w with
              | (.ok v l, k) => return (.ok (.ptr v) (n + l), scanned b + k)
              | (.err v e, k) => return (.err (.ptr v) e, scanned b + k)) (PaysSingle b v) := by
      intro w hw
      rcases hd : decodeVarint b with ⟨l, n, _ | e⟩
      · have hp := decodeVarint_pos hd
        have hsc := (scanned_ok hd).1
        have hle := decodeVarint_le hd
        simp only [goFrom_eq hle]
        refine returns_lift fun rest hrest => ?_
        cases hrest
        refine returns_bind (hrec t (b.drop n) w) fun r hr => ?_
        rcases r with ⟨r | r, c⟩ <;> refine returns_ok ?_ <;>
          simp only [PaysMsg, PaysSingle, Val.debt, List.length_drop] at hr ⊢ <;> omega
      · refine returns_ok ?_
        simp only [PaysSingle, Val.debt]; omega
    unfold codecDecodeK
    cases v with
    | nilp => exact key _ (by rw [hz]; simp [Val.debt])
    | ptr v => exact key _ (by simp [Val.debt])
    | _ => exact returns_error
  | slice zero c _ => intro _ hs; exact hs.elim
  | map i kc vc kd vd _ _ _ _ => intro _ hs; exact hs.elim

/-- Growing a slice: the slots in use have paid for it, except for the first ten. -/
theorem grow_pays (s : Shape) (es spare : List Val) :
    ∃ slot sp, growIfFull s.zero es spare = slot :: sp ∧ slot.debt + Val.debtL sp = Val.debtL spare ∧
      growCost s.zero es spare + 3 * (es.length - (sp.length + 1)) ≤ 3 * (es.length - spare.length) + 10 ∧
      growCost s.zero es spare + 3 * (es.length + 1 - sp.length) ≤ 3 * (es.length - spare.length) + 10 := by
  cases spare with
  | cons x xs =>
    refine ⟨x, xs, by simp [growIfFull], rfl, ?_, ?_⟩ <;> simp [growCost] <;> omega
  | nil =>
    have key : ∃ n, growIfFull s.zero es [] = List.replicate (n + 1) s.zero ∧
        es.length + (n + 1) = if es.length = 0 then 10 else 2 * es.length := by
      by_cases h : es.length = 0
      · exact ⟨9, by simp [growIfFull, h], by simp [h]⟩
      · have h2 : ¬ 2 * es.length = 0 := by omega
        refine ⟨es.length - 1, ?_, by rw [if_neg h]; omega⟩
        simp only [growIfFull, List.length_nil, Nat.add_zero, if_true, if_neg h2]
        congr 1; omega
    obtain ⟨n, h1, h2⟩ := key
    refine ⟨s.zero, List.replicate n s.zero, by rw [h1, List.replicate_succ], ?_, ?_, ?_⟩
    · rw [debtL_replicate, debt_zero]; rfl
    · simp only [growCost, if_true, h1, List.length_replicate, List.length_nil]
      split at h2 <;> omega
    · simp only [growCost, if_true, h1, List.length_replicate, List.length_nil]
      split at h2 <;> omega

/-- Any field. -/
theorem field_pays (zeros : TypeId → Val) (rec : TypeId → Bytes → Val → Except Fault (DRes × Nat))
    (hz : ∀ t, (zeros t).debt = 0) (hrec : ∀ t b v, Returns (rec t b v) (PaysMsg b v)) :
    ∀ c : Codec, c.WF → c.shape.flat → ∀ b v, b ≠ [] → Returns (codecDecodeK zeros rec c b v) (PaysField b v) := by
  intro c hwf hs b v hb
  have hsingle : c.shape.single → Returns (codecDecodeK zeros rec c b v) (PaysField b v) :=
    fun hs r hr => (single_pays zeros rec hz hrec c hwf hs b v hb r hr).field
  cases c with
  | normal s => exact hsingle (by cases s <;> trivial)
  | required s => exact hsingle (by cases s <;> trivial)
  | option s => exact hsingle trivial
  | bytes => exact hsingle trivial
  | ptr z c => exact hsingle hs
  | msg t => exact hsingle trivial
  | slice zero c =>
    obtain ⟨rfl, hwf⟩ := hwf
    unfold codecDecodeK
    cases v with
    | slice isNil es spare =>
      obtain ⟨slot, sp, hg, h1, h2, h3⟩ := grow_pays c.shape es spare
      simp only [hg]
      refine returns_bind (single_pays zeros rec hz hrec c hwf hs b slot hb) fun r hr => ?_
      rcases r with ⟨r | r, k⟩ <;> refine returns_ok ?_ <;>
        simp only [PaysField, PaysSingle, Val.debt, Val.debtL, debtL_append, List.length_append, List.length_cons,
          List.length_nil] at hr ⊢ <;> omega
    | _ => exact returns_error
  | map i kc vc kd vd =>
    obtain ⟨hkey, hkd, hvd, hkz, hvz, _, _, hkw, hvw⟩ := hwf
    obtain ⟨hks, hvs⟩ := hs
    have hpos := List.length_pos_iff.mpr hb
    have hsl := scanned_le b
    unfold codecDecodeK
    cases v with
    | map isNil m =>
      simp only [if_neg hb]
      rcases hd : decodeVarint b with ⟨l, n, _ | e⟩
      · have hp := decodeVarint_pos hd
        have hsc := (scanned_ok hd).1
        have hle := decodeVarint_le hd
        simp only [goFrom_eq hle]
        refine returns_lift fun rest hrest => ?_
        cases hrest
        refine returns_bind (struct_pays (by
          intro f hf
          simp only [List.mem_cons, List.not_mem_nil, or_false] at hf
          rcases hf with rfl | rfl
          · exact fun d v hd r hr => (single_pays zeros rec hz hrec kd hkw (hkd ▸ hks) d v hd r hr).field
          · exact fun d v hd r hr => (single_pays zeros rec hz hrec vd hvw (hvd ▸ hvs) d v hd r hr).field)
          (b.drop n) (.struct [i.kzero, i.vzero])) fun r hr => ?_
        simp only [hkz, hvz] at hr
        rcases r with ⟨⟨v', m'⟩ | ⟨v', e⟩, k⟩
        · simp only [PaysMsg, Val.debt, Val.debtL, debt_zero, List.length_drop] at hr
          cases v' with
          | struct vs =>
            match vs with
            | [] => exact returns_error
            | [_] => exact returns_error
            | [a, w] =>
              simp only
              cases a.toKey? with
              | none => exact returns_error
              | some key =>
                have := debtM_assign m key w
                refine returns_ok ?_
                simp only [PaysField, Val.debt, Val.debtL] at hr ⊢
                omega
            | _ :: _ :: _ :: _ => exact returns_error
          | _ => exact returns_error
        · refine returns_ok ?_
          simp only [PaysMsg, PaysField, Val.debt, Val.debtL, debt_zero, List.length_drop] at hr ⊢
          omega
      · refine returns_ok ?_
        simp only [PaysField, Val.debt]; omega
    | _ => exact returns_error

theorem zeros_debt {L : Layout} {env : Env} (hwf : WFEnv L env) (t : TypeId) : ((env t).zero).debt = 0 := by
  rw [hwf.zero]
  simp [Val.debt, debtL_zeros]

theorem msg_pays {L : Layout} {env : Env} (hwf : WFEnv L env) (hf : FlatEnv env) : ∀ d t b v,
    Returns (decodeMsgK env d t b v) (PaysMsg b v) := by
  intro d
  induction d with
  | zero => exact fun _ _ _ => returns_error
  | succ d ih =>
    intro t b v
    refine struct_pays ?_ b v
    intro f hm
    unfold dfieldsK at hm
    simp only [List.mem_map] at hm
    obtain ⟨g, hg, rfl⟩ := hm
    exact field_pays _ _ (zeros_debt hwf) ih _ (hwf.codec t g hg) (hf t g hg)

end Pb
