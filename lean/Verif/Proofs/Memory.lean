import Verif.Spec.Memory
import Verif.Proofs.Step
import Verif.Proofs.Accept
/-
Bounds on what decoding adds to a message.
-/
namespace Pb
open Spec

/-! ### totals -/

theorem total_zero (ce cm : Nat) (s : Shape) : (Shape.zero s).total ce cm = 0 := by
  induction s with
  | opt s ih => simpa [Shape.zero, Val.total] using ih
  | _ => simp [Shape.zero, Val.total, Val.totalL, Val.totalM]

theorem totalL_append (ce cm : Nat) (a b : List Val) : Val.totalL ce cm (a ++ b) = Val.totalL ce cm a + Val.totalL ce cm b := by
  induction a with
  | nil => simp [Val.totalL]
  | cons v a ih => simp only [List.cons_append, Val.totalL, ih]; omega

theorem totalL_zeros (ce cm : Nat) (sh : List Shape) : Val.totalL ce cm (sh.map Shape.zero) = 0 := by
  induction sh with
  | nil => rfl
  | cons s sh ih => simp [Val.totalL, total_zero, ih]

theorem totalL_replicate (ce cm : Nat) (s : Shape) (n : Nat) : Val.totalL ce cm (List.replicate n s.zero) = 0 := by
  induction n with
  | zero => rfl
  | succ n ih => simp [List.replicate_succ, Val.totalL, total_zero, ih]

/-- Replacing a slot replaces its total. -/
theorem totalL_set (ce cm : Nat) : ∀ (vs : List Val) (o : Nat) (v w : Val), vs[o]? = some v →
    Val.totalL ce cm (vs.set o w) + v.total ce cm = Val.totalL ce cm vs + w.total ce cm
  | [], o, v, w, h => by simp at h
  | x :: vs, 0, v, w, h => by
    simp at h; subst h
    simp only [List.set_cons_zero, Val.totalL]; omega
  | x :: vs, o + 1, v, w, h => by
    have := totalL_set ce cm vs o v w (by simpa using h)
    simp only [List.set_cons_succ, Val.totalL]; omega

theorem totalM_assign (ce cm : Nat) (m : List (Key × Val)) (k : Key) (v : Val) :
    ce * (mapAssign m k v).length + Val.totalM ce cm (mapAssign m k v) ≤
      ce * m.length + Val.totalM ce cm m + (ce + (k.held + v.total ce cm)) := by
  induction m with
  | nil => simp [mapAssign, Val.totalM]
  | cons e m ih =>
    obtain ⟨k0, v0⟩ := e
    simp only [mapAssign]
    split
    · rename_i h; subst h
      simp only [List.length_cons, Val.totalM]; omega
    · simp only [List.length_cons, Val.totalM, Nat.mul_add]; omega

theorem slotOf_inv {vs : List Val} {o : Nat} {v : Val} (h : slotOf (.struct vs) o = .ok v) : vs[o]? = some v := by
  simp only [slotOf] at h
  split at h
  · rename_i h'; cases h; exact h'
  · simp at h

/-- The growth allowed to a decode function: `k` beyond the bytes it consumes. -/
def Grows (ce cm k : Nat) (dec : Bytes → Val → Except Fault DRes) : Prop :=
  ∀ b v, b ≠ [] → (∀ v' n, dec b v = .ok (.ok v' n) → n ≤ b.length ∧ v'.total ce cm ≤ v.total ce cm + n + k) ∧
    (∀ v' e, dec b v = .ok (.err v' e) → v'.total ce cm ≤ v.total ce cm + b.length + k)

theorem takePayload_ne {s : Bytes} {wt : Nat} {d r : Bytes} (h : takePayload s wt = .ok (d, r)) : d ≠ [] := by
  have := (takePayload_inv h).1
  cases this with
  | varint _ n h => exact List.length_pos_iff.mp (by cases h.1 <;> simp)
  | fixed64 _ h => exact List.length_pos_iff.mp (by omega)
  | varlen p bs hp =>
    generalize bs.length = k at hp
    have : p ≠ [] := List.length_pos_iff.mp (by cases hp.1 <;> simp)
    simp [this]
  | fixed32 _ h => exact List.length_pos_iff.mp (by omega)

/-- The loop adds no more than it reads. -/
theorem run_grows (ce cm : Nat) {idx : Nat → Option DField} (n : Nat)
    (hi : ∀ k f, idx k = some f → ∀ b v, b.length < n → b ≠ [] →
      (∀ v' m, f.dec b v = .ok (.ok v' m) → m ≤ b.length ∧ v'.total ce cm ≤ v.total ce cm + m + 1) ∧
      (∀ v' e, f.dec b v = .ok (.err v' e) → v'.total ce cm ≤ v.total ce cm + b.length + 1)) :
    ∀ b vs vs' e, b.length ≤ n → run idx b vs = .ok (vs', e) → Val.totalL ce cm vs' ≤ Val.totalL ce cm vs + b.length := by
  intro b
  induction hb : b.length using Nat.strongRecOn generalizing b with
  | ind k ih =>
    intro vs vs' e hn hr
    by_cases h0 : b = []
    · subst h0; rw [run_nil] at hr; cases hr; omega
    · rw [run_cons _ _ _ h0] at hr
      cases hst : stepS idx b vs with
      | error e => rw [hst] at hr; cases hr
      | ok st =>
        rw [hst] at hr
        have hkey : (∀ vs' e', st = .fail vs' e' → Val.totalL ce cm vs' ≤ Val.totalL ce cm vs + b.length) ∧
            (∀ rest vs', st = .next rest vs' → Val.totalL ce cm vs' + rest.length ≤ Val.totalL ce cm vs + b.length) := by
          unfold stepS at hst
          rcases hd : decodeTag b with ⟨num, wt, m, e'⟩
          have hp := decodeTag_le hd
          cases e' with
          | some e' =>
            simp [hd] at hst
            subst hst
            simp
          | none =>
            have hpos := decodeTag_pos hd
            simp only [hd] at hst
            cases hidx : idx num with
            | none =>
              simp only [hidx] at hst
              split at hst
              · simp at hst; subst hst; simp
              · rename_i ht
                have := congrArg List.length (takePayload_append ht)
                simp at this
                simp at hst; subst hst; simp; omega
            | some f =>
              simp only [hidx] at hst
              split at hst
              · simp at hst; subst hst; simp
              · split at hst
                · simp at hst; subst hst; simp
                · rename_i d r ht
                  have hdl := congrArg List.length (takePayload_append ht)
                  have hne := takePayload_ne ht
                  simp at hdl
                  cases hsl : slotOf (.struct vs) f.offset with
                  | error e => simp [hsl] at hst
                  | ok v =>
                    rw [hsl] at hst
                    simp only at hst
                    obtain ⟨hok, herr⟩ := hi _ _ hidx d v (by omega) hne
                    have hset := totalL_set ce cm vs f.offset v
                    have hv := slotOf_inv hsl
                    split at hst
                    · cases hst
                    · rename_i v' m' hdec
                      obtain ⟨h1, h2⟩ := hok _ _ hdec
                      have := hset v' hv
                      simp at hst; subst hst; simp
                      omega
                    · rename_i v' e' hdec
                      have h2 := herr _ _ hdec
                      have := hset v' hv
                      simp at hst; subst hst; simp
                      omega
        cases st with
        | fail vs'' e =>
          simp only [Except.ok.injEq, Prod.mk.injEq] at hr
          rw [← hr.1, ← hb]; exact hkey.1 _ _ rfl
        | next rest vs'' =>
          have := stepS_lt hst
          have h1 := ih rest.length (by omega) rest rfl vs'' vs' e (by omega) hr
          have h2 := hkey.2 _ _ rfl
          omega

/-- A scalar adds less than it reads. -/
theorem scalar_grows (ce cm : Nat) (s : Scalar) (b : Bytes) (v : Val) :
    (∀ v' m, decodeScalar s b v = .ok (.ok v' m) → v'.total ce cm + 1 ≤ v.total ce cm + m) ∧
    (∀ v' e, decodeScalar s b v = .ok (.err v' e) → v'.total ce cm ≤ v.total ce cm) := by
  cases s <;> simp only [decodeScalar, bind, Except.bind, pure, Except.pure]
  case bool =>
    cases b with
    | nil =>
      refine ⟨fun v' m h => (by simp at h), fun v' e h => ?_⟩
      simp at h; rw [h.1]; omega
    | cons c cs =>
      cases v with
      | b8 x =>
        refine ⟨fun v' m h => ?_, fun v' e h => (by simp [writeB8] at h)⟩
        simp [writeB8] at h; rw [← h.1, ← h.2]; simp [Val.total]
      | _ => exact ⟨fun v' m h => (by simp [writeB8] at h), fun v' e h => (by simp [writeB8] at h)⟩
  case string =>
    cases v with
    | str x =>
      simp only [decodeVarlen_eq, writeStr]
      rcases hd : decodeVarint b with ⟨l, n, e⟩
      cases e with
      | some e =>
        refine ⟨fun v' m h => ?_, fun v' e' h => ?_⟩
        · simp only at h
          repeat' split at h
          all_goals simp [DRes.mk] at h
        · simp only at h
          repeat' split at h
          all_goals
            simp [DRes.mk] at h
            rw [← h.1]; simp [Val.total]
      | none =>
        have hp := decodeVarint_pos hd
        have hle := decodeVarint_le hd
        simp only
        split
        · refine ⟨fun v' m h => ?_, fun v' e' h => ?_⟩
          · simp only at h
            repeat' split at h
            all_goals simp [DRes.mk] at h
          · simp only at h
            repeat' split at h
            all_goals
              simp [DRes.mk] at h
              rw [← h.1]; simp [Val.total]
        · refine ⟨fun v' m h => ?_, fun v' e' h => ?_⟩
          · have : ¬ (n + l.toNat = 0) := by omega
            simp only [if_neg this, DRes.mk, Except.ok.injEq, DRes.ok.injEq] at h
            rw [← h.1, ← h.2]; simp [Val.total]; omega
          · have : ¬ (n + l.toNat = 0) := by omega
            simp only [if_neg this, DRes.mk, Except.ok.injEq, reduceCtorEq] at h
    | _ =>
      simp only [decodeVarlen_eq, writeStr]
      refine ⟨fun v' m h => ?_, fun v' m h => ?_⟩ <;> repeat' split at h
      all_goals cases h
  all_goals
    cases v <;> simp only [write32, write64] <;>
    first
      | (refine ⟨fun v' m h => ?_, fun v' m h => ?_⟩ <;> (cases h; done))
      | (rcases hd : decodeVarint b with ⟨l, n, e⟩
         cases e with
         | none =>
           have := decodeVarint_pos hd
           refine ⟨fun v' m h => ?_, fun v' e h => (by simp [DRes.mk] at h)⟩
           simp [DRes.mk] at h; rw [← h.1, ← h.2]; simp [Val.total]; omega
         | some e =>
           refine ⟨fun v' m h => (by simp [DRes.mk] at h), fun v' e h => ?_⟩
           simp [DRes.mk] at h; rw [← h.1]; simp [Val.total])
      | (unfold decodeLE32
         split
         · refine ⟨fun v' m h => ?_, fun v' e h => (by simp [DRes.mk] at h)⟩
           simp [DRes.mk] at h; rw [← h.1, ← h.2]; simp [Val.total]
         · refine ⟨fun v' m h => (by simp [DRes.mk] at h), fun v' e h => ?_⟩
           simp [DRes.mk] at h; rw [← h.1]; simp [Val.total])
      | (unfold decodeLE64
         split
         · refine ⟨fun v' m h => ?_, fun v' e h => (by simp [DRes.mk] at h)⟩
           simp [DRes.mk] at h; rw [← h.1, ← h.2]; simp [Val.total]
         · refine ⟨fun v' m h => (by simp [DRes.mk] at h), fun v' e h => ?_⟩
           simp [DRes.mk] at h; rw [← h.1]; simp [Val.total])

/-- A single value adds at most one message beyond what it reads. -/
theorem single_grows (ce cm : Nat) (zeros : TypeId → Val) (rec : TypeId → Bytes → Val → Except Fault DRes)
    (hz : ∀ t, (zeros t).total ce cm = cm) (n : Nat)
    (hrec : ∀ t b v, b.length + 1 < n →
      (∀ v' m, rec t b v = .ok (.ok v' m) → v'.total ce cm ≤ v.total ce cm + m) ∧
      (∀ v' e, rec t b v = .ok (.err v' e) → v'.total ce cm ≤ v.total ce cm + b.length)) :
    ∀ c : Codec, c.WF → c.shape.single → ∀ b v, b.length < n → b ≠ [] →
      (∀ v' m, codecDecode zeros rec c b v = .ok (.ok v' m) → v'.total ce cm + 1 ≤ v.total ce cm + m + cm) ∧
      (∀ v' e, codecDecode zeros rec c b v = .ok (.err v' e) → v'.total ce cm + 1 ≤ v.total ce cm + b.length + cm) := by
  intro c
  induction c with
  | normal s | required s =>
    intro _ _ b v _ hb
    have := List.length_pos_iff.mpr hb
    obtain ⟨h1, h2⟩ := scalar_grows ce cm s b v
    exact ⟨fun v' m h => (by have := h1 v' m h; omega), fun v' e h => (by have := h2 v' e h; omega)⟩
  | option s =>
    intro _ _ b v _ hb
    have := List.length_pos_iff.mpr hb
    cases v with
    | opt o w =>
      obtain ⟨h1, h2⟩ := scalar_grows ce cm s b w
      simp only [codecDecode, decodeOption, bind, Except.bind, pure, Except.pure]
      cases hd : decodeScalar s b w with
      | error e => exact ⟨fun v' m h => (by simp at h), fun v' m h => (by simp at h)⟩
      | ok r =>
        cases r with
        | ok w' m' =>
          have := h1 _ _ hd
          refine ⟨fun v' m h => ?_, fun v' e h => (by simp [DRes.wrap] at h)⟩
          simp [DRes.wrap] at h; rw [← h.1, ← h.2]; simp only [Val.total]; omega
        | err w' e' =>
          have := h2 _ _ hd
          refine ⟨fun v' m h => (by simp [DRes.wrap] at h), fun v' e h => ?_⟩
          simp [DRes.wrap] at h; rw [← h.1]; simp only [Val.total]; omega
    | _ => exact ⟨fun v' m h => (by simp [codecDecode, decodeOption] at h), fun v' m h => (by simp [codecDecode, decodeOption] at h)⟩
  | bytes =>
    intro _ _ b v _ hb
    have := List.length_pos_iff.mpr hb
    cases v with
    | bytes o =>
      simp only [codecDecode, decodeBytes, decodeVarlen_eq, bind, Except.bind, pure, Except.pure]
      rcases hd : decodeVarint b with ⟨l, n, e⟩
      cases e with
      | some e =>
        refine ⟨fun v' m h => (by simp [DRes.mk] at h), fun v' e h => ?_⟩
        simp [DRes.mk] at h; rw [← h.1]; simp [Val.total]; omega
      | none =>
        have hp := decodeVarint_pos hd
        simp only
        split
        · refine ⟨fun v' m h => (by simp [DRes.mk] at h), fun v' e h => ?_⟩
          simp [DRes.mk] at h; rw [← h.1]; simp [Val.total]; omega
        · refine ⟨fun v' m h => ?_, fun v' e h => (by simp [DRes.mk] at h)⟩
          simp [DRes.mk] at h; rw [← h.1, ← h.2]; simp [Val.total]; omega
    | _ =>
      simp only [codecDecode, decodeBytes, decodeVarlen_eq, bind, Except.bind, pure, Except.pure]
      exact ⟨fun v' m h => (by simp at h), fun v' m h => (by simp at h)⟩
  | ptr zero c ih =>
    intro hwf hs b v hl hb
    obtain ⟨rfl, hwf⟩ := hwf
    have hzero := total_zero ce cm c.shape
    cases v with
    | nilp =>
      obtain ⟨h1, h2⟩ := ih hwf hs b c.shape.zero hl hb
      simp only [codecDecode, bind, Except.bind, pure, Except.pure]
      cases hd : codecDecode zeros rec c b c.shape.zero with
      | error e => exact ⟨fun v' m h => (by simp at h), fun v' m h => (by simp at h)⟩
      | ok r =>
        cases r with
        | ok w' m' =>
          have := h1 _ _ hd
          refine ⟨fun v' m h => ?_, fun v' e h => (by simp [DRes.wrap] at h)⟩
          simp [DRes.wrap] at h; rw [← h.1, ← h.2]; simp only [Val.total]; omega
        | err w' e' =>
          have := h2 _ _ hd
          refine ⟨fun v' m h => (by simp [DRes.wrap] at h), fun v' e h => ?_⟩
          simp [DRes.wrap] at h; rw [← h.1]; simp only [Val.total]; omega
    | ptr w =>
      obtain ⟨h1, h2⟩ := ih hwf hs b w hl hb
      simp only [codecDecode, bind, Except.bind, pure, Except.pure]
      cases hd : codecDecode zeros rec c b w with
      | error e => exact ⟨fun v' m h => (by simp at h), fun v' m h => (by simp at h)⟩
      | ok r =>
        cases r with
        | ok w' m' =>
          have := h1 _ _ hd
          refine ⟨fun v' m h => ?_, fun v' e h => (by simp [DRes.wrap] at h)⟩
          simp [DRes.wrap] at h; rw [← h.1, ← h.2]; simp only [Val.total]; omega
        | err w' e' =>
          have := h2 _ _ hd
          refine ⟨fun v' m h => (by simp [DRes.wrap] at h), fun v' e h => ?_⟩
          simp [DRes.wrap] at h; rw [← h.1]; simp only [Val.total]; omega
    | _ => exact ⟨fun v' m h => (by simp [codecDecode] at h), fun v' m h => (by simp [codecDecode] at h)⟩
  | msg t =>
    intro _ _ b v hl hb
    have := List.length_pos_iff.mpr hb
    rw [codecDecode_msg]
    have ht : ∀ w, msgTarget (zeros t) v = .ok w → w.total ce cm ≤ v.total ce cm + cm := by
      intro w hw
      cases v <;> simp [msgTarget] at hw
      · rw [← hw, hz]; omega
      · rw [← hw]; simp only [Val.total]; omega
    cases hw : msgTarget (zeros t) v with
    | error e => exact ⟨fun v' m h => (by simp at h), fun v' m h => (by simp at h)⟩
    | ok w =>
      have ht := ht w hw
      simp only
      rcases hd : decodeVarint b with ⟨l, k, e⟩
      have hle := decodeVarint_le hd
      cases e with
      | some e =>
        refine ⟨fun v' m h => (by simp at h), fun v' e h => ?_⟩
        simp at h; rw [← h.1]; simp only [Val.total]; omega
      | none =>
        have hp := decodeVarint_pos hd
        simp only
        obtain ⟨h1, h2⟩ := hrec t (b.drop k) w (by simp; omega)
        cases hr : rec t (b.drop k) w with
        | error e => exact ⟨fun v' m h => (by simp at h), fun v' m h => (by simp at h)⟩
        | ok r =>
          cases r with
          | ok w' m' =>
            have := h1 _ _ hr
            refine ⟨fun v' m h => ?_, fun v' e h => (by simp at h)⟩
            simp at h; rw [← h.1, ← h.2]; simp only [Val.total]; omega
          | err w' e' =>
            have := h2 _ _ hr
            simp at this
            refine ⟨fun v' m h => (by simp at h), fun v' e h => ?_⟩
            simp at h; rw [← h.1]; simp only [Val.total]; omega
  | slice zero c _ => intro _ hs; exact hs.elim
  | map i kc vc kd vd _ _ _ _ => intro _ hs; exact hs.elim

theorem key_total (ce cm : Nat) {v : Val} {k : Key} (h : v.toKey? = some k) : k.held = v.total ce cm := by
  cases v <;> simp [Val.toKey?] at h <;> subst h <;> simp [Key.held, Val.total]

/-- Any field adds at most one byte beyond what it reads. -/
theorem field_grows (ce cm : Nat) (hc : ce + cm ≤ 2) (zeros : TypeId → Val) (rec : TypeId → Bytes → Val → Except Fault DRes)
    (hz : ∀ t, (zeros t).total ce cm = cm) (hbd : ∀ t, Bounded (rec t)) (n : Nat)
    (hrec : ∀ t b v, b.length + 1 < n →
      (∀ v' m, rec t b v = .ok (.ok v' m) → v'.total ce cm ≤ v.total ce cm + m) ∧
      (∀ v' e, rec t b v = .ok (.err v' e) → v'.total ce cm ≤ v.total ce cm + b.length)) :
    ∀ c : Codec, c.WF → c.shape.flat → ∀ b v, b.length < n → b ≠ [] →
      (∀ v' m, codecDecode zeros rec c b v = .ok (.ok v' m) → m ≤ b.length ∧ v'.total ce cm ≤ v.total ce cm + m + 1) ∧
      (∀ v' e, codecDecode zeros rec c b v = .ok (.err v' e) → v'.total ce cm ≤ v.total ce cm + b.length + 1) := by
  intro c hwf hs b v hl hb
  have hpos := List.length_pos_iff.mpr hb
  have hbound := bounded_codec zeros rec hbd c
  have hsingle : c.shape.single → (∀ v' m, codecDecode zeros rec c b v = .ok (.ok v' m) → m ≤ b.length ∧ v'.total ce cm ≤ v.total ce cm + m + 1) ∧
      (∀ v' e, codecDecode zeros rec c b v = .ok (.err v' e) → v'.total ce cm ≤ v.total ce cm + b.length + 1) := by
    intro hs
    obtain ⟨h1, h2⟩ := single_grows ce cm zeros rec hz n hrec c hwf hs b v hl hb
    exact ⟨fun v' m h => ⟨hbound _ _ _ _ h, (by have := h1 v' m h; omega)⟩, fun v' e h => (by have := h2 v' e h; omega)⟩
  cases c with
  | normal s => exact hsingle (by cases s <;> trivial)
  | required s => exact hsingle (by cases s <;> trivial)
  | option s => exact hsingle trivial
  | bytes => exact hsingle trivial
  | ptr z c => exact hsingle hs
  | msg t => exact hsingle trivial
  | slice zero c =>
    obtain ⟨rfl, hwf⟩ := hwf
    cases v with
    | slice isNil es spare =>
      have hg : ∃ slot sp, growIfFull c.shape.zero es spare = slot :: sp ∧
          slot.total ce cm + Val.totalL ce cm sp = Val.totalL ce cm spare := by
        rcases growIfFull_cases c.shape.zero es spare with ⟨h0, k, hk⟩ | ⟨x, xs, h1, h2⟩
        · refine ⟨_, _, hk, ?_⟩
          rw [h0, total_zero, totalL_replicate]; rfl
        · exact ⟨x, xs, h2, by rw [h1]; rfl⟩
      obtain ⟨slot, sp, hg, htot⟩ := hg
      obtain ⟨h1, h2⟩ := single_grows ce cm zeros rec hz n hrec c hwf hs b slot hl hb
      refine ⟨fun v' m h => ⟨hbound _ _ _ _ h, ?_⟩, fun v' e h => ?_⟩
      · simp only [codecDecode, hg, bind, Except.bind, pure, Except.pure] at h
        cases hd : codecDecode zeros rec c b slot with
        | error e => simp [hd] at h
        | ok r =>
          cases r with
          | ok w' m' =>
            have := h1 _ _ hd
            simp [hd] at h; rw [← h.1, ← h.2]
            simp only [Val.total, totalL_append, List.length_append, List.length_singleton, Nat.mul_add, Val.totalL]; omega
          | err w' e' => simp [hd] at h
      · simp only [codecDecode, hg, bind, Except.bind, pure, Except.pure] at h
        cases hd : codecDecode zeros rec c b slot with
        | error e => simp [hd] at h
        | ok r =>
          cases r with
          | ok w' m' => simp [hd] at h
          | err w' e' =>
            have := h2 _ _ hd
            simp [hd] at h; rw [← h.1]
            simp only [Val.total, Val.totalL]; omega
    | _ => exact ⟨fun v' m h => (by simp [codecDecode] at h), fun v' m h => (by simp [codecDecode] at h)⟩
  | map i kc vc kd vd =>
    obtain ⟨hkey, hkd, hvd, hkz, hvz, _, _, hkw, hvw⟩ := hwf
    obtain ⟨hks, hvs⟩ := hs
    cases v with
    | map isNil m =>
      rw [codecDecode_map _ _ _ _ _ _ _ (bounded_codec _ _ hbd _) (bounded_codec _ _ hbd _), if_neg hb]
      rcases hd : decodeVarint b with ⟨l, k, e⟩
      have hle := decodeVarint_le hd
      cases e with
      | some e =>
        refine ⟨fun v' m h => (by simp at h), fun v' e h => ?_⟩
        simp at h; rw [← h.1]; simp only [Val.total]; omega
      | none =>
        have hp := decodeVarint_pos hd
        simp only
        have hgr := run_grows ce cm (idx := entryIdx zeros rec i kd vd) n (by
          intro j f hf b v hl hb
          unfold entryIdx at hf
          split at hf
          · simp at hf; subst hf
            obtain ⟨h1, h2⟩ := single_grows ce cm zeros rec hz n hrec vd hvw (hvd ▸ hvs) b v hl hb
            exact ⟨fun v' m h => ⟨bounded_codec zeros rec hbd vd _ _ _ _ h, (by have := h1 v' m h; omega)⟩,
              fun v' e h => (by have := h2 v' e h; omega)⟩
          · split at hf
            · simp at hf; subst hf
              obtain ⟨h1, h2⟩ := single_grows ce cm zeros rec hz n hrec kd hkw (hkd ▸ hks) b v hl hb
              exact ⟨fun v' m h => ⟨bounded_codec zeros rec hbd kd _ _ _ _ h, (by have := h1 v' m h; omega)⟩,
                fun v' e h => (by have := h2 v' e h; omega)⟩
            · simp at hf) (b.drop k) [i.kzero, i.vzero]
        rcases hr : run (entryIdx zeros rec i kd vd) (b.drop k) [i.kzero, i.vzero] with e | ⟨vs', _ | e⟩
        · exact ⟨fun v' m h => (by simp at h), fun v' m h => (by simp at h)⟩
        · have := hgr vs' none (by simp; omega) hr
          simp only [Val.totalL, hkz, hvz, total_zero, List.length_drop] at this
          match vs' with
          | [a, b'] =>
            simp only
            cases hk : a.toKey? with
            | none => exact ⟨fun v' m h => (by simp at h), fun v' m h => (by simp at h)⟩
            | some key =>
              have hkv := key_total ce cm hk
              simp only [Val.totalL] at this
              have hta := totalM_assign ce cm m key b'
              rw [hkv] at hta
              refine ⟨fun v' m' h => ?_, fun v' e h => (by simp at h)⟩
              simp at h; rw [← h.1, ← h.2]; simp only [Val.total]; omega
          | [] => exact ⟨fun v' m h => (by simp at h), fun v' m h => (by simp at h)⟩
          | [_] => exact ⟨fun v' m h => (by simp at h), fun v' m h => (by simp at h)⟩
          | _ :: _ :: _ :: _ => exact ⟨fun v' m h => (by simp at h), fun v' m h => (by simp at h)⟩
        · refine ⟨fun v' m h => (by simp at h), fun v' e h => ?_⟩
          simp at h; rw [← h.1]; simp only [Val.total]; omega
    | _ => exact ⟨fun v' m h => (by simp [codecDecode] at h), fun v' m h => (by simp [codecDecode] at h)⟩

theorem zeros_total {L : Layout} {env : Env} (hwf : WFEnv L env) (ce cm : Nat) (t : TypeId) : (zerosOf env t).total ce cm = cm := by
  unfold zerosOf
  rw [hwf.zero]
  simp [Val.total, totalL_zeros]

theorem idxM_grows {L : Layout} {env : Env} (hwf : WFEnv L env) (hf : FlatEnv env) (ce cm : Nat) (hc : ce + cm ≤ 2) (t : TypeId) (n : Nat)
    (hrec : ∀ t b v, b.length + 1 < n →
      (∀ v' m, decM env t b v = .ok (.ok v' m) → v'.total ce cm ≤ v.total ce cm + m) ∧
      (∀ v' e, decM env t b v = .ok (.err v' e) → v'.total ce cm ≤ v.total ce cm + b.length)) :
    ∀ k f, idxM env t k = some f → ∀ b v, b.length < n → b ≠ [] →
      (∀ v' m, f.dec b v = .ok (.ok v' m) → m ≤ b.length ∧ v'.total ce cm ≤ v.total ce cm + m + 1) ∧
      (∀ v' e, f.dec b v = .ok (.err v' e) → v'.total ce cm ≤ v.total ce cm + b.length + 1) := by
  intro k f hk
  unfold idxM at hk
  simp at hk
  obtain ⟨g, hg, rfl⟩ := hk
  have hm := (lookup_mem hg).1
  exact field_grows ce cm hc _ _ (zeros_total hwf ce cm) (bounded_decM env) n hrec _ (hwf.codec t g hm) (hf t g hm)

theorem decM_grows {L : Layout} {env : Env} (hwf : WFEnv L env) (hf : FlatEnv env) (ce cm : Nat) (hc : ce + cm ≤ 2) :
    ∀ b t v, (∀ v' m, decM env t b v = .ok (.ok v' m) → v'.total ce cm ≤ v.total ce cm + m) ∧
      (∀ v' e, decM env t b v = .ok (.err v' e) → v'.total ce cm ≤ v.total ce cm + b.length) := by
  intro b
  induction hb : b.length using Nat.strongRecOn generalizing b with
  | ind k ih =>
    intro t v
    cases v with
    | struct vs =>
      rw [decM_eq]
      have := run_grows ce cm k (idxM_grows hwf hf ce cm hc t k fun t b v hlt => ih b.length (by omega) b rfl t v) b vs
      rcases hr : run (idxM env t) b vs with e | ⟨vs', _ | e⟩
      · exact ⟨fun v' m h => (by simp [toDRes] at h), fun v' m h => (by simp [toDRes] at h)⟩
      · have := this vs' none (by omega) hr
        refine ⟨fun v' m h => ?_, fun v' m h => (by simp [toDRes] at h)⟩
        simp [toDRes] at h; rw [← h.1, ← h.2]; simp only [Val.total]; omega
      · have := this vs' (some e) (by omega) hr
        refine ⟨fun v' m h => (by simp [toDRes] at h), fun v' m h => ?_⟩
        simp [toDRes] at h; rw [← h.1]; simp only [Val.total]; omega
    | _ => exact ⟨fun v' m h => (nomatch h), fun v' m h => (nomatch h)⟩

/-- Decoding adds no more than the length of the input, whether it succeeds or fails. -/
theorem runM_grows {L : Layout} {env : Env} (hwf : WFEnv L env) (hf : FlatEnv env) (ce cm : Nat) (hc : ce + cm ≤ 2) (t : TypeId)
    (b : Bytes) (vs vs' : List Val) (e : Option Err) (h : run (idxM env t) b vs = .ok (vs', e)) :
    Val.totalL ce cm vs' ≤ Val.totalL ce cm vs + b.length :=
  run_grows ce cm b.length (idxM_grows hwf hf ce cm hc t b.length fun t b v _ => decM_grows hwf hf ce cm hc b t v) b vs vs' e
    (Nat.le_refl _) h

theorem totalL_mem {ce cm : Nat} {v : Val} : ∀ {vs : List Val}, v ∈ vs → v.total ce cm ≤ Val.totalL ce cm vs
  | x :: vs, h => by
    rcases List.mem_cons.mp h with rfl | h
    · simp only [Val.totalL]; omega
    · have := totalL_mem (ce := ce) (cm := cm) h; simp only [Val.totalL]; omega

theorem totalM_mem {ce cm : Nat} {k : Key} {v : Val} : ∀ {m : List (Key × Val)}, (k, v) ∈ m →
    k.held + v.total ce cm ≤ Val.totalM ce cm m
  | (k0, v0) :: m, h => by
    rcases List.mem_cons.mp h with h | h
    · cases h; simp only [Val.totalM]; omega
    · have := totalM_mem (ce := ce) (cm := cm) h; simp only [Val.totalM]; omega

theorem holds_total (ce cm : Nat) {v : Val} {s : Bytes} (h : HoldsText v s) : s.length ≤ v.total ce cm := by
  induction h with
  | str s => simp [Val.total]
  | bytes s => simp [Val.total]
  | opt b v s _ ih => simpa only [Val.total] using ih
  | ptr v s _ ih => simpa only [Val.total] using ih
  | field vs v s hm _ ih => have := totalL_mem (ce := ce) (cm := cm) hm; simp only [Val.total]; omega
  | elem n es sp v s hm _ ih => have := totalL_mem (ce := ce) (cm := cm) hm; simp only [Val.total]; omega
  | key n m k v s hm h ih =>
    have := totalM_mem (ce := ce) (cm := cm) hm
    have hk : k.held = k.toVal.total ce cm := by cases k <;> simp [Key.held, Key.toVal, Val.total]
    simp only [Val.total]; omega
  | val n m k v s hm _ ih => have := totalM_mem (ce := ce) (cm := cm) hm; simp only [Val.total]; omega

/-! ### capacity -/

theorem capOK_zero (s : Shape) : (Shape.zero s).capOK := by
  induction s with
  | opt s ih => simpa [Shape.zero, Val.capOK] using ih
  | _ => simp [Shape.zero, Val.capOK, Val.capOKL, Val.capOKM]

theorem capOKL_iff (vs : List Val) : Val.capOKL vs ↔ ∀ v ∈ vs, v.capOK := by
  induction vs with
  | nil => simp [Val.capOKL]
  | cons v vs ih => simp [Val.capOKL, ih]

theorem capOKM_iff (m : List (Key × Val)) : Val.capOKM m ↔ ∀ e ∈ m, e.2.capOK := by
  induction m with
  | nil => simp [Val.capOKM]
  | cons e m ih => obtain ⟨k, v⟩ := e; simp [Val.capOKM, ih]

/-- The decode function keeps the bound on capacities. -/
def KeepsCap (n : Nat) (dec : Bytes → Val → Except Fault DRes) : Prop :=
  ∀ b v, b.length < n → v.capOK → (∀ v' m, dec b v = .ok (.ok v' m) → v'.capOK) ∧ (∀ v' e, dec b v = .ok (.err v' e) → v'.capOK)

theorem run_cap {idx : Nat → Option DField} (n : Nat) (hi : ∀ k f, idx k = some f → KeepsCap n f.dec) :
    ∀ b vs vs' e, b.length ≤ n → (∀ v ∈ vs, v.capOK) → run idx b vs = .ok (vs', e) → ∀ v ∈ vs', v.capOK := by
  intro b
  induction hb : b.length using Nat.strongRecOn generalizing b with
  | ind k ih =>
    intro vs vs' e hn hv hr
    by_cases h0 : b = []
    · subst h0; rw [run_nil] at hr; cases hr; exact hv
    · rw [run_cons _ _ _ h0] at hr
      cases hst : stepS idx b vs with
      | error e => rw [hst] at hr; cases hr
      | ok st =>
        rw [hst] at hr
        have hset : ∀ o w, w.capOK → ∀ v ∈ vs.set o w, v.capOK := by
          intro o w hw v hm
          rcases List.mem_or_eq_of_mem_set hm with h | h
          · exact hv v h
          · rw [h]; exact hw
        have hkey : (∀ vs' e', st = .fail vs' e' → ∀ v ∈ vs', v.capOK) ∧
            (∀ rest vs', st = .next rest vs' → ∀ v ∈ vs', v.capOK) := by
          unfold stepS at hst
          rcases hd : decodeTag b with ⟨num, wt, m, e'⟩
          have hp := decodeTag_le hd
          cases e' with
          | some e' =>
            simp [hd] at hst
            subst hst
            simp; exact hv
          | none =>
            have hpos := decodeTag_pos hd
            simp only [hd] at hst
            cases hidx : idx num with
            | none =>
              simp only [hidx] at hst
              split at hst
              · simp at hst; subst hst; simp; exact hv
              · simp at hst; subst hst; simp; exact hv
            | some f =>
              simp only [hidx] at hst
              split at hst
              · simp at hst; subst hst; simp; exact hv
              · split at hst
                · simp at hst; subst hst; simp; exact hv
                · rename_i d r ht
                  have hdl := congrArg List.length (takePayload_append ht)
                  simp at hdl
                  cases hsl : slotOf (.struct vs) f.offset with
                  | error e => simp [hsl] at hst
                  | ok v =>
                    rw [hsl] at hst
                    simp only at hst
                    obtain ⟨hok, herr⟩ := hi _ _ hidx d v (by omega) (hv v (List.mem_of_getElem? (slotOf_inv hsl)))
                    split at hst
                    · cases hst
                    · rename_i v' m' hdec
                      have := hset f.offset v' (hok _ _ hdec)
                      simp at hst; subst hst; simp
                      exact this
                    · rename_i v' e' hdec
                      have := hset f.offset v' (herr _ _ hdec)
                      simp at hst; subst hst; simp
                      exact this
        cases st with
        | fail vs'' e =>
          simp only [Except.ok.injEq, Prod.mk.injEq] at hr
          rw [← hr.1]; exact hkey.1 _ _ rfl
        | next rest vs'' =>
          have := stepS_lt hst
          exact ih rest.length (by omega) rest rfl vs'' vs' e (by omega) (hkey.2 _ _ rfl) hr

theorem scalar_cap (s : Scalar) (b : Bytes) (v : Val) (hv : v.capOK) :
    (∀ v' m, decodeScalar s b v = .ok (.ok v' m) → v'.capOK) ∧ (∀ v' e, decodeScalar s b v = .ok (.err v' e) → v'.capOK) := by
  have key : ∀ r, decodeScalar s b v = .ok r → ∃ w, w.capOK ∧ ((∃ m, r = .ok w m) ∨ (∃ e, r = .err w e)) := by
    have mk : ∀ (w : Val) n (e : Option Err), w.capOK → ∃ w', w'.capOK ∧ ((∃ m, DRes.mk w n e = .ok w' m) ∨ (∃ e', DRes.mk w n e = .err w' e')) := by
      intro w n e hw
      cases e with
      | none => exact ⟨w, hw, .inl ⟨n, rfl⟩⟩
      | some e => exact ⟨w, hw, .inr ⟨e, rfl⟩⟩
    intro r h
    cases s <;> simp only [decodeScalar, bind, Except.bind, pure, Except.pure] at h
    case bool =>
      cases b with
      | nil => cases h; exact ⟨v, hv, .inr ⟨_, rfl⟩⟩
      | cons c cs =>
        cases v <;> simp [writeB8] at h
        subst h; exact ⟨_, (by simp [Val.capOK]), .inl ⟨_, rfl⟩⟩
    case string =>
      rcases hdv : decodeVarlen b with e | ⟨d, n, e⟩ <;> rw [hdv] at h
      · cases h
      · simp only at h
        cases v with
        | str x =>
          simp only [writeStr] at h
          split at h
          · cases h; exact mk _ _ _ (by simp [Val.capOK])
          · cases h; exact mk _ _ _ (by simp [Val.capOK])
        | _ => simp only [writeStr] at h; split at h <;> cases h
    all_goals
      cases v <;> simp only [write32, write64] at h <;> cases h
      exact mk _ _ _ (by simp [Val.capOK])
  refine ⟨fun v' m h => ?_, fun v' e h => ?_⟩
  · obtain ⟨w, hw, ⟨m', h'⟩ | ⟨e', h'⟩⟩ := key _ h
    · cases h'; exact hw
    · cases h'
  · obtain ⟨w, hw, ⟨m', h'⟩ | ⟨e', h'⟩⟩ := key _ h
    · cases h'
    · cases h'; exact hw

theorem growIfFull_len (zero : Val) (es spare : List Val) (h : es.length + spare.length ≤ max 10 (2 * es.length)) :
    es.length + (growIfFull zero es spare).length ≤ max 10 (2 * es.length) := by
  unfold growIfFull
  split
  · rename_i h0; subst h0
    simp only [List.length_nil, Nat.add_zero, List.length_replicate]
    split <;> omega
  · exact h

theorem codec_cap (zeros : TypeId → Val) (rec : TypeId → Bytes → Val → Except Fault DRes) (hz : ∀ t, (zeros t).capOK)
    (hbd : ∀ t, Bounded (rec t)) (n : Nat) (hrec : ∀ t b v, b.length + 1 < n → v.capOK →
      (∀ v' m, rec t b v = .ok (.ok v' m) → v'.capOK) ∧ (∀ v' e, rec t b v = .ok (.err v' e) → v'.capOK)) :
    ∀ c : Codec, c.WF → KeepsCap n (codecDecode zeros rec c) := by
  intro c
  induction c with
  | normal s | required s => intro _ b v _ hv; exact scalar_cap s b v hv
  | option s =>
    intro _ b v _ hv
    cases v with
    | opt o w =>
      obtain ⟨h1, h2⟩ := scalar_cap s b w hv
      simp only [codecDecode, decodeOption, bind, Except.bind, pure, Except.pure]
      cases hd : decodeScalar s b w with
      | error e => exact ⟨fun v' m h => (by simp at h), fun v' m h => (by simp at h)⟩
      | ok r =>
        cases r with
        | ok w' m' =>
          refine ⟨fun v' m h => ?_, fun v' e h => (by simp [DRes.wrap] at h)⟩
          have := h1 _ _ hd
          simp [DRes.wrap] at h; rw [← h.1]; exact this
        | err w' e' =>
          refine ⟨fun v' m h => (by simp [DRes.wrap] at h), fun v' e h => ?_⟩
          have := h2 _ _ hd
          simp [DRes.wrap] at h; rw [← h.1]; exact this
    | _ => exact ⟨fun v' m h => (by simp [codecDecode, decodeOption] at h), fun v' m h => (by simp [codecDecode, decodeOption] at h)⟩
  | bytes =>
    intro _ b v _ hv
    simp only [codecDecode, decodeBytes, decodeVarlen_eq, bind, Except.bind, pure, Except.pure]
    cases v with
    | bytes o =>
      simp only
      split <;> (try split) <;> refine ⟨fun v' m h => ?_, fun v' m h => ?_⟩ <;> simp [DRes.mk] at h <;> rw [← h.1] <;> trivial
    | _ => exact ⟨fun v' m h => (by simp at h), fun v' m h => (by simp at h)⟩
  | ptr zero c ih =>
    intro hwf b v hl hv
    obtain ⟨rfl, hwf⟩ := hwf
    have key : ∀ w : Val, w.capOK → (∀ v' m, (codecDecode zeros rec c b w).map (DRes.wrap Val.ptr) = .ok (.ok v' m) → v'.capOK) ∧
        (∀ v' e, (codecDecode zeros rec c b w).map (DRes.wrap Val.ptr) = .ok (.err v' e) → v'.capOK) := by
      intro w hw
      obtain ⟨h1, h2⟩ := ih hwf b w hl hw
      cases hd : codecDecode zeros rec c b w with
      | error e => exact ⟨fun v' m h => (by simp [Except.map] at h), fun v' m h => (by simp [Except.map] at h)⟩
      | ok r =>
        cases r with
        | ok w' m' =>
          refine ⟨fun v' m h => ?_, fun v' e h => (by simp [DRes.wrap, Except.map] at h)⟩
          have := h1 _ _ hd
          simp [DRes.wrap, Except.map] at h; rw [← h.1]; exact this
        | err w' e' =>
          refine ⟨fun v' m h => (by simp [DRes.wrap, Except.map] at h), fun v' e h => ?_⟩
          have := h2 _ _ hd
          simp [DRes.wrap, Except.map] at h; rw [← h.1]; exact this
    cases v with
    | nilp =>
      have := key _ (capOK_zero c.shape)
      simp only [codecDecode, bind, Except.bind, pure, Except.pure]
      cases hd : codecDecode zeros rec c b c.shape.zero <;> simpa only [hd, Except.map] using this
    | ptr w =>
      have := key w hv
      simp only [codecDecode, bind, Except.bind, pure, Except.pure]
      cases hd : codecDecode zeros rec c b w <;> simpa only [hd, Except.map] using this
    | _ => exact ⟨fun v' m h => (by simp [codecDecode] at h), fun v' m h => (by simp [codecDecode] at h)⟩
  | msg t =>
    intro _ b v hl hv
    rw [codecDecode_msg]
    have ht : ∀ w, msgTarget (zeros t) v = .ok w → w.capOK := by
      intro w hw
      cases v <;> simp [msgTarget] at hw
      · rw [← hw]; exact hz t
      · rw [← hw]; exact hv
    cases hw : msgTarget (zeros t) v with
    | error e => exact ⟨fun v' m h => (by simp at h), fun v' m h => (by simp at h)⟩
    | ok w =>
      have ht := ht w hw
      simp only
      rcases hd : decodeVarint b with ⟨l, k, e⟩
      have hle := decodeVarint_le hd
      cases e with
      | some e =>
        refine ⟨fun v' m h => (by simp at h), fun v' e h => ?_⟩
        simp at h; rw [← h.1]; exact ht
      | none =>
        have hp := decodeVarint_pos hd
        simp only
        obtain ⟨h1, h2⟩ := hrec t (b.drop k) w (by simp; omega) ht
        cases hr : rec t (b.drop k) w with
        | error e => exact ⟨fun v' m h => (by simp at h), fun v' m h => (by simp at h)⟩
        | ok r =>
          cases r with
          | ok w' m' =>
            refine ⟨fun v' m h => ?_, fun v' e h => (by simp at h)⟩
            have := h1 _ _ hr
            simp at h; rw [← h.1]; exact this
          | err w' e' =>
            refine ⟨fun v' m h => (by simp at h), fun v' e h => ?_⟩
            have := h2 _ _ hr
            simp at h; rw [← h.1]; exact this
  | slice zero c ih =>
    intro hwf b v hl hv
    obtain ⟨rfl, hwf⟩ := hwf
    cases v with
    | slice isNil es spare =>
      obtain ⟨hlen, hes, hsp⟩ := hv
      have hgl := growIfFull_len c.shape.zero es spare hlen
      have hg : ∃ slot sp, growIfFull c.shape.zero es spare = slot :: sp ∧ slot.capOK ∧ ∀ v ∈ sp, v.capOK := by
        rcases growIfFull_cases c.shape.zero es spare with ⟨h0, k, hk⟩ | ⟨x, xs, h1, h2⟩
        · refine ⟨_, _, hk, capOK_zero _, fun v hv => ?_⟩
          rw [(List.mem_replicate.mp hv).2]; exact capOK_zero _
        · rw [h1, capOKL_iff] at hsp
          exact ⟨x, xs, h2, hsp x (by simp), fun v hv => hsp v (by simp [hv])⟩
      obtain ⟨slot, sp, hg, hs1, hs2⟩ := hg
      rw [hg, List.length_cons] at hgl
      rw [capOKL_iff] at hes
      obtain ⟨h1, h2⟩ := ih hwf b slot hl hs1
      refine ⟨fun v' m h => ?_, fun v' e h => ?_⟩
      · simp only [codecDecode, hg, bind, Except.bind, pure, Except.pure] at h
        cases hd : codecDecode zeros rec c b slot with
        | error e => simp [hd] at h
        | ok r =>
          cases r with
          | ok w' m' =>
            have := h1 _ _ hd
            simp [hd] at h; rw [← h.1]
            refine ⟨by simp; omega, (capOKL_iff _).mpr fun v hv => ?_, (capOKL_iff _).mpr hs2⟩
            rcases List.mem_append.mp hv with hv | hv
            · exact hes v hv
            · simp at hv; rw [hv]; exact this
          | err w' e' => simp [hd] at h
      · simp only [codecDecode, hg, bind, Except.bind, pure, Except.pure] at h
        cases hd : codecDecode zeros rec c b slot with
        | error e => simp [hd] at h
        | ok r =>
          cases r with
          | ok w' m' => simp [hd] at h
          | err w' e' =>
            have := h2 _ _ hd
            simp [hd] at h; rw [← h.1]
            exact ⟨by simp only [List.length_cons]; omega, (capOKL_iff _).mpr hes, (capOKL_iff _).mpr (by
              intro v hv
              rcases List.mem_cons.mp hv with hv | hv
              · rw [hv]; exact this
              · exact hs2 v hv)⟩
    | _ => exact ⟨fun v' m h => (by simp [codecDecode] at h), fun v' m h => (by simp [codecDecode] at h)⟩
  | map i kc vc kd vd _ _ ihk ihv =>
    intro hwf b v hl hv
    obtain ⟨hkey, hkd, hvd, hkz, hvz, _, _, hkw, hvw⟩ := hwf
    cases v with
    | map isNil m =>
      have hm : (Val.map false m).capOK := hv
      rw [codecDecode_map _ _ _ _ _ _ _ (bounded_codec _ _ hbd _) (bounded_codec _ _ hbd _)]
      split
      · refine ⟨fun v' m h => ?_, fun v' e h => (by simp at h)⟩
        simp at h; rw [← h.1]; exact hm
      rcases hd : decodeVarint b with ⟨l, k, e⟩
      have hle := decodeVarint_le hd
      cases e with
      | some e =>
        refine ⟨fun v' m h => (by simp at h), fun v' e h => ?_⟩
        simp at h; rw [← h.1]; exact hm
      | none =>
        have hp := decodeVarint_pos hd
        simp only
        have hgr := run_cap (idx := entryIdx zeros rec i kd vd) n (by
          intro j f hf
          unfold entryIdx at hf
          split at hf
          · simp at hf; subst hf; exact ihv hvw
          · split at hf
            · simp at hf; subst hf; exact ihk hkw
            · simp at hf) (b.drop k) [i.kzero, i.vzero]
        rcases hr : run (entryIdx zeros rec i kd vd) (b.drop k) [i.kzero, i.vzero] with e | ⟨vs', _ | e⟩
        · exact ⟨fun v' m h => (by simp at h), fun v' m h => (by simp at h)⟩
        · have := hgr vs' none (by simp; omega) (by
            intro v hv
            simp at hv
            rcases hv with rfl | rfl
            · rw [hkz]; exact capOK_zero _
            · rw [hvz]; exact capOK_zero _) hr
          match vs' with
          | [a, b'] =>
            simp only
            cases hk : a.toKey? with
            | none => exact ⟨fun v' m h => (by simp at h), fun v' m h => (by simp at h)⟩
            | some key =>
              refine ⟨fun v' m' h => ?_, fun v' e h => (by simp at h)⟩
              simp at h; rw [← h.1]
              refine (capOKM_iff _).mpr fun e he => ?_
              rcases mapAssign_mem he with he | he
              · exact (capOKM_iff _).mp hv e he
              · rw [he]; exact this b' (by simp)
          | [] => exact ⟨fun v' m h => (by simp at h), fun v' m h => (by simp at h)⟩
          | [_] => exact ⟨fun v' m h => (by simp at h), fun v' m h => (by simp at h)⟩
          | _ :: _ :: _ :: _ => exact ⟨fun v' m h => (by simp at h), fun v' m h => (by simp at h)⟩
        · refine ⟨fun v' m h => (by simp at h), fun v' e h => ?_⟩
          simp at h; rw [← h.1]; exact hm
    | _ => exact ⟨fun v' m h => (by simp [codecDecode] at h), fun v' m h => (by simp [codecDecode] at h)⟩

theorem zeros_cap {L : Layout} {env : Env} (hwf : WFEnv L env) (t : TypeId) : (zerosOf env t).capOK := by
  unfold zerosOf
  rw [hwf.zero]
  refine (capOKL_iff _).mpr fun v hv => ?_
  obtain ⟨s, _, rfl⟩ := List.mem_map.mp hv
  exact capOK_zero s

theorem idxM_cap {L : Layout} {env : Env} (hwf : WFEnv L env) (t : TypeId) (n : Nat)
    (hrec : ∀ t b v, b.length + 1 < n → v.capOK →
      (∀ v' m, decM env t b v = .ok (.ok v' m) → v'.capOK) ∧ (∀ v' e, decM env t b v = .ok (.err v' e) → v'.capOK)) :
    ∀ k f, idxM env t k = some f → KeepsCap n f.dec := by
  intro k f hk
  unfold idxM at hk
  simp at hk
  obtain ⟨g, hg, rfl⟩ := hk
  have hm := (lookup_mem hg).1
  exact codec_cap _ _ (zeros_cap hwf) (bounded_decM env) n hrec _ (hwf.codec t g hm)

theorem decM_cap {L : Layout} {env : Env} (hwf : WFEnv L env) : ∀ b t v, v.capOK →
    (∀ v' m, decM env t b v = .ok (.ok v' m) → v'.capOK) ∧ (∀ v' e, decM env t b v = .ok (.err v' e) → v'.capOK) := by
  intro b
  induction hb : b.length using Nat.strongRecOn generalizing b with
  | ind k ih =>
    intro t v hv
    cases v with
    | struct vs =>
      rw [decM_eq]
      have := run_cap k (idxM_cap hwf t k fun t b v hlt hv => ih b.length (by omega) b rfl t v hv) b vs
      rcases hr : run (idxM env t) b vs with e | ⟨vs', _ | e⟩
      · exact ⟨fun v' m h => (by simp [toDRes] at h), fun v' m h => (by simp [toDRes] at h)⟩
      · have := this vs' none (by omega) ((capOKL_iff _).mp hv) hr
        refine ⟨fun v' m h => ?_, fun v' m h => (by simp [toDRes] at h)⟩
        simp [toDRes] at h; rw [← h.1]; exact (capOKL_iff _).mpr this
      · have := this vs' (some e) (by omega) ((capOKL_iff _).mp hv) hr
        refine ⟨fun v' m h => (by simp [toDRes] at h), fun v' m h => ?_⟩
        simp [toDRes] at h; rw [← h.1]; exact (capOKL_iff _).mpr this
    | _ => exact ⟨fun v' m h => (nomatch h), fun v' m h => (nomatch h)⟩

theorem runM_cap {L : Layout} {env : Env} (hwf : WFEnv L env) (t : TypeId) (b : Bytes) (vs vs' : List Val) (e : Option Err)
    (hv : Val.capOKL vs) (h : run (idxM env t) b vs = .ok (vs', e)) : Val.capOKL vs' :=
  (capOKL_iff _).mpr (run_cap b.length (idxM_cap hwf t b.length fun t b v _ hv => decM_cap hwf b t v hv) b vs vs' e
    (Nat.le_refl _) ((capOKL_iff _).mp hv) h)

/-! ### counting -/

mutual
theorem total_eq (ce cm : Nat) : ∀ v : Val, v.total ce cm = v.chars + ce * v.elements + cm * v.messages
  | .str s => by simp [Val.total, Val.chars, Val.elements, Val.messages]
  | .bytes (some s) => by simp [Val.total, Val.chars, Val.elements, Val.messages]
  | .bytes none => by simp [Val.total, Val.chars, Val.elements, Val.messages]
  | .opt _ v => by simpa only [Val.total, Val.chars, Val.elements, Val.messages] using total_eq ce cm v
  | .ptr v => by simpa only [Val.total, Val.chars, Val.elements, Val.messages] using total_eq ce cm v
  | .struct fs => by
    have := total_eqL ce cm fs
    simp only [Val.total, Val.chars, Val.elements, Val.messages, Nat.mul_add]; omega
  | .slice _ es sp => by
    have := total_eqL ce cm es
    have := total_eqL ce cm sp
    simp only [Val.total, Val.chars, Val.elements, Val.messages, Nat.mul_add]; omega
  | .map _ m => by
    have := total_eqM ce cm m
    simp only [Val.total, Val.chars, Val.elements, Val.messages, Nat.mul_add]; omega
  | .b8 _ | .w32 _ | .w64 _ | .nilp | .opaque _ => by simp [Val.total, Val.chars, Val.elements, Val.messages]
theorem total_eqL (ce cm : Nat) : ∀ vs : List Val, Val.totalL ce cm vs = Val.charsL vs + ce * Val.elementsL vs + cm * Val.messagesL vs
  | [] => by simp [Val.totalL, Val.charsL, Val.elementsL, Val.messagesL]
  | v :: vs => by
    have := total_eq ce cm v
    have := total_eqL ce cm vs
    simp only [Val.totalL, Val.charsL, Val.elementsL, Val.messagesL, Nat.mul_add]; omega
theorem total_eqM (ce cm : Nat) : ∀ m : List (Key × Val), Val.totalM ce cm m = Val.charsM m + ce * Val.elementsM m + cm * Val.messagesM m
  | [] => by simp [Val.totalM, Val.charsM, Val.elementsM, Val.messagesM]
  | (k, v) :: m => by
    have := total_eq ce cm v
    have := total_eqM ce cm m
    simp only [Val.totalM, Val.charsM, Val.elementsM, Val.messagesM, Nat.mul_add]; omega
end

/-! ### accepted programs have flat fields -/

theorem single_shape {T : GoType} (h : Single T) : T.shape.single := by
  induction h with
  | scalar T h => cases h <;> trivial
  | bytes => trivial
  | msg t => trivial
  | ptr T hT ih => rw [shape_ptr T (single_not_named hT)]; exact ih

theorem accepted_flat {e : Nat} {T : FieldType} (h : Spec.Accepted e T) : T.shape.flat := by
  cases h with
  | option b _ _ _ => trivial
  | single T h =>
    have := single_shape h
    show T.shape.flat
    generalize T.shape = s at *
    cases s <;> first | trivial | exact this | exact this.elim
  | repeated T h =>
    by_cases hu : T = .uint8
    · subst hu; trivial
    · have : (GoType.slice T).shape = .slice T.shape := by cases T <;> first | rfl | exact absurd rfl hu
      show (GoType.slice T).shape.flat
      rw [this]; exact single_shape h
  | map K V hk hv => exact ⟨single_shape hk, single_shape hv⟩

theorem flat_of_sane {D : Decls} (h : ProgramSane D) : FlatEnv (envOf D) := by
  intro t g hg
  obtain ⟨key, hwf, _⟩ := wf_of_sane h
  have hslot := hwf.slot t g hg
  obtain ⟨i, hi⟩ := key t
  have he : envOf D t = i := by simp only [envOf, hi]
  rw [he] at hg
  obtain ⟨j, f, hj, hE⟩ := (walkFields_spec _ _ _ (walkStruct_fields hi).1).1 g hg
  rw [Nat.zero_add] at hE
  obtain ⟨h1, h2, s, tag, h3, _⟩ := hE
  obtain ⟨_, e, _, _, _, _, _, hacc⟩ := h.accepted t f (List.mem_of_getElem? hj) ⟨h2, by rw [h3]; simp⟩
  rw [h1] at hslot
  simp [layoutOf, hj] at hslot
  rw [← hslot]
  exact accepted_flat hacc

end Pb
