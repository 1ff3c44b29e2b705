import Verif.Proofs.OrderBytes
/-
The records for two orders of the map entries.
-/
namespace Pb
open Spec

theorem shuffle_append_right {a a' : List (Nat × Nat × Bytes)} (h : Shuffle a a') (c : List (Nat × Nat × Bytes)) :
    Shuffle (a ++ c) (a' ++ c) := by
  induction h with
  | refl rs => exact .refl _
  | keep r _ ih => exact .keep r ih
  | body n hp hl hd hd' hs _ _ ih => exact .body n hp hl hd hd' hs ih
  | swap n wt d wt' d' rs => exact .swap n wt d wt' d' _
  | trans _ _ h1 h2 => exact .trans h1 h2

theorem shuffle_append_left {b b' : List (Nat × Nat × Bytes)} (h : Shuffle b b') (c : List (Nat × Nat × Bytes)) :
    Shuffle (c ++ b) (c ++ b') := by
  induction c with
  | nil => exact h
  | cons r c ih => exact .keep r ih

theorem shuffle_append {a a' b b' : List (Nat × Nat × Bytes)} (h : Shuffle a a') (h' : Shuffle b b') :
    Shuffle (a ++ b) (a' ++ b') := .trans (shuffle_append_right h b) (shuffle_append_left h' a')

theorem shuffle_perm (num wt : Nat) {ds ds' : List Bytes} (h : ds.Perm ds') :
    Shuffle (ds.map fun d => (num, wt, d)) (ds'.map fun d => (num, wt, d)) := by
  induction h with
  | nil => exact .refl _
  | cons x _ ih => exact .keep _ ih
  | swap x y l => exact .swap _ _ _ _ _ _
  | trans _ _ h1 h2 => exact .trans h1 h2

/-- Payloads of one field, shuffled. -/
def ShufP (wt : Nat) (ds ds' : List Bytes) : Prop :=
  (∀ num, Shuffle (ds.map fun d => (num, wt, d)) (ds'.map fun d => (num, wt, d))) ∧
    (ds.map List.length).Perm (ds'.map List.length)

theorem shufP_refl (wt : Nat) (ds : List Bytes) : ShufP wt ds ds := ⟨fun _ => .refl _, .refl _⟩

theorem shufP_append {wt : Nat} {a a' b b' : List Bytes} (h : ShufP wt a a') (h' : ShufP wt b b') :
    ShufP wt (a ++ b) (a' ++ b') := by
  constructor
  · intro num
    simp only [List.map_append]
    exact shuffle_append (h.1 num) (h'.1 num)
  · simp only [List.map_append]
    exact h.2.append h'.2

theorem ShufP.trans {wt : Nat} {a b c : List Bytes} (h : ShufP wt a b) (h' : ShufP wt b c) : ShufP wt a c :=
  ⟨fun num => .trans (h.1 num) (h'.1 num), h.2.trans h'.2⟩

theorem recordsOf_length (w : U64) (ds : List Bytes) :
    (recordsOf w ds).length = ((ds.map List.length).map fun n => (leb128 w.toNat).length + n).sum := by
  simp [recordsOf, List.length_flatten, Function.comp_def]

theorem shufP_length {wt : Nat} {ds ds' : List Bytes} (h : ShufP wt ds ds') (w : U64) :
    (recordsOf w ds').length = (recordsOf w ds).length := by
  rw [recordsOf_length, recordsOf_length]
  exact ((h.2.map _).sum_nat).symm

theorem shufP_small {wt : Nat} {ds ds' : List Bytes} (h : ShufP wt ds ds') (hl : ∀ d ∈ ds, d.length < 2 ^ 64) :
    ∀ d ∈ ds', d.length < 2 ^ 64 := by
  intro d hd
  have : d.length ∈ ds.map List.length := h.2.mem_iff.mpr (List.mem_map.mpr ⟨d, hd, rfl⟩)
  obtain ⟨e, he, heq⟩ := List.mem_map.mp this
  have := hl e he; omega

theorem len_recordsOf {w : U64} {ds : List Bytes} {d : Bytes} (hd : d ∈ ds) : d.length ≤ (recordsOf w ds).length := by
  induction ds with
  | nil => simp at hd
  | cons x xs ih =>
    rw [recordsOf_cons]
    rcases List.mem_cons.mp hd with rfl | hd
    · simp; omega
    · have := ih hd; simp; omega

theorem enc_payloads {L : Layout} {env : Env} (hg : Good L env) {c : Codec} {v : Val} {ds : List Bytes} {wt : Nat} {tag : U64}
    (he : Encodes env c v ds) (hc : c.WF) (hw : c.Writes wt) (hs : c.IsElem ∨ c.Supported tag) (hv : Fits L c.shape v)
    (hl : ∀ d ∈ ds, d.length < 2 ^ 64) : ∀ d ∈ ds, Payload wt d := by
  obtain ⟨h1, h2⟩ := back_codec hg he wt tag hc hw hv hl
  rcases hs with hs | hs
  · exact (h1 hs).field.1
  · exact (h2 hs).1

/-- The statement for values of depth below `D`. -/
def Shuf (L : Layout) (env : Env) (D : Nat) : Prop :=
  ∀ (c : Codec) (v w : Val) (ds : List Bytes) (wt : Nat) (tag : U64), v.depth < D → Encodes env c v ds → c.WF → c.Writes wt →
    (c.IsElem ∨ c.Supported tag) → Fits L c.shape v → (∀ d ∈ ds, d.length < 2 ^ 64) → Reorder v w →
    ∃ ds', Encodes env c w ds' ∧ ShufP wt ds ds'

theorem shuf_fields {L : Layout} {env : Env} (hg : Good L env) {D : Nat} (ih : Shuf L env D) (t : TypeId) {vs ws : List Val}
    (hf : FitsL L (L t) vs) (hr : ReorderL vs ws) (hd : ∀ v ∈ vs, v.depth < D) (fs : List Field)
    (hsub : ∀ f ∈ fs, f ∈ (env t).fields) : ∀ b, EncodesMsg env fs vs b → b.length < 2 ^ 64 →
    ∃ b', EncodesMsg env fs ws b' ∧ b'.length = b.length ∧ ∃ rs rs', Records b rs ∧ Records b' rs' ∧ Shuffle rs rs' := by
  induction fs with
  | nil => intro b h _; cases h; exact ⟨[], .nil _, rfl, [], [], .nil, .nil, .refl _⟩
  | cons f fs ihf =>
    intro b h hl
    cases h with
    | cons _ _ _ v ds b hget he hm =>
      simp only [List.length_append] at hl
      obtain ⟨b', h1, h2, rs, rs', h3, h4, h5⟩ := ihf (fun f hf => hsub f (by simp [hf])) b hm (by omega)
      have hf' := hsub f (by simp)
      have hfit : Fits L f.codec.shape v := by
        obtain ⟨v', hv1, hv2⟩ := fits_slot hg.wf hf hf'
        rw [hget] at hv1; cases hv1; exact hv2
      obtain ⟨w, hw, hrw⟩ := reorderL_get hr hget
      have hsm : ∀ d ∈ ds, d.length < 2 ^ 64 := fun d hd => by
        have := len_recordsOf (w := f.tag.wiretag) hd; omega
      obtain ⟨ds', he', hsh⟩ := ih f.codec v w ds _ f.tag.wiretag (hd v (List.mem_of_getElem? hget)) he (hg.wf.codec t f hf')
        (hg.writes t f hf') (.inr (hg.supported t f hf')) hfit hsm hrw
      have hp := enc_payloads hg he (hg.wf.codec t f hf') (hg.writes t f hf') (.inr (hg.supported t f hf')) hfit hsm
      have hp' := enc_payloads hg he' (hg.wf.codec t f hf') (hg.writes t f hf') (.inr (hg.supported t f hf'))
        (fits_reorder hfit hrw) (shufP_small hsh hsm)
      refine ⟨_, .cons f fs ws w ds' b' hw he' h1, ?_, _, _, records_append (records_of_payloads hp) h3,
        records_append (records_of_payloads hp') h4, shuffle_append (hsh.1 _) h5⟩
      simp only [List.length_append, h2, shufP_length hsh]

theorem shuf_list {L : Layout} {env : Env} {D : Nat} (ih : Shuf L env D) {c : Codec} {wt : Nat} (hc : c.WF)
    (hw : c.Writes wt) (hel : c.IsElem) {es es' : List Val} (hr : ReorderL es es') (hd : ∀ v ∈ es, v.depth < D)
    (hf : ∀ e ∈ es, Fits L c.shape e) : ∀ ds, EncodesL env c es ds → (∀ d ∈ ds, d.length < 2 ^ 64) →
    ∃ ds', EncodesL env c es' ds' ∧ ShufP wt ds ds' := by
  induction es generalizing es' with
  | nil => intro ds h _; cases hr; exact ⟨ds, h, shufP_refl _ _⟩
  | cons e es ihe =>
    intro ds h hl
    cases hr with
    | cons hre hr =>
      cases h with
      | cons _ _ _ ds1 ds2 he hes =>
        obtain ⟨ds1', h1, h2⟩ := ih c e _ ds1 wt 0#64 (hd e (by simp)) he hc hw (.inl hel) (hf e (by simp))
          (fun d hd => hl d (by simp [hd])) hre
        obtain ⟨ds2', h3, h4⟩ := ihe hr (fun v hv => hd v (by simp [hv])) (fun e he => hf e (by simp [he])) ds2 hes
          (fun d hd => hl d (by simp [hd]))
        exact ⟨_, .cons _ _ _ _ _ h1 h3, shufP_append h2 h4⟩

theorem encodesM_perm {env : Env} {i : MapInfo} {kc vc : Codec} {m m' : List (Key × Val)} (hp : m.Perm m') :
    ∀ ds, EncodesM env i kc vc m ds → ∃ ds', EncodesM env i kc vc m' ds' ∧ ds.Perm ds' := by
  induction hp with
  | nil => intro ds h; exact ⟨ds, h, .refl _⟩
  | cons x _ ih =>
    intro ds h
    cases h with
    | cons _ _ _ k v m kds vds ds hk hv hm =>
      obtain ⟨ds', h1, h2⟩ := ih ds hm
      exact ⟨_, .cons _ _ _ _ _ _ _ _ _ hk hv h1, h2.cons _⟩
  | swap x y l =>
    intro ds h
    cases h with
    | cons _ _ _ k v m kds vds ds hk hv hm =>
      cases hm with
      | cons _ _ _ k' v' m kds' vds' ds hk' hv' hm =>
        exact ⟨_, .cons _ _ _ _ _ _ _ _ _ hk' hv' (.cons _ _ _ _ _ _ _ _ _ hk hv hm), .swap _ _ _⟩
  | trans _ _ ih1 ih2 =>
    intro ds h
    obtain ⟨ds', h1, h2⟩ := ih1 ds h
    obtain ⟨ds'', h3, h4⟩ := ih2 ds' h1
    exact ⟨ds'', h3, h2.trans h4⟩

theorem shuf_entries {L : Layout} {env : Env} (hg : Good L env) {D : Nat} (ih : Shuf L env D) {i : MapInfo} {kc vc : Codec}
    (hkw : kc.WF) (hvw : vc.WF) (hwk : kc.Writes (keyType i.key.wiretag)) (hwv : vc.Writes (keyType i.val.wiretag))
    (hkel : kc.IsElem) (hvel : vc.IsElem) {m m' : List (Key × Val)} (hr : ReorderM m m') (hd : ∀ e ∈ m, e.2.depth < D)
    (hks : ∀ e ∈ m, Fits L kc.shape e.1.toVal) (hvs : ∀ e ∈ m, Fits L vc.shape e.2) :
    ∀ ds, EncodesM env i kc vc m ds → (∀ d ∈ ds, d.length < 2 ^ 64) →
    ∃ ds', EncodesM env i kc vc m' ds' ∧ ShufP 2 ds ds' := by
  induction m generalizing m' with
  | nil => intro ds h _; cases hr; exact ⟨ds, h, shufP_refl _ _⟩
  | cons e m ihm =>
    intro ds h hl
    cases hr with
    | @cons k v w _ m' hre hr =>
      cases h with
      | cons _ _ _ _ _ _ kds vds ds hk hv hm =>
        have hsm := hl (delimited (recordsOf i.key.wiretag kds ++ recordsOf i.val.wiretag vds)) (by simp)
        simp only [delimited, List.length_append] at hsm
        have hks1 : ∀ d ∈ kds, d.length < 2 ^ 64 := fun d hd => by
          have := len_recordsOf (w := i.key.wiretag) hd; omega
        have hvs1 : ∀ d ∈ vds, d.length < 2 ^ 64 := fun d hd => by
          have := len_recordsOf (w := i.val.wiretag) hd; omega
        obtain ⟨vds', h1, h2⟩ := ih vc v w vds _ 0#64 (hd (k, v) (by simp)) hv hvw hwv (.inl hvel) (hvs (k, v) (by simp))
          hvs1 hre
        obtain ⟨ds', h3, h4⟩ := ihm hr (fun e he => hd e (by simp [he])) (fun e he => hks e (by simp [he]))
          (fun e he => hvs e (by simp [he])) ds hm (fun d hd => hl d (by simp [hd]))
        have hpk := enc_payloads hg (tag := 0#64) hk hkw hwk (.inl hkel) (hks (k, v) (by simp)) hks1
        have hpv := enc_payloads hg (tag := 0#64) hv hvw hwv (.inl hvel) (hvs (k, v) (by simp)) hvs1
        have hpv' := enc_payloads hg (tag := 0#64) h1 hvw hwv (.inl hvel) (fits_reorder (hvs (k, v) (by simp)) hre)
          (shufP_small h2 hvs1)
        refine ⟨_, .cons _ _ _ _ _ _ _ _ _ hk h1 h3, ?_, ?_⟩
        · intro num
          have hlen : (recordsOf i.key.wiretag kds ++ recordsOf i.val.wiretag vds).length =
              (recordsOf i.key.wiretag kds ++ recordsOf i.val.wiretag vds').length := by
            simp only [List.length_append, shufP_length h2]
          simp only [List.map_cons, delimited]
          rw [← hlen]
          refine .body num (varint64_leb128 ?_) hlen
            (records_append (records_of_payloads hpk) (records_of_payloads hpv))
            (records_append (records_of_payloads hpk) (records_of_payloads hpv'))
            (shuffle_append_left (h2.1 _) _) (h4.1 num)
          simp only [List.length_append]; omega
        · simp only [List.map_cons, delimited, List.length_append, shufP_length h2]
          exact h4.2.cons _

theorem shuf_all {L : Layout} {env : Env} (hg : Good L env) : ∀ D, Shuf L env D := by
  intro D
  induction D with
  | zero => intro c v w ds wt tag h; omega
  | succ D ih =>
    intro c v w ds wt tag hd he hc hw hs hv hl hr
    have leaf : v = w → ∃ ds', Encodes env c w ds' ∧ ShufP wt ds ds' := fun h => ⟨ds, h ▸ he, shufP_refl _ _⟩
    cases c with
    | normal s =>
      refine leaf ((reorder_leaf hr).resolve_right ?_)
      rintro ⟨h1, _⟩; simp only [Codec.shape] at hv; cases s <;> simp only [Scalar.shape] at hv <;> cases hv <;> exact h1
    | required s =>
      refine leaf ((reorder_leaf hr).resolve_right ?_)
      rintro ⟨h1, _⟩; simp only [Codec.shape] at hv; cases s <;> simp only [Scalar.shape] at hv <;> cases hv <;> exact h1
    | option s =>
      refine leaf ((reorder_leaf hr).resolve_right ?_)
      rintro ⟨h1, _⟩; simp only [Codec.shape] at hv; cases hv <;> exact h1
    | bytes =>
      refine leaf ((reorder_leaf hr).resolve_right ?_)
      rintro ⟨h1, _⟩; simp only [Codec.shape] at hv; cases hv <;> exact h1
    | ptr z c =>
      cases he with
      | ptrNil => cases hr; exact leaf rfl
      | ptr _ _ v _ he =>
        obtain ⟨w, rfl, hr'⟩ := reorder_ptr hr
        simp only [Codec.shape] at hv
        cases hv with
        | ptr _ _ hv =>
          simp only [Val.depth] at hd
          have hel : c.IsElem := by rcases hs with h | h <;> exact h
          obtain ⟨ds', h1, h2⟩ := ih c v w ds wt tag (by omega) he hc.2 hw (.inl hel) hv hl hr'
          exact ⟨ds', .ptr _ _ _ _ h1, h2⟩
    | msg t =>
      cases he with
      | msgNil => cases hr; exact leaf rfl
      | msg _ vs body he =>
        obtain ⟨w, rfl, hr0⟩ := reorder_ptr hr
        obtain ⟨ws, rfl, hr'⟩ := reorder_struct hr0
        simp only [Codec.Writes] at hw; subst hw
        have hsm := hl (delimited body) (by simp)
        simp only [delimited, List.length_append] at hsm
        have hdl : ∀ v ∈ vs, v.depth < D := fun v hv => by
          have := depth_mem_L hv; simp only [Val.depth] at hd; omega
        obtain ⟨b', h1, h2, rs, rs', h3, h4, h5⟩ := shuf_fields hg ih t (fitsL_of_msg (L := L) (t := t) (vs := vs) hv) hr'
          hdl _ (fun f hf => hf) body he (by omega)
        refine ⟨_, .msg t ws b' h1, fun num => ?_, ?_⟩
        · simp only [List.map_cons, List.map_nil, delimited, h2]
          exact .body num (varint64_leb128 (by omega)) h2.symm h3 h4 h5 (.refl _)
        · simp [delimited, h2]
    | slice z c =>
      cases he with
      | slice _ _ n es sp _ he =>
        obtain ⟨es', rfl, hr'⟩ := reorder_slice hr
        simp only [Codec.shape] at hv
        cases hv with
        | slice _ _ _ _ _ hes _ =>
          have hdl : ∀ v ∈ es, v.depth < D := fun v hv => by
            have := depth_mem_L hv; simp only [Val.depth] at hd; omega
          have hel : c.IsElem := by rcases hs with h | h; exact h.elim; exact h
          obtain ⟨ds', h1, h2⟩ := shuf_list ih hc.2 hw hel hr' hdl hes ds he hl
          exact ⟨ds', .slice _ _ _ _ _ _ h1, h2⟩
    | map i kc vc kd vd =>
      have hs : (Codec.map i kc vc kd vd).Supported tag := by rcases hs with h | h; exact h.elim; exact h
      cases he with
      | mapEmpty _ _ _ _ _ n =>
        obtain ⟨m', m'', rfl, hp, hr'⟩ := reorder_map hr
        have := List.nil_perm.mp hp; subst this
        cases hr'
        exact leaf rfl
      | map _ _ _ _ _ n m _ hne he =>
        obtain ⟨m', m'', rfl, hp, hr'⟩ := reorder_map hr
        simp only [Codec.shape] at hv
        cases hv with
        | map _ _ _ _ _ _ hks hvs =>
          simp only [Codec.Writes] at hw
          obtain ⟨rfl, hwk, hwv⟩ := hw
          obtain ⟨_, _, _, _, _, hkw, hvw, _, _⟩ := hc
          obtain ⟨_, _, _, _, hkel, hvel, _, _⟩ := hs
          obtain ⟨ds1, h1, h2⟩ := encodesM_perm hp ds he
          have hdl : ∀ e ∈ m', e.2.depth < D := fun e he => by
            have := depth_mem_M (hp.mem_iff.mpr he); simp only [Val.depth] at hd; omega
          obtain ⟨ds2, h3, h4⟩ := shuf_entries hg ih hkw hvw hwk hwv hkel hvel hr' hdl
            (fun e he => hks e (hp.mem_iff.mpr he)) (fun e he => hvs e (hp.mem_iff.mpr he)) ds1 h1
            (fun d hd => hl d (h2.mem_iff.mpr hd))
          refine ⟨ds2, .map _ _ _ _ _ _ _ _ (fun he => hne ?_) h3, ShufP.trans ⟨fun num => shuffle_perm num 2 h2, h2.map _⟩ h4⟩
          subst he; cases hr'; exact List.perm_nil.mp hp

mutual
theorem encodes_unique {env : Env} {c : Codec} {v : Val} {ds : List Bytes} : Encodes env c v ds →
    ∀ {ds'}, Encodes env c v ds' → ds' = ds
  | .zero s => fun h => by generalize hz : s.shape.zero = z at h; cases h with | zero => rfl | nonzero _ _ hn => exact (hn hz.symm).elim
  | .nonzero s v hn => fun h => by cases h with | zero => exact (hn rfl).elim | nonzero => rfl
  | .required s v => fun h => by cases h; rfl
  | .none s v => fun h => by cases h; rfl
  | .some s v => fun h => by cases h; rfl
  | .bytesNil => fun h => by cases h; rfl
  | .bytes s => fun h => by cases h; rfl
  | .ptrNil z c => fun h => by cases h; rfl
  | .ptr z c v ds he => fun h => by cases h with | ptr _ _ _ _ h => exact encodes_unique he h
  | .msgNil t => fun h => by cases h; rfl
  | .msg t vs body he => fun h => by cases h with | msg _ _ _ h => rw [encodesMsg_unique he h]
  | .slice z c n es sp ds he => fun h => by cases h with | slice _ _ _ _ _ _ h => exact encodesL_unique he h
  | .mapEmpty .. => fun h => by cases h with | mapEmpty => rfl | map _ _ _ _ _ _ _ _ hne => exact (hne rfl).elim
  | .map i kc vc kd vd n m ds hne he => fun h => by
    cases h with
    | mapEmpty => exact (hne rfl).elim
    | map _ _ _ _ _ _ _ _ _ h => exact encodesM_unique he h
theorem encodesL_unique {env : Env} {c : Codec} {es : List Val} {ds : List Bytes} : EncodesL env c es ds →
    ∀ {ds'}, EncodesL env c es ds' → ds' = ds
  | .nil c => fun h => by cases h; rfl
  | .cons c e es ds ds' h1 h2 => fun h => by
    cases h with | cons _ _ _ _ _ h3 h4 => rw [encodes_unique h1 h3, encodesL_unique h2 h4]
theorem encodesM_unique {env : Env} {i : MapInfo} {kc vc : Codec} {m : List (Key × Val)} {ds : List Bytes} :
    EncodesM env i kc vc m ds → ∀ {ds'}, EncodesM env i kc vc m ds' → ds' = ds
  | .nil .. => fun h => by cases h; rfl
  | .cons i kc vc k v m kds vds ds h1 h2 h3 => fun h => by
    cases h with
    | cons _ _ _ _ _ _ _ _ _ h4 h5 h6 => rw [encodes_unique h1 h4, encodes_unique h2 h5, encodesM_unique h3 h6]
theorem encodesMsg_unique {env : Env} {fs : List Field} {vs : List Val} {b : Bytes} : EncodesMsg env fs vs b →
    ∀ {b'}, EncodesMsg env fs vs b' → b' = b
  | .nil vs => fun h => by cases h; rfl
  | .cons f fs vs v ds b hv h1 h2 => fun h => by
    cases h with
    | cons _ _ _ v' _ _ hv' h3 h4 =>
      rw [hv] at hv'; cases hv'
      rw [encodes_unique h1 h3, encodesMsg_unique h2 h4]
end

end Pb
