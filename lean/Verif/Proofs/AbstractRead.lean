import Verif.Proofs.Abstract
/-
Unmarshal builds the abstract message other readers build.
-/
namespace Pb
open Spec

theorem reprEntries_assign {P : Protos} {key k : Kind} {x : Key} {v : Val} {px : PKey} {pv : PVal}
    (hx : ScalarIs key (Key.toVal x) px.val) (hv : ReprSlot P k v pv) :
    ∀ {m : List (Key × Val)} {ps : List (PKey × PVal)}, ReprEntries P key k m ps → (m.map Prod.fst).Nodup →
    ∃ ps', ReprEntries P key k (mapAssign m x v) ps' ∧ (∀ e ∈ ps', e = (px, pv) ∨ (e ∈ ps ∧ e.1 ≠ px)) ∧ (px, pv) ∈ ps' ∧
      ∀ e ∈ ps, e.1 ≠ px → e ∈ ps'
  | [], _, .nil _ _, _ => ⟨[(px, pv)], .cons _ _ _ _ _ _ _ _ hx hv (.nil _ _), by simp, by simp, by simp⟩
  | (x0, v0) :: m, _, .cons _ _ _ _ px0 pv0 _ ps h1 h2 h3, hn => by
    simp only [List.map_cons, List.nodup_cons] at hn
    by_cases e : x0 = x
    · subst e
      have hp : px0 = px := PKey.val_inj (scalarIs_unique h1 hx)
      subst hp
      refine ⟨(px0, pv) :: ps, by simp only [mapAssign, if_true]; exact .cons _ _ _ _ _ _ _ _ hx hv h3, ?_, by simp, ?_⟩
      · intro e he
        rcases List.mem_cons.mp he with rfl | he
        · exact .inl rfl
        · refine .inr ⟨by simp [he], fun hh => hn.1 ?_⟩
          have : ∀ {m ps}, ReprEntries P key k m ps → ∀ e ∈ ps, ∃ a, a ∈ m.map Prod.fst ∧ ScalarIs key (Key.toVal a) e.1.val := by
            intro m ps h
            induction m generalizing ps with
            | nil => cases h; simp
            | cons a m ih =>
              cases h with
              | cons _ _ _ _ _ _ _ _ g1 g2 g3 =>
                intro e he
                rcases List.mem_cons.mp he with rfl | he
                · exact ⟨_, by simp, g1⟩
                · obtain ⟨b, hb, hs⟩ := ih g3 e he
                  exact ⟨b, by simp [hb], hs⟩
          obtain ⟨a, ha, hs⟩ := this h3 e he
          have := scalarIs_inj (hh ▸ hs) hx
          have : a = x0 := by cases a <;> cases x0 <;> simp [Key.toVal] at this <;> rw [this]
          exact this ▸ ha
      · intro e he hne
        rcases List.mem_cons.mp he with rfl | he
        · exact absurd rfl hne
        · simp [he]
    · obtain ⟨ps', i1, i2, i3, i4⟩ := reprEntries_assign hx hv h3 hn.2
      refine ⟨(px0, pv0) :: ps', by simp only [mapAssign, e, if_false]; exact .cons _ _ _ _ _ _ _ _ h1 h2 i1, ?_, by simp [i3], ?_⟩
      · intro e' he
        rcases List.mem_cons.mp he with rfl | he
        · refine .inr ⟨by simp, fun hh => e ?_⟩
          have hh : px0 = px := hh
          have := scalarIs_inj (hh ▸ h1) hx
          cases x0 <;> cases x <;> simp [Key.toVal] at this <;> rw [this]
        · rcases i2 e' he with h | ⟨h, h'⟩
          · exact .inl h
          · exact .inr ⟨by simp [h], h'⟩
      · intro e' he hne
        rcases List.mem_cons.mp he with rfl | he
        · simp
        · simp [i4 e' he hne]

theorem zero_slot {k : Kind} {c : Codec} (h : ElemCodec k c) (P : Protos) : ReprSlot P k c.shape.zero (newVal P k) := by
  cases h with
  | normal _ s h => exact .val _ _ _ (.scalar _ _ _ (scalar_zero h P))
  | required _ s h => exact .val _ _ _ (.scalar _ _ _ (scalar_zero h P))
  | bytes => exact .bytesNil
  | message t => exact .messageNil t

theorem newMsg_of {P : Protos} {t : TypeId} (h : NumbersOK (P t)) {f : ProtoField} (hf : f ∈ P t) :
    newMsg P t f.number = fieldDefault f := by
  have : (P t).find? (fun g => g.number == f.number) = some f := by
    have hd := h.distinct
    generalize P t = fs at hf hd
    induction fs with
    | nil => cases hf
    | cons g gs ih =>
      rw [List.find?_cons]
      rcases List.mem_cons.mp hf with rfl | hf
      · simp
      · have hne := (List.pairwise_cons.mp hd).1 f hf
        have : (g.number == f.number) = false := by simpa using hne
        rw [this]
        exact ih hf (List.pairwise_cons.mp hd).2
  simp only [newMsg, this]

theorem newMsg_none {P : Protos} {t : TypeId} {n : Nat} (h : ∀ f ∈ P t, f.number ≠ n) : newMsg P t n = .unset := by
  have : (P t).find? (fun g => g.number == n) = none := by
    rw [List.find?_eq_none]
    intro f hf
    simpa using h f hf
  simp only [newMsg, this]

theorem fieldDefault_scalar {n : Nat} {k : Kind} {s : Scalar} (h : KindIs k s) (P : Protos) :
    fieldDefault ⟨n, k, .implicit⟩ = .one (newVal P k) := by
  cases h <;> rfl

theorem zero_field {P : Protos} {f : ProtoField} {c : Codec} (h : GenCodec f.label f.kind c) :
    ReprField P f.label f.kind c.shape.zero (fieldDefault f) := by
  obtain ⟨n, k, l⟩ := f
  simp only at h ⊢
  cases h with
  | implicit _ _ h =>
    cases h with
    | normal _ s h => rw [fieldDefault_scalar h P]; exact .scalar _ _ _ (scalar_zero h P)
    | required _ s h => rw [fieldDefault_scalar h P]; exact .scalar _ _ _ (scalar_zero h P)
    | bytes => exact .bytesNil
    | message t => exact .messageNil _ t (.inl rfl)
  | option _ s h => exact .none _ _
  | optional _ _ hs h =>
    cases h with
    | normal _ s h => exact absurd h (hs s)
    | required _ s h => exact absurd h (hs s)
    | bytes => exact .optBytesNil
    | message t => exact .messageNil _ t (.inr rfl)
  | repeated _ z c h => exact .repeated _ _ _ _ _ (by simp) (.nil _)
  | map key _ i kc vc kd vd _ _ _ _ _ _ _ => exact .map _ _ _ _ [] _ (.nil _ _) (by simp) (by simp)

/-- The zero value of a struct type is a new message. -/
theorem zero_msg {P : Protos} {L : Layout} {env : Env} (hg : GenEnv P L env) (t : TypeId) :
    ReprMsg P t ((L t).map Shape.zero) (newMsg P t) := by
  refine .mk _ _ _ (fun i f v hf hv => ?_) fun n hn => newMsg_none hn
  obtain ⟨g, hmem, rfl, _, _, hc⟩ := hg.entry t i f hf
  rw [List.getElem?_map, hg.good.wf.slot t g hmem] at hv
  cases hv
  rw [newMsg_of (hg.numbers t) (List.mem_of_getElem? hf)]
  exact zero_field hc

theorem reprList_append {P : Protos} {k : Kind} {v : Val} {p : PVal} (h : ReprVal P k v p) :
    ∀ {es : List Val} {ps : List PVal}, ReprList P k es ps → ReprList P k (es ++ [v]) (ps ++ [p])
  | [], _, .nil _ => .cons _ _ _ _ _ h (.nil _)
  | _ :: _, _, .cons _ _ _ _ _ h1 h2 => .cons _ _ _ _ _ h1 (reprList_append h h2)

theorem fitsL_zero (L : Layout) (sh : List Shape) : FitsL L sh (sh.map Shape.zero) := by
  refine ⟨by simp, fun i s v hs hv => ?_⟩
  rw [List.getElem?_map, hs] at hv
  cases hv
  exact fits_zero L s

theorem elem_WF {k : Kind} {c : Codec} (h : ElemCodec k c) : c.WF := by cases h <;> trivial

theorem elem_zero_msg {t : TypeId} {c : Codec} (h : ElemCodec (.message t) c) : c.shape.zero = .nilp := by
  cases h with
  | normal _ s h => cases h
  | required _ s h => cases h
  | message => rfl

/-- Fields of scalar types after reading. -/
theorem reprField_scalar {P : Protos} {l : Label} {k : Kind} {c : Codec} (hl : l = .implicit ∨ l = .optional) (hc : GenCodec l k c)
    (hw : ∀ s, ¬ (l = .optional ∧ KindIs k s)) {v : Val} {p : PVal} (h : ReprVal P k v p) : ReprField P l k v (.one p) := by
  cases h with
  | scalar _ _ _ h =>
    rcases hl with rfl | rfl
    · exact .scalar _ _ _ h
    · cases hc with
      | option _ s h' => exact absurd ⟨rfl, h'⟩ (hw s)
      | optional _ _ hs h' =>
        cases h' with
        | normal _ s h' => exact absurd h' (hs s)
        | required _ s h' => exact absurd h' (hs s)
        | bytes => cases h
        | message => cases h
  | bytes s =>
    rcases hl with rfl | rfl
    · exact .bytes s
    · exact .optBytes s
  | message t vs m h => exact .message _ _ _ _ hl h

theorem reprMsg_set {P : Protos} {L : Layout} {env : Env} (hg : GenEnv P L env) {t : TypeId} {vs : List Val} {m : PMsg}
    (hr : ∀ (i : Nat) f v, (P t)[i]? = some f → vs[i]? = some v → ReprField P f.label f.kind v (m f.number))
    (hu : ∀ n, (∀ f ∈ P t, f.number ≠ n) → m n = .unset) {o : Nat} {f : ProtoField} (hi : (P t)[o]? = some f) (hlt : o < vs.length)
    {new : Val} {x : PField} (h2 : ReprField P f.label f.kind new x) : ReprMsg P t (vs.set o new) (m.put f.number x) := by
  refine .mk _ _ _ (fun j f' v' hj hv' => ?_) fun n hn => ?_
  · by_cases e : j = o
    · subst e
      rw [hi] at hj; cases hj
      rw [List.getElem?_set_self hlt] at hv'; cases hv'
      simp only [PMsg.put, if_true]; exact h2
    · rw [List.getElem?_set_ne (fun h => e h.symm)] at hv'
      have hne : f'.number ≠ f.number := by
        have hd := (hg.numbers t).distinct
        intro he
        obtain ⟨hj1, hj2⟩ := List.getElem?_eq_some_iff.mp hj
        obtain ⟨hi1, hi2⟩ := List.getElem?_eq_some_iff.mp hi
        rw [List.pairwise_iff_getElem] at hd
        rcases Nat.lt_or_gt_of_ne e with h | h
        · exact hd j o hj1 hi1 h (by rw [hj2, hi2, he])
        · exact hd o j hi1 hj1 h (by rw [hj2, hi2, he])
      simp only [PMsg.put, hne, if_false]
      exact hr _ _ _ hj hv'
  · have : n ≠ f.number := fun e => hn f (List.mem_of_getElem? hi) e.symm
    simp only [PMsg.put, this, if_false]
    exact hu n hn

mutual
theorem onto_merge {P : Protos} {L : Layout} {env : Env} (hg : GenEnv P L env) {k : Kind} {old new : PVal} {data : Bytes} :
    ParseOnto P k old data new → ∀ c v, ElemCodec k c → (∀ t, k = .message t → ReprSlot P k v old) → Fits L c.shape v →
    ∃ v', Merge env c v data v' ∧ ReprVal P k v' new
  | .scalar _ _ _ _ hd hb => fun c v hc _ hf => by
    cases hc with
    | normal _ s hs =>
      obtain ⟨v', h1, h2⟩ := denotes_reads hs hd
      exact ⟨v', .normal _ _ _ _ h1 (fun e => hb (kindIs_bool hs e)), .scalar _ _ _ h2⟩
    | required _ s hs =>
      obtain ⟨v', h1, h2⟩ := denotes_reads hs hd
      exact ⟨v', .required _ _ _ _ h1 (fun e => hb (kindIs_bool hs e)), .scalar _ _ _ h2⟩
    | bytes =>
      cases hd with
      | bytes _ s h => cases hf; exact ⟨_, .bytes _ _ _ h, .bytes s⟩
    | message t => cases hd
  | .message t m _ body rs m' hb hr hp => fun c v hc hv hf => by
    have ih := msg_merge hg hp
    cases hc with
    | normal _ s hs => cases hs
    | required _ s hs => cases hs
    | message =>
      cases hv t rfl with
      | val _ _ _ h =>
        cases h with
        | scalar _ _ _ h => cases h
        | message _ vs _ h =>
          obtain ⟨vs', h1, h2, _⟩ := ih vs h (fitsL_of_msg hf)
          exact ⟨_, .msgOld _ _ _ _ _ _ hb hr h1, .message _ _ _ h2⟩
      | messageNil =>
        obtain ⟨vs', h1, h2, _⟩ := ih _ (zero_msg hg t) (fitsL_zero L (L t))
        exact ⟨_, .msgNew _ _ _ _ _ _ (hg.good.wf.zero t) hb hr h1, .message _ _ _ h2⟩

theorem field_merge {P : Protos} {L : Layout} {env : Env} (hg : GenEnv P L env) {l : Label} {k : Kind} {old new : PField} {data : Bytes} :
    ParseField P l k old data new → ∀ c v, GenCodec l k c → c.WF → ReprField P l k v old → Fits L c.shape v →
    ∃ v', Merge env c v data v' ∧ ReprField P l k v' new
  | .set _ _ old _ new hl hp => fun c v hc hw hr hf => by
    have ih := onto_merge hg hp
    by_cases ho : ∃ s, l = .optional ∧ KindIs k s
    · obtain ⟨s, rfl, hs⟩ := ho
      have hcs : c = .option s := by
        cases hc with
        | option _ s' h' => rw [kindIs_unique hs h']
        | optional _ _ hn _ => exact absurd hs (hn s)
      subst hcs
      cases hp with
      | scalar _ _ _ _ hd hb =>
        obtain ⟨v', h1, h2⟩ := denotes_reads hs hd
        simp only [Codec.shape] at hf
        cases hf <;> exact ⟨_, .option _ _ _ _ _ h1 (fun e => hb (kindIs_bool hs e)), .some _ _ _ h2⟩
      | message => cases hs
    · have he : ElemCodec k c := by
        cases hc with
        | implicit _ _ h => exact h
        | option _ s h => exact absurd ⟨s, rfl, h⟩ ho
        | optional _ _ _ h => exact h
        | repeated => simp at hl
        | map => simp at hl
      obtain ⟨v', h1, h2⟩ := ih c v he (fun t ht => by
        subst ht
        cases hr with
        | scalar _ _ _ h => cases h
        | message _ _ vs m _ h => exact .val _ _ _ (.message _ _ _ h)
        | some _ _ _ h => cases h) hf
      exact ⟨v', h1, reprField_scalar hl hc (fun s h => ho ⟨s, h⟩) h2⟩
  | .first _ _ _ new hl hp => fun c v hc hw hr hf => by
    have ih := onto_merge hg hp
    by_cases ho : ∃ s, l = .optional ∧ KindIs k s
    · obtain ⟨s, rfl, hs⟩ := ho
      have hcs : c = .option s := by
        cases hc with
        | option _ s' h' => rw [kindIs_unique hs h']
        | optional _ _ hn _ => exact absurd hs (hn s)
      subst hcs
      cases hp with
      | scalar _ _ _ _ hd hb =>
        obtain ⟨v', h1, h2⟩ := denotes_reads hs hd
        simp only [Codec.shape] at hf
        cases hf <;> exact ⟨_, .option _ _ _ _ _ h1 (fun e => hb (kindIs_bool hs e)), .some _ _ _ h2⟩
      | message => cases hs
    · have he : ElemCodec k c := by
        cases hc with
        | implicit _ _ h => exact h
        | option _ s h => exact absurd ⟨s, rfl, h⟩ ho
        | optional _ _ _ h => exact h
        | repeated => simp at hl
        | map => simp at hl
      obtain ⟨v', h1, h2⟩ := ih c v he (fun t ht => by
        subst ht
        cases hr with
        | messageNil => exact .messageNil t
        | none =>
          cases hc with
          | option _ s h => cases h
          | optional _ _ _ h =>
            cases h with
            | normal _ s h => cases h
            | required _ s h => cases h
            | message => cases hf) hf
      exact ⟨v', h1, reprField_scalar hl hc (fun s h => ho ⟨s, h⟩) h2⟩
  | .repeated _ ps _ new hp => fun c v hc hw hr hf => by
    have ih := onto_merge hg hp
    cases hc with
    | repeated _ z c he =>
      cases hr with
      | repeated _ isNil es spare _ hs hes =>
        obtain ⟨rfl, _⟩ := hw
        simp only [Codec.shape] at hf
        cases hf with
        | slice _ _ _ _ _ hfe hfs =>
          cases spare with
          | nil =>
            obtain ⟨v', h1, h2⟩ := ih c _ he (fun t ht => zero_slot he P) (fits_zero L _)
            refine ⟨_, .sliceGrow _ _ _ _ _ _ h1, .repeated _ _ _ _ _ (fun t ht v hv => ?_) (reprList_append h2 hes)⟩
            subst ht
            rw [List.eq_of_mem_replicate hv]
            exact elem_zero_msg he
          | cons slot sp =>
            obtain ⟨v', h1, h2⟩ := ih c slot he (fun t ht => by
              subst ht
              rw [hs t rfl slot (by simp)]
              exact .messageNil t) (hfs slot (by simp))
            exact ⟨_, .sliceSlot _ _ _ _ _ _ _ _ h1, .repeated _ _ _ _ _ (fun t ht v hv => hs t ht v (by simp [hv]))
              (reprList_append h2 hes)⟩
  | .map key _ f _ body rs x pv hb hrec hp => fun c v hc hw hr hf => by
    have ih := entry_merge hg hp
    cases hc with
    | map _ _ i kc vc kd vd hk hek hev e1 e2 e3 e4 =>
      obtain ⟨hkey, ks, vsh, kz, vz, _, _, hkw, hvw⟩ := hw
      cases hr with
      | map _ _ isNil m ps _ hm h1 h2 =>
        simp only [Codec.shape] at hf
        cases hf with
        | map _ _ _ _ hnil hnd hfk hfv =>
          have z1 : i.kzero = kd.shape.zero := by rw [kz, ks]
          have z2 : i.vzero = vd.shape.zero := by rw [vz, vsh]
          obtain ⟨a, b, g1, g2, g3⟩ := ih i kd vd i.kzero i.vzero hek hev hkw hvw e1 e2 e3 e4
            (z1 ▸ zero_slot hek P) (z2 ▸ zero_slot hev P) (z1 ▸ fits_zero L _) (z2 ▸ fits_zero L _)
          have hs : ScalarIs key a x.val := by
            obtain ⟨s, hs⟩ := mapKey_scalar hk
            generalize x.val = q at g2 ⊢
            cases g2 with
            | val _ _ _ h =>
              cases h with
              | scalar _ _ _ h => exact h
              | bytes => cases hs
              | message => cases hs
            | bytesNil => cases hs
            | messageNil => cases hs
          obtain ⟨y, rfl⟩ : ∃ y, a = Key.toVal y := by
            generalize x.val = q at hs
            cases hs
            · exact ⟨.b8 _, rfl⟩
            · exact ⟨.w32 _, rfl⟩
            · exact ⟨.w32 _, rfl⟩
            · exact ⟨.w64 _, rfl⟩
            · exact ⟨.w32 _, rfl⟩
            · exact ⟨.w64 _, rfl⟩
            · exact ⟨.w32 _, rfl⟩
            · exact ⟨.w64 _, rfl⟩
            · exact ⟨.w32 _, rfl⟩
            · exact ⟨.w64 _, rfl⟩
            · exact ⟨.w32 _, rfl⟩
            · exact ⟨.w64 _, rfl⟩
            · exact ⟨.str _, rfl⟩
          obtain ⟨ps', p1, p2, p3, p4⟩ := reprEntries_assign hs g3 hm hnd
          refine ⟨_, .map _ _ _ _ _ _ _ _ _ _ _ _ _ hb hrec g1 (mapAssign_assign m y b), .map _ _ _ _ ps' _ p1 ?_ ?_⟩
          · intro e he
            rcases p2 e he with rfl | ⟨he, hne⟩
            · simp [putEntry]
            · simp only [putEntry, hne, if_false]; exact h1 e he
          · intro z hz
            have hzx : z ≠ x := fun h => hz _ p3 h.symm
            simp only [putEntry, hzx, if_false]
            refine h2 z fun e he hh => ?_
            exact hz e (p4 e he (fun h => hzx (hh ▸ h))) hh

theorem msg_merge {P : Protos} {L : Layout} {env : Env} (hg : GenEnv P L env) {t : TypeId} {m m' : PMsg} {rs : List (Nat × Nat × Bytes)} :
    ParseMsg P t m rs m' → ∀ vs, ReprMsg P t vs m → FitsL L (L t) vs →
    ∃ vs', MergeRecs env t vs rs vs' ∧ ReprMsg P t vs' m' ∧ FitsL L (L t) vs'
  | .nil _ _ => fun vs h hf => ⟨vs, .nil _ _, h, hf⟩
  | .unknown _ _ n w data rs _ hn hp => fun vs h hf => by
    obtain ⟨vs', h1, h2, h3⟩ := msg_merge hg hp vs h hf
    refine ⟨vs', .unknown _ _ _ _ _ _ _ (fun g hgm e => ?_) h1, h2, h3⟩
    obtain ⟨f, hf, e'⟩ := hg.only t g hgm
    exact hn f hf (e' ▸ e)
  | .known _ _ f data rs x _ hf hp hrest => fun vs h hfit => by
    obtain ⟨i, hi⟩ := List.getElem?_of_mem hf
    obtain ⟨g, hmem, rfl, e1, e2, hc⟩ := hg.entry t i f hi
    have hslot := hg.good.wf.slot t g hmem
    have hlt : g.offset < vs.length := by rw [hfit.1]; exact (List.getElem?_eq_some_iff.mp hslot).1
    have hv : vs[g.offset]? = some vs[g.offset] := List.getElem?_eq_getElem hlt
    have hfv := hfit.2 _ _ _ hslot hv
    obtain ⟨hr, hu⟩ : (∀ (i : Nat) f v, (P t)[i]? = some f → vs[i]? = some v → ReprField P f.label f.kind v (m f.number)) ∧
        ∀ n, (∀ f ∈ P t, f.number ≠ n) → m n = .unset := by cases h; exact ⟨by assumption, by assumption⟩
    have hcw := hg.good.wf.codec t g hmem
    obtain ⟨new, h1, h2⟩ := field_merge hg hp g.codec _ hc hcw (hr _ _ _ hi hv) hfv
    have hfn := merge_fits hg.good.wf hcw h1 hfv
    have hfit' : FitsL L (L t) (vs.set g.offset new) := fitsL_set hfit hslot hfn
    have hrep := reprMsg_set hg hr hu hi hlt h2
    obtain ⟨vs', h3, h4, h5⟩ := msg_merge hg hrest _ hrep hfit'
    refine ⟨vs', ?_, h4, h5⟩
    rw [← e2, ← e1]
    exact .known _ _ _ _ _ _ _ _ _ (declared_of hg hmem) hv h1 h3

theorem entry_merge {P : Protos} {L : Layout} {env : Env} (hg : GenEnv P L env) {key k : Kind} {x v x' v' : PVal} {rs : List (Nat × Nat × Bytes)} :
    ParseEntry P key k x v rs x' v' → ∀ i kd vd a b, ElemCodec key kd → ElemCodec k vd → kd.WF → vd.WF → keyNumber i.eKey = 1 →
    keyType i.eKey = kindWire key → keyNumber i.eVal = 2 → keyType i.eVal = kindWire k → ReprSlot P key a x → ReprSlot P k b v →
    Fits L kd.shape a → Fits L vd.shape b →
    ∃ a' b', MergeEntry env i kd vd a b rs a' b' ∧ ReprSlot P key a' x' ∧ ReprSlot P k b' v'
  | .nil _ _ _ _ => fun i kd vd a b _ _ _ _ _ _ _ _ ra rb _ _ => ⟨a, b, .nil _ _ _ _ _, ra, rb⟩
  | .unknown _ _ _ _ n w data rs _ _ h1 h2 hp => fun i kd vd a b hk hv wk wv e1 e2 e3 e4 ra rb fa fb => by
    obtain ⟨a', b', g1, g2, g3⟩ := entry_merge hg hp i kd vd a b hk hv wk wv e1 e2 e3 e4 ra rb fa fb
    exact ⟨a', b', .unknown _ _ _ _ _ _ _ _ _ _ _ (by rw [e1]; exact h1) (by rw [e3]; exact h2) g1, g2, g3⟩
  | .key _ _ _ _ data rs x1 _ _ ho hp => fun i kd vd a b hk hv wk wv e1 e2 e3 e4 ra rb fa fb => by
    obtain ⟨a1, o1, o2⟩ := onto_merge hg ho kd a hk (fun _ _ => ra) fa
    obtain ⟨a', b', g1, g2, g3⟩ := entry_merge hg hp i kd vd a1 b hk hv wk wv e1 e2 e3 e4 (.val _ _ _ o2) rb
      (merge_fits hg.good.wf wk o1 fa) fb
    refine ⟨a', b', ?_, g2, g3⟩
    rw [← e2, ← e1]
    exact .key _ _ _ _ _ _ _ _ _ _ (by rw [e1, e3]; decide) o1 g1
  | .value _ _ _ _ data rs x1 _ _ ho hp => fun i kd vd a b hk hv wk wv e1 e2 e3 e4 ra rb fa fb => by
    obtain ⟨b1, o1, o2⟩ := onto_merge hg ho vd b hv (fun _ _ => rb) fb
    obtain ⟨a', b', g1, g2, g3⟩ := entry_merge hg hp i kd vd a b1 hk hv wk wv e1 e2 e3 e4 ra (.val _ _ _ o2)
      fa (merge_fits hg.good.wf wv o1 fb)
    refine ⟨a', b', ?_, g2, g3⟩
    rw [← e4, ← e3]
    exact .val _ _ _ _ _ _ _ _ _ _ o1 g1
end

end Pb
