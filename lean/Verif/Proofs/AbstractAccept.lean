import Verif.Proofs.AbstractRead
/-
What Unmarshal makes of an input is what other readers make of it.
-/
namespace Pb
open Spec

theorem reprField_elem {P : Protos} {l : Label} {k : Kind} {c : Codec} {v : Val} {x : PField} (hc : GenCodec l k c) (he : ElemCodec k c)
    (hf : ∃ L, Fits L c.shape v) (h : ReprField P l k v x) : (l = .implicit ∨ l = .optional) ∧
    ((x = .unset ∧ ∀ t, k = .message t → v = .nilp) ∨ ∃ p, x = .one p ∧ ∀ t, k = .message t → ReprSlot P k v p) := by
  obtain ⟨L, hf⟩ := hf
  cases h with
  | scalar _ _ p h => exact ⟨.inl rfl, .inr ⟨_, rfl, fun t e => by subst e; cases h⟩⟩
  | bytes s => exact ⟨.inl rfl, .inr ⟨_, rfl, fun t e => by cases e⟩⟩
  | bytesNil => exact ⟨.inl rfl, .inr ⟨_, rfl, fun t e => by cases e⟩⟩
  | message _ t vs m hl h => exact ⟨hl, .inr ⟨_, rfl, fun t e => .val _ _ _ (.message _ _ _ h)⟩⟩
  | messageNil _ t hl => exact ⟨hl, .inl ⟨rfl, fun _ _ => rfl⟩⟩
  | some _ _ p h =>
    cases he with
    | normal _ s hs => cases hs <;> cases hf
    | required _ s hs => cases hs <;> cases hf
    | bytes => cases hf
    | message => cases hf
  | none =>
    cases he with
    | normal _ s hs => cases hs <;> cases hf
    | required _ s hs => cases hs <;> cases hf
    | bytes => cases hf
    | message => cases hf
  | optBytes s => exact ⟨.inr rfl, .inr ⟨_, rfl, fun t e => by cases e⟩⟩
  | optBytesNil => exact ⟨.inr rfl, .inl ⟨rfl, fun t e => by cases e⟩⟩
  | repeated => cases hc; cases he
  | map => cases hc; cases he

/-- Codecs with the shape of an element. -/
theorem genCodec_cases {l : Label} {k : Kind} {c : Codec} (h : GenCodec l k c) :
    (ElemCodec k c ∧ ∀ s, ¬ (l = .optional ∧ KindIs k s)) ∨ (∃ s, l = .optional ∧ KindIs k s ∧ c = .option s) ∨
    (∃ z c', c = .slice z c') ∨ (∃ i kc vc kd vd, c = .map i kc vc kd vd) := by
  cases h with
  | implicit _ _ h => exact .inl ⟨h, by simp⟩
  | option _ s h => exact .inr (.inl ⟨s, rfl, h, rfl⟩)
  | optional _ _ hs h => exact .inl ⟨h, fun s h => hs s h.2⟩
  | repeated => exact .inr (.inr (.inl ⟨_, _, rfl⟩))
  | map => exact .inr (.inr (.inr ⟨_, _, _, _, _, rfl⟩))

theorem genEnv_entry {P : Protos} {L : Layout} {env : Env} (hg : GenEnv P L env) {t : TypeId} {g : Field} (h : g ∈ (env t).fields) :
    ∃ (i : Nat) (f : ProtoField), (P t)[i]? = some f ∧ g.offset = i ∧ keyNumber g.tag.wiretag = f.number ∧
      keyType g.tag.wiretag = fieldWire f ∧ GenCodec f.label f.kind g.codec := by
  obtain ⟨f, hf, e⟩ := hg.only t g h
  obtain ⟨i, hi⟩ := List.getElem?_of_mem hf
  obtain ⟨g', hmem', ei, e1, e2, hc⟩ := hg.entry t i f hi
  have hgg : g' = g := by
    have hp := hg.good.distinct t
    obtain ⟨i, hi, rfl⟩ := List.getElem_of_mem h
    obtain ⟨j, hj, rfl⟩ := List.getElem_of_mem hmem'
    rw [List.pairwise_iff_getElem] at hp
    rcases Nat.lt_trichotomy i j with h | h | h
    · exact absurd (e.trans e1.symm) (hp i j hi hj h).2
    · subst h; rfl
    · exact absurd (e1.trans e.symm) (hp j i hj hi h).2
  subst hgg
  exact ⟨i, f, hi, ei, e1, e2, hc⟩

theorem elem_noBool {k : Kind} {c : Codec} (h : ElemCodec k c) (hk : k ≠ .bool) : c.noBool := by
  cases h with
  | normal _ s h => exact fun e => hk (kindIs_bool h e)
  | required _ s h => exact fun e => hk (kindIs_bool h e)
  | bytes => trivial
  | message => trivial

theorem genCodec_noBool {l : Label} {k : Kind} {c : Codec} (h : GenCodec l k c) (hk : k ≠ .bool) (hl : l ≠ .map .bool) : c.noBool := by
  cases h with
  | implicit _ _ h => exact elem_noBool h hk
  | option _ s h => exact fun e => hk (kindIs_bool h e)
  | optional _ _ _ h => exact elem_noBool h hk
  | repeated _ z c h => exact (elem_noBool h hk : c.noBool)
  | map key _ i kc vc kd vd _ h1 h2 => exact ⟨elem_noBool h1 fun e => hl (e ▸ rfl), elem_noBool h2 hk⟩

theorem merge_elem {P : Protos} {L : Layout} {c : Codec} {v v' : Val} {data : Bytes}
    (ih : ∀ k old, ElemCodec k c → (∀ t, k = .message t → ReprSlot P k v old) → Fits L c.shape v →
      ∃ new, ParseOnto P k old data new ∧ ReprVal P k v' new) {l : Label} {k : Kind} {x : PField} (hc : GenCodec l k c)
    (hr : ReprField P l k v x) (hf : Fits L c.shape v) (h1 : ∀ s, c ≠ .option s) (h2 : ∀ z c', c ≠ .slice z c')
    (h3 : ∀ i kc vc kd vd, c ≠ .map i kc vc kd vd) : ∃ new, ParseField P l k x data new ∧ ReprField P l k v' new := by
  rcases genCodec_cases hc with ⟨he, hs⟩ | ⟨s, _, _, e⟩ | ⟨z, c', e⟩ | ⟨i, kc, vc, kd, vd, e⟩
  · obtain ⟨hl, h⟩ := reprField_elem hc he ⟨L, hf⟩ hr
    rcases h with ⟨rfl, hv⟩ | ⟨p, rfl, hv⟩
    · obtain ⟨new, g1, g2⟩ := ih k (newVal P k) he (fun t e => by subst e; rw [hv t rfl]; exact .messageNil t) hf
      exact ⟨_, .first _ _ _ _ hl g1, reprField_scalar hl hc hs g2⟩
    · obtain ⟨new, g1, g2⟩ := ih k p he hv hf
      exact ⟨_, .set _ _ _ _ _ hl g1, reprField_scalar hl hc hs g2⟩
  · exact absurd e (h1 s)
  · exact absurd e (h2 z c')
  · exact absurd e (h3 i kc vc kd vd)

mutual
theorem merge_onto {P : Protos} {L : Layout} {env : Env} (hg : GenEnv P L env) {c : Codec} {v v' : Val} {data : Bytes} :
    Merge env c v data v' → ∀ k old, ElemCodec k c → (∀ t, k = .message t → ReprSlot P k v old) → Fits L c.shape v →
    ∃ new, ParseOnto P k old data new ∧ ReprVal P k v' new
  | .normal s _ _ _ h hb => fun k old hc _ _ => by
    cases hc with
    | normal _ _ hk =>
      have hf : ∃ p, ScalarIs k v' p := by cases hk <;> cases h <;> exact ⟨_, by constructor⟩
      obtain ⟨p, hp⟩ := hf
      exact ⟨p, .scalar _ _ _ _ (reads_denotes hk h hp) (fun e => hb (bool_kindIs hk e)), .scalar _ _ _ hp⟩
  | .required s _ _ _ h hb => fun k old hc _ _ => by
    cases hc with
    | required _ _ hk =>
      have hf : ∃ p, ScalarIs k v' p := by cases hk <;> cases h <;> exact ⟨_, by constructor⟩
      obtain ⟨p, hp⟩ := hf
      exact ⟨p, .scalar _ _ _ _ (reads_denotes hk h hp) (fun e => hb (bool_kindIs hk e)), .scalar _ _ _ hp⟩
  | .option .. => fun k old hc _ _ => by cases hc
  | .bytes _ _ s h => fun k old hc _ _ => by
    cases hc
    exact ⟨_, .scalar _ _ _ _ (.bytes _ s h) (by simp), .bytes s⟩
  | .ptrNew .. => fun k old hc _ _ => by cases hc
  | .ptrOld .. => fun k old hc _ _ => by cases hc
  | .msgNew t _ body rs vs vs' hz hb hr hm => fun k old hc hv hf => by
    have ih := merge_msg hg hm
    cases hc
    cases hv t rfl with
    | val _ _ _ h => cases h with | scalar _ _ _ h => cases h
    | messageNil =>
      rw [hg.good.wf.zero t] at hz
      cases hz
      obtain ⟨m', h1, h2⟩ := ih _ (zero_msg hg t) (fitsL_zero L (L t))
      exact ⟨_, .message _ _ _ _ _ _ hb hr h1, .message _ _ _ h2⟩
  | .msgOld t _ body rs vs vs' hb hr hm => fun k old hc hv hf => by
    have ih := merge_msg hg hm
    cases hc
    cases hv t rfl with
    | val _ _ _ h =>
      cases h with
      | scalar _ _ _ h => cases h
      | message _ _ m h =>
        obtain ⟨m', h1, h2⟩ := ih _ h (fitsL_of_msg hf)
        exact ⟨_, .message _ _ _ _ _ _ hb hr h1, .message _ _ _ h2⟩
  | .sliceGrow .. => fun k old hc _ _ => by cases hc
  | .sliceSlot .. => fun k old hc _ _ => by cases hc
  | .map .. => fun k old hc _ _ => by cases hc

theorem merge_field {P : Protos} {L : Layout} {env : Env} (hg : GenEnv P L env) {c : Codec} {v v' : Val} {data : Bytes} :
    Merge env c v data v' → (∀ k old, ElemCodec k c → (∀ t, k = .message t → ReprSlot P k v old) → Fits L c.shape v →
      ∃ new, ParseOnto P k old data new ∧ ReprVal P k v' new) →
    ∀ l k old, GenCodec l k c → c.WF → ReprField P l k v old → Fits L c.shape v →
    ∃ new, ParseField P l k old data new ∧ ReprField P l k v' new
  | .option s b old _ new h hb => fun _ l k x hc hw hr hf => by
    cases hc with
    | implicit _ _ h => cases h
    | optional _ _ _ h => cases h
    | option _ _ hk =>
      have hp : ∃ p, ScalarIs k new p := by cases hk <;> cases h <;> exact ⟨_, by constructor⟩
      obtain ⟨p, hp⟩ := hp
      have hd : ∀ o, ParseOnto P k o data p := fun o => .scalar _ _ _ _ (reads_denotes hk h hp) fun e => hb (bool_kindIs hk e)
      generalize hx : Val.opt b old = w at hr
      cases hr with
      | some _ _ q h => exact ⟨_, .set _ _ _ _ _ (.inr rfl) (hd q), .some _ _ _ hp⟩
      | none => exact ⟨_, .first _ _ _ _ (.inr rfl) (hd _), .some _ _ _ hp⟩
      | message => cases hx
      | messageNil => cases hx
      | optBytes => cases hx
      | optBytesNil => cases hx
  | .sliceGrow z c n es _ new h => fun _ l k x hc hw hr hf => by
    have ih := merge_onto hg h
    cases hc with
    | implicit _ _ h => cases h
    | optional _ _ _ h => cases h
    | repeated _ _ _ he =>
      obtain ⟨rfl, _⟩ := hw
      cases hr with
      | repeated _ _ _ _ ps hs hes =>
        obtain ⟨p, h1, h2⟩ := ih k (newVal P k) he (fun t ht => zero_slot he P) (fits_zero L _)
        refine ⟨_, .repeated _ _ _ _ h1, .repeated _ _ _ _ _ (fun t ht v hv => ?_) (reprList_append h2 hes)⟩
        subst ht
        rw [List.eq_of_mem_replicate hv]
        exact elem_zero_msg he
  | .sliceSlot z c n es slot sp _ new h => fun _ l k x hc hw hr hf => by
    have ih := merge_onto hg h
    cases hc with
    | implicit _ _ h => cases h
    | optional _ _ _ h => cases h
    | repeated _ _ _ he =>
      cases hr with
      | repeated _ _ _ _ ps hs hes =>
        simp only [Codec.shape] at hf
        cases hf with
        | slice _ _ _ _ _ hfe hfs =>
          obtain ⟨p, h1, h2⟩ := ih k (newVal P k) he (fun t ht => by
            subst ht
            rw [hs t rfl slot (by simp)]
            exact .messageNil t) (hfs slot (by simp))
          exact ⟨_, .repeated _ _ _ _ h1, .repeated _ _ _ _ _ (fun t ht v hv => hs t ht v (by simp [hv])) (reprList_append h2 hes)⟩
  | .map i kc vc kd vd n m _ body rs y w m' hb hrec hm ha => fun _ l k x hc hw hr hf => by
    have ih := merge_entry hg hm
    cases hc with
    | implicit _ _ h => cases h
    | optional _ _ _ h => cases h
    | map key _ _ _ _ _ _ hk hek hev e1 e2 e3 e4 =>
      obtain ⟨hkey, ks, vsh, kz, vz, _, _, hkw, hvw⟩ := hw
      cases hr with
      | map _ _ isNil m ps f hmr h1 h2 =>
        simp only [Codec.shape] at hf
        cases hf with
        | map _ _ _ _ hnil hnd hfk hfv =>
          have z1 : i.kzero = kd.shape.zero := by rw [kz, ks]
          have z2 : i.vzero = vd.shape.zero := by rw [vz, vsh]
          obtain ⟨a, p, g1, g2, g3⟩ := ih key k (newVal P key) (newVal P k) hek hev hkw hvw e1 e2 e3 e4
            (z1 ▸ zero_slot hek P) (z2 ▸ zero_slot hev P) (z1 ▸ fits_zero L _) (z2 ▸ fits_zero L _)
          have hs : ScalarIs key (Key.toVal y) a := by
            obtain ⟨s, hs⟩ := mapKey_scalar hk
            generalize Key.toVal y = q at g2 ⊢
            cases g2 with
            | val _ _ _ h =>
              cases h with
              | scalar _ _ _ h => exact h
              | bytes => cases hs
              | message => cases hs
            | bytesNil => cases hs
            | messageNil => cases hs
          obtain ⟨px, rfl⟩ : ∃ px : PKey, a = px.val := by
            generalize Key.toVal y = q at hs
            cases hk <;> cases hs
            · exact ⟨.bool _, rfl⟩
            · exact ⟨.int _, rfl⟩
            · exact ⟨.int _, rfl⟩
            · exact ⟨.int _, rfl⟩
            · exact ⟨.int _, rfl⟩
            · exact ⟨.text _, rfl⟩
          obtain ⟨ps', p1, p2, p3, p4⟩ := reprEntries_assign hs g3 hmr hnd
          rw [assign_mapAssign ha] at p1
          refine ⟨_, .map _ _ _ _ _ _ _ _ hb hrec g1, .map _ _ _ _ ps' _ p1 ?_ ?_⟩
          · intro e he
            rcases p2 e he with rfl | ⟨he, hne⟩
            · simp [putEntry]
            · simp only [putEntry, hne, if_false]; exact h1 e he
          · intro z hz
            have hzx : z ≠ px := fun h => hz _ p3 h.symm
            simp only [putEntry, hzx, if_false]
            refine h2 z fun e he hh => ?_
            exact hz e (p4 e he (fun h => hzx (hh ▸ h))) hh
  | .normal .. => fun ih l k x hc hw hr hf => merge_elem ih hc hr hf (by simp) (by simp) (by simp)
  | .required .. => fun ih l k x hc hw hr hf => merge_elem ih hc hr hf (by simp) (by simp) (by simp)
  | .bytes .. => fun ih l k x hc hw hr hf => merge_elem ih hc hr hf (by simp) (by simp) (by simp)
  | .ptrNew .. => fun ih l k x hc hw hr hf => merge_elem ih hc hr hf (by simp) (by simp) (by simp)
  | .ptrOld .. => fun ih l k x hc hw hr hf => merge_elem ih hc hr hf (by simp) (by simp) (by simp)
  | .msgNew .. => fun ih l k x hc hw hr hf => merge_elem ih hc hr hf (by simp) (by simp) (by simp)
  | .msgOld .. => fun ih l k x hc hw hr hf => merge_elem ih hc hr hf (by simp) (by simp) (by simp)

theorem merge_msg {P : Protos} {L : Layout} {env : Env} (hg : GenEnv P L env) {t : TypeId} {vs vs' : List Val} {rs : List (Nat × Nat × Bytes)} :
    MergeRecs env t vs rs vs' → ∀ m, ReprMsg P t vs m → FitsL L (L t) vs → ∃ m', ParseMsg P t m rs m' ∧ ReprMsg P t vs' m'
  | .nil _ _ => fun m h _ => ⟨m, .nil _ _, h⟩
  | .unknown _ _ n w data rs _ hn hm => fun m h hf => by
    obtain ⟨m', h1, h2⟩ := merge_msg hg hm m h hf
    refine ⟨m', .unknown _ _ _ _ _ _ _ (fun f hf e => ?_) h1, h2⟩
    obtain ⟨i, hi⟩ := List.getElem?_of_mem hf
    obtain ⟨g, hmem, _, e1, _⟩ := hg.entry t i f hi
    exact hn g hmem (e1.trans e)
  | .known _ _ num data rs _ g old new hd hv h1 h2 => fun m h hfit => by
    have ih1 := merge_field hg h1 (merge_onto hg h1)
    have ih2 := merge_msg hg h2
    obtain ⟨xs, ys, ef, en, _⟩ := hd
    have hmem : g ∈ (env t).fields := by rw [ef]; simp
    obtain ⟨i, f, hi, rfl, e1, e2, hc⟩ := genEnv_entry hg hmem
    have hf := List.mem_of_getElem? hi
    have hslot := hg.good.wf.slot t g hmem
    have hlt : g.offset < vs.length := by rw [hfit.1]; exact (List.getElem?_eq_some_iff.mp hslot).1
    have hfv := hfit.2 _ _ _ hslot hv
    obtain ⟨hr, hu⟩ : (∀ (i : Nat) f v, (P t)[i]? = some f → vs[i]? = some v → ReprField P f.label f.kind v (m f.number)) ∧
        ∀ n, (∀ f ∈ P t, f.number ≠ n) → m n = .unset := by cases h; exact ⟨by assumption, by assumption⟩
    have hcw := hg.good.wf.codec t g hmem
    obtain ⟨x, k1, k2⟩ := ih1 _ _ _ hc hcw (hr _ _ _ hi hv) hfv
    have hfit' : FitsL L (L t) (vs.set g.offset new) := fitsL_set hfit hslot (merge_fits hg.good.wf hcw h1 hfv)
    obtain ⟨m', p1, p2⟩ := ih2 _ (reprMsg_set hg hr hu hi hlt k2) hfit'
    refine ⟨m', ?_, p2⟩
    rw [← en, e2, e1]
    exact .known _ _ f _ _ _ _ hf k1 p1

theorem merge_entry {P : Protos} {L : Layout} {env : Env} (hg : GenEnv P L env) {i : MapInfo} {kd vd : Codec} {a b a' b' : Val} {rs : List (Nat × Nat × Bytes)} :
    MergeEntry env i kd vd a b rs a' b' → ∀ key k x v, ElemCodec key kd → ElemCodec k vd → kd.WF → vd.WF → keyNumber i.eKey = 1 →
    keyType i.eKey = kindWire key → keyNumber i.eVal = 2 → keyType i.eVal = kindWire k → ReprSlot P key a x → ReprSlot P k b v →
    Fits L kd.shape a → Fits L vd.shape b →
    ∃ x' v', ParseEntry P key k x v rs x' v' ∧ ReprSlot P key a' x' ∧ ReprSlot P k b' v'
  | .nil .. => fun key k x v _ _ _ _ _ _ _ _ ra rb _ _ => ⟨x, v, .nil _ _ _ _, ra, rb⟩
  | .unknown _ _ _ _ _ n w data rs _ _ h1 h2 hm => fun key k x v hk hv wk wv e1 e2 e3 e4 ra rb fa fb => by
    obtain ⟨x', v', g1, g2, g3⟩ := merge_entry hg hm key k x v hk hv wk wv e1 e2 e3 e4 ra rb fa fb
    exact ⟨x', v', .unknown _ _ _ _ _ _ _ _ _ _ (by rw [e1] at h1; exact h1) (by rw [e3] at h2; exact h2) g1, g2, g3⟩
  | .key _ _ _ _ _ data rs k1 _ _ _ ho hm => fun key k x v hk hv wk wv e1 e2 e3 e4 ra rb fa fb => by
    obtain ⟨x1, o1, o2⟩ := merge_onto hg ho key x hk (fun _ _ => ra) fa
    obtain ⟨x', v', g1, g2, g3⟩ := merge_entry hg hm key k x1 v hk hv wk wv e1 e2 e3 e4 (.val _ _ _ o2) rb
      (merge_fits hg.good.wf wk ho fa) fb
    refine ⟨x', v', ?_, g2, g3⟩
    rw [e2, e1]
    exact .key _ _ _ _ _ _ _ _ _ o1 g1
  | .val _ _ _ _ _ data rs v1 _ _ ho hm => fun key k x v hk hv wk wv e1 e2 e3 e4 ra rb fa fb => by
    obtain ⟨y, o1, o2⟩ := merge_onto hg ho k v hv (fun _ _ => rb) fb
    obtain ⟨x', v', g1, g2, g3⟩ := merge_entry hg hm key k x y hk hv wk wv e1 e2 e3 e4 ra (.val _ _ _ o2)
      fa (merge_fits hg.good.wf wv ho fb)
    refine ⟨x', v', ?_, g2, g3⟩
    rw [e4, e3]
    exact .value _ _ _ _ _ _ _ _ _ o1 g1
end

end Pb
