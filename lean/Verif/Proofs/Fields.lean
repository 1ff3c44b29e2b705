import Verif.Spec.Fields
import Verif.Proofs.Trip
import Verif.Props.Decode
/-
Helper lemmas for the field-level properties.
-/
namespace Pb
open Spec Props

theorem decodeBytes_body {data s : Bytes} (h : BytesAs data s) (old : Option Bytes) :
    decodeBytes data (.bytes old) = .ok (.ok (.bytes (some s)) data.length) := by
  obtain ⟨p, hp, rfl⟩ := h
  simp [decodeBytes, decodeVarlen_payload hp, bind, Except.bind, pure, Except.pure, DRes.mk]

/-- A complete payload for a singular field is always accepted. -/
theorem dec_singular {L : Layout} {env : Env} : ∀ {c : Codec} {w : Nat} {data : Bytes} {old : Val}, c.isSingular → c.WF →
    c.Reads w → Payload w data → (c.isBool → data.length = 1) → Fits L c.shape old →
    ∃ new, dec env c data old = .ok (.ok new data.length) ∧ Latest c data new := by
  intro c
  induction c with
  | normal s =>
    intro w data old _ _ hr hp hb hf
    simp only [Codec.Reads] at hr; subst hr
    obtain ⟨v, h1, h2⟩ := decodeScalar_payload hf hp hb
    exact ⟨v, h1, .normal _ _ _ h2⟩
  | required s =>
    intro w data old _ _ hr hp hb hf
    simp only [Codec.Reads] at hr; subst hr
    obtain ⟨v, h1, h2⟩ := decodeScalar_payload hf hp hb
    exact ⟨v, h1, .required _ _ _ h2⟩
  | option s =>
    intro w data old _ _ hr hp hb hf
    simp only [Codec.Reads] at hr; subst hr
    simp only [Codec.shape] at hf
    have : ∃ b v, old = .opt b v ∧ Fits L s.shape v := by
      cases hf with
      | none => exact ⟨_, _, rfl, fits_zero _ _⟩
      | some _ v h => exact ⟨_, _, rfl, h⟩
    obtain ⟨b, v, rfl, hv⟩ := this
    obtain ⟨v', h1, h2⟩ := decodeScalar_payload hv hp hb
    refine ⟨.opt true v', ?_, .option _ _ _ h2⟩
    simp [dec, codecDecode, decodeOption, h1, bind, Except.bind, pure, Except.pure, DRes.wrap]
  | bytes =>
    intro w data old _ _ hr hp _ hf
    simp only [Codec.Reads] at hr; subst hr
    obtain ⟨s, hs, _⟩ := payload_varlen hp
    simp only [Codec.shape] at hf
    cases hf with
    | bytes x => exact ⟨_, decodeBytes_body hs x, .bytes _ _ hs⟩
  | ptr z c ih =>
    intro w data old hc hwf hr hp hb hf
    simp only [Codec.shape] at hf
    cases hf with
    | ptrNil =>
      have hz : Fits L c.shape z := by rw [hwf.1]; exact fits_zero _ _
      obtain ⟨v, h1, h2⟩ := ih hc hwf.2 hr hp hb hz
      refine ⟨.ptr v, ?_, .ptr _ _ _ _ h2⟩
      unfold dec at h1
      simp [dec, codecDecode, h1, bind, Except.bind, pure, Except.pure, DRes.wrap]
    | ptr _ u hu =>
      obtain ⟨v, h1, h2⟩ := ih hc hwf.2 hr hp hb hu
      refine ⟨.ptr v, ?_, .ptr _ _ _ _ h2⟩
      unfold dec at h1
      simp [dec, codecDecode, h1, bind, Except.bind, pure, Except.pure, DRes.wrap]
  | msg t => intro _ _ _ h; exact h.elim
  | slice z c ih => intro _ _ _ h; exact h.elim
  | map i kc vc kd vd => intro _ _ _ h; exact h.elim

theorem latest_unique : ∀ {c : Codec} {data : Bytes} {v w : Val}, Latest c data v → Latest c data w → v = w
  | _, _, _, _, .normal _ _ _ h, .normal _ _ _ h' => readsAs_unique h h'
  | _, _, _, _, .required _ _ _ h, .required _ _ _ h' => readsAs_unique h h'
  | _, _, _, _, .option _ _ _ h, .option _ _ _ h' => by rw [readsAs_unique h h']
  | _, _, _, _, .bytes _ _ ⟨p, hp, e⟩, .bytes _ _ ⟨q, hq, e'⟩ => by
    have := hp.1.prefix_unique hq.1 (e.symm.trans e')
    obtain ⟨rfl, _, _⟩ := this
    rw [e] at e'
    rw [List.append_cancel_left e']
  | _, _, _, _, .ptr _ _ _ _ h, .ptr _ _ _ _ h' => by rw [latest_unique h h']

/-- One record of a declared field after an accepted part. -/
theorem unmarshal_known {env : Env} {t : TypeId} {a u r data : Bytes} {num : Nat} {f : Field} {vs vs1 : List Val}
    {old new : Val} (ha : unmarshal env a (.msg t (.struct vs)) = .ok ⟨.msg t (.struct vs1), none⟩)
    (hf : Declared (env t).fields num f) (hu : Record u num (keyType f.tag.wiretag) data)
    (ho : vs1[f.offset]? = some old) (hd : dec env f.codec data old = .ok (.ok new data.length)) :
    unmarshal env (a ++ (u ++ r)) (.msg t (.struct vs)) = unmarshal env r (.msg t (.struct (vs1.set f.offset new))) := by
  rw [C07_concat_is_merge t _ _ _ _ ha, unmarshal_eq, unmarshal_eq,
    run_known (f := toD (zerosOf env) (decM env) f) hu (idxM_declared hf) ho hd]
  rfl

/-- One record of a declared field that fails inside, after an accepted part. -/
theorem unmarshal_known_err {env : Env} {t : TypeId} {a u r data : Bytes} {num : Nat} {f : Field} {vs vs1 : List Val}
    {old new : Val} {e : Err} (ha : unmarshal env a (.msg t (.struct vs)) = .ok ⟨.msg t (.struct vs1), none⟩)
    (hf : Declared (env t).fields num f) (hu : Record u num (keyType f.tag.wiretag) data)
    (ho : vs1[f.offset]? = some old) (hd : dec env f.codec data old = .ok (.err new e)) :
    unmarshal env (a ++ (u ++ r)) (.msg t (.struct vs)) =
      .ok ⟨.msg t (.struct (vs1.set f.offset new)), some (.decode (.field num (keyType f.tag.wiretag) e))⟩ := by
  rw [C07_concat_is_merge t _ _ _ _ ha]
  apply unmarshal_err_iff.mpr
  rw [run_cons _ _ _ (record_ne_nil hu), stepS_known (f := toD (zerosOf env) (decM env) f) hu (idxM_declared hf)]
  have : (toD (zerosOf env) (decM env) f).dec data old = .ok (.err new e) := hd
  have h2 : vs1[(toD (zerosOf env) (decM env) f).offset]? = some old := ho
  simp only [slotOf, h2, this]
  rfl

/-- The slot of a field after an accepted input: its payloads, decoded one after the other. -/
theorem slot_of_accepted {env : Env} (hr : ReadsOK env) {t : TypeId} {b : Bytes} {rs} {vs vs' : List Val} {num : Nat}
    {f : Field} {old : Val} (hb : BoolsShort (env t).fields b) (hd : DistinctSlots (env t).fields)
    (hrec : Records b rs) (h : unmarshal env b (.msg t (.struct vs)) = .ok ⟨.msg t (.struct vs'), none⟩)
    (hf : Declared (env t).fields num f) (ho : vs[f.offset]? = some old) :
    ∃ new, vs'[f.offset]? = some new ∧ DecAll (dec env f.codec) (payloadsFor num rs) old new := by
  have h1 := unmarshal_ok_iff.mp h
  rw [fold_of_run hr t hrec hb] at h1
  refine slot_fold (f := toD (zerosOf env) (decM env) f) (idxM_declared hf) ?_ rs vs vs' old h1 ho
  intro n g hg he
  obtain ⟨g', hg', rfl⟩ := idxM_some hg
  have : g' = f := hd _ hg'.mem _ hf.mem he
  subst this
  rw [← hg'.num, hf.num]

/-- Payloads of a declared number have the declared wire type in an accepted input. -/
theorem payloadsFor_wt {env : Env} (hr : ReadsOK env) {t : TypeId} {b : Bytes} {rs} {vs vs' : List Val} {num : Nat}
    {f : Field} (hb : BoolsShort (env t).fields b) (hrec : Records b rs)
    (h : unmarshal env b (.msg t (.struct vs)) = .ok ⟨.msg t (.struct vs'), none⟩)
    (hf : Declared (env t).fields num f) :
    ∀ d ∈ payloadsFor num rs, Payload (keyType f.tag.wiretag) d ∧ (f.codec.isBool → d.length = 1) := by
  intro d hd
  have h1 := unmarshal_ok_iff.mp h
  rw [fold_of_run hr t hrec hb] at h1
  obtain ⟨r, hr1, hr2, hr3⟩ := datasOf_mem hd
  have hw := foldRecs_wt rs vs vs' h1 r hr1 _ (by rw [hr2]; exact idxM_declared hf)
  have hw : r.2.1 = keyType f.tag.wiretag := hw
  -- the record in the input
  have key : ∀ b rs, Records b rs → ∀ r ∈ rs, ∃ a as u q, b = a ++ (u ++ q) ∧ Records a as ∧ Record u r.1 r.2.1 r.2.2 := by
    intro b rs h
    induction h with
    | nil => simp
    | cons u bs num wt data rs hu hbs ih =>
      intro r hr
      rcases List.mem_cons.mp hr with rfl | hr
      · exact ⟨[], [], u, bs, by simp, .nil, hu⟩
      · obtain ⟨a, as, u', q, rfl, ha, hu'⟩ := ih r hr
        exact ⟨u ++ a, _, u', q, by simp, .cons _ _ _ _ _ _ hu ha, hu'⟩
  obtain ⟨a, as, u, q, e, ha, hu⟩ := key b rs hrec r hr1
  subst hr3
  obtain ⟨p, _, hp, _⟩ := hu
  refine ⟨hw ▸ hp, fun hbool => ?_⟩
  obtain ⟨a, as, u, q, e, ha, hu⟩ := key b rs hrec r hr1
  exact hb a as u r.1 r.2.1 r.2.2 q e ha hu f hf.mem (by rw [hf.num, hr2]) hbool

theorem decAll_snoc {dec : Bytes → Val → Except Fault DRes} {ds : List Bytes} {d : Bytes} {v x : Val}
    (h : DecAll dec (ds ++ [d]) v x) : ∃ w m, DecAll dec ds v w ∧ dec d w = .ok (.ok x m) := by
  induction ds generalizing v with
  | nil =>
    cases h with
    | cons _ _ _ w _ m h1 h2 => cases h2; exact ⟨v, m, .nil v, h1⟩
  | cons c ds ih =>
    cases h with
    | cons _ _ _ w _ m h1 h2 =>
      obtain ⟨w', m', h3, h4⟩ := ih h2
      exact ⟨w', m', .cons _ _ _ _ _ _ h1 h3, h4⟩

theorem decAll_fits {L : Layout} {env : Env} (hwf : WFEnv L env) {c : Codec} (hc : c.WF) {ds : List Bytes} {v w : Val}
    (h : DecAll (dec env c) ds v w) (hv : Fits L c.shape v) : Fits L c.shape w := by
  induction h with
  | nil => exact hv
  | cons d ds v w x m h1 _ ih => exact ih (dec_fits hwf hc hv h1)

/-! ### repeated fields -/

theorem growIfFull_cons (z : Val) (es sp : List Val) :
    ∃ slot sp', growIfFull z es sp = slot :: sp' ∧ ((sp = [] ∧ slot = z ∧ ∀ x ∈ sp', x = z) ∨ sp = slot :: sp') := by
  cases sp with
  | cons s sp => exact ⟨s, sp, by simp [growIfFull], .inr rfl⟩
  | nil =>
    unfold growIfFull
    simp only [if_true, List.length_nil, Nat.add_zero]
    generalize hk : (if 2 * es.length = 0 then 10 else 2 * es.length) - es.length = k
    have : k ≠ 0 := by
      rw [← hk]; split <;> omega
    obtain ⟨j, rfl⟩ : ∃ j, k = j + 1 := ⟨k - 1, by omega⟩
    exact ⟨z, List.replicate j z, by simp [List.replicate_succ], .inl ⟨trivial, rfl, fun x hx => (List.mem_replicate.mp hx).2⟩⟩

theorem dec_slice_inv {env : Env} {z : Val} {c : Codec} {data : Bytes} {n : Bool} {es sp : List Val} {v' : Val} {m : Nat}
    (h : dec env (.slice z c) data (.slice n es sp) = .ok (.ok v' m)) :
    ∃ slot n' sp' new, v' = .slice n' (es ++ [new]) sp' ∧ dec env c data slot = .ok (.ok new m) ∧
      ((sp = [] ∧ slot = z ∧ ∀ x ∈ sp', x = z) ∨ sp = slot :: sp') := by
  obtain ⟨slot, sp', hg, hs⟩ := growIfFull_cons z es sp
  simp only [dec, codecDecode, hg, bind, Except.bind, pure, Except.pure] at h
  rcases hd : codecDecode (zerosOf env) (decM env) c data slot with e | ⟨new, k⟩ | ⟨new, e⟩
  · simp [hd] at h
  · simp only [hd, Except.ok.injEq, DRes.ok.injEq] at h
    obtain ⟨rfl, rfl⟩ := h
    exact ⟨slot, _, sp', new, rfl, hd, hs⟩
  · simp [hd] at h

theorem decAll_slice {env : Env} {z : Val} {c : Codec} {ds : List Bytes} {n : Bool} {es sp : List Val} {v' : Val}
    (h : DecAll (dec env (.slice z c)) ds (.slice n es sp) v') :
    ∃ n' news sp', v' = .slice n' (es ++ news) sp' ∧ news.length = ds.length ∧
      (∀ x ∈ sp', x = z ∨ x ∈ sp) ∧
      ∀ (i : Nat) d new, ds[i]? = some d → news[i]? = some new →
        ∃ slot m, dec env c d slot = .ok (.ok new m) ∧ (slot = z ∨ slot ∈ sp) := by
  generalize hv : Val.slice n es sp = v at h
  induction h generalizing n es sp with
  | nil v =>
    subst hv
    exact ⟨n, [], sp, by simp, rfl, fun x hx => .inr hx, by simp⟩
  | cons d ds v w x m h1 _ ih =>
    subst hv
    obtain ⟨slot, n', sp', new, rfl, hd, hs⟩ := dec_slice_inv h1
    obtain ⟨n'', news, sp'', rfl, hl, hsp, hel⟩ := ih rfl
    have hsub : ∀ x ∈ sp', x = z ∨ x ∈ sp := by
      rcases hs with ⟨_, _, hz⟩ | rfl
      · exact fun x hx => .inl (hz x hx)
      · exact fun x hx => .inr (by simp [hx])
    refine ⟨n'', new :: news, sp'', by simp, by simp [hl], ?_, ?_⟩
    · intro x hx
      rcases hsp x hx with rfl | hx
      · exact .inl rfl
      · exact hsub x hx
    · intro i d' new' hi hn
      cases i with
      | zero =>
        simp at hi hn; subst hi hn
        refine ⟨slot, m, hd, ?_⟩
        rcases hs with ⟨_, rfl, _⟩ | rfl
        · exact .inl rfl
        · exact .inr (by simp)
      | succ i =>
        obtain ⟨s, k, h1, h2⟩ := hel i d' new' (by simpa using hi) (by simpa using hn)
        refine ⟨s, k, h1, ?_⟩
        rcases h2 with rfl | h2
        · exact .inl rfl
        · exact hsub s h2

/-! ### nested messages -/

/-- A nested message record is Unmarshal of its body into the target. -/
theorem dec_msg_unmarshal {env : Env} {t : TypeId} {data body : Bytes} {old : Val} {vs : List Val} (hb : BytesAs data body)
    (ho : msgTarget (zerosOf env t) old = .ok (.struct vs)) :
    dec env (.msg t) data old = match unmarshal env body (.msg t (.struct vs)) with
      | .error e => .error e
      | .ok ⟨.msg _ v, none⟩ => .ok (.ok (.ptr v) data.length)
      | .ok ⟨.msg _ v, some (.decode e)⟩ => .ok (.err (.ptr v) e)
      | _ => .error .confused := by
  obtain ⟨p, hp, rfl⟩ := hb
  unfold dec
  rw [codecDecode_msg, ho, unmarshal_eq]
  simp only [decodeVarint_of hp, List.drop_left, decM_eq]
  rcases run (idxM env t) body vs with e | ⟨vs', _ | e⟩ <;> simp [toDRes]

theorem dec_msg_inv {L : Layout} {env : Env} (hwf : WFEnv L env) {t : TypeId} {data body : Bytes} {old new : Val} {m : Nat}
    (hb : BytesAs data body) (hf : Fits L (.msg t) old) (h : dec env (.msg t) data old = .ok (.ok new m)) :
    ∃ vs vs', ((old = .nilp ∧ .struct vs = (env t).zero) ∨ old = .ptr (.struct vs)) ∧ new = .ptr (.struct vs') ∧
      unmarshal env body (.msg t (.struct vs)) = .ok ⟨.msg t (.struct vs'), none⟩ := by
  have : ∃ vs, ((old = .nilp ∧ .struct vs = (env t).zero) ∨ old = .ptr (.struct vs)) ∧
      msgTarget (zerosOf env t) old = .ok (.struct vs) := by
    cases hf with
    | msgNil => exact ⟨_, .inl ⟨rfl, (hwf.zero t).symm⟩, by simp [msgTarget, zerosOf, hwf.zero t]⟩
    | msg _ vs _ _ => exact ⟨vs, .inr rfl, rfl⟩
  obtain ⟨vs, h1, h2⟩ := this
  rw [dec_msg_unmarshal hb h2, unmarshal_eq] at h
  rcases hr : run (idxM env t) body vs with e | ⟨vs', _ | e⟩ <;> rw [hr] at h <;> simp at h
  exact ⟨vs, vs', h1, h.1.symm, unmarshal_ok_iff.mpr hr⟩

theorem decAll_msg {L : Layout} {env : Env} (hwf : WFEnv L env) {t : TypeId} {ds bs : List Bytes} {vs : List Val} {new : Val}
    (hb : Bodies ds bs) (hf : Fits L (.msg t) (.ptr (.struct vs)))
    (h : DecAll (dec env (.msg t)) ds (.ptr (.struct vs)) new) :
    ∃ vs', new = .ptr (.struct vs') ∧
      unmarshal env bs.flatten (.msg t (.struct vs)) = .ok ⟨.msg t (.struct vs'), none⟩ := by
  induction hb generalizing vs with
  | nil => cases h; exact ⟨vs, rfl, by simp [unmarshal]⟩
  | cons d ds body bs hd _ ih =>
    cases h with
    | cons _ _ _ w _ m h1 h2 =>
      have hw : Fits L (.msg t) w := dec_fits hwf (c := .msg t) trivial hf h1
      obtain ⟨vs0, vs1, h3, rfl, h4⟩ := dec_msg_inv hwf hd hf h1
      have : vs0 = vs := by simpa [eq_comm] using h3
      subst this
      obtain ⟨vs', rfl, h5⟩ := ih hw h2
      exact ⟨vs', rfl, by rw [List.flatten_cons, C07_concat_is_merge t _ _ _ _ h4, h5]⟩

/-! ### maps -/

theorem lookup_assign {m m' : List (Key × Val)} {k : Key} {v : Val} (h : Assign m k v m') (k' : Key) :
    m'.lookup k' = ((k, v) :: m).lookup k' := by
  have hne : ∀ (m : List (Key × Val)), (∀ e ∈ m, e.1 ≠ k) → ∀ r, (m ++ r).lookup k = r.lookup k := by
    intro m
    induction m with
    | nil => intro _ r; rfl
    | cons e m ih =>
      intro he r
      obtain ⟨e1, e2⟩ := e
      have : (k == e1) = false := by simp; exact fun h => he (e1, e2) (by simp) h.symm
      simp only [List.cons_append, List.lookup_cons, this]
      exact ih (fun e h => he e (by simp [h])) r
  have hother : ∀ (m r : List (Key × Val)) w w', (k' == k) = false →
      (m ++ (k, w) :: r).lookup k' = (m ++ (k, w') :: r).lookup k' ∧ (m ++ (k, w) :: r).lookup k' = (m ++ r).lookup k' := by
    intro m r w w' hk
    induction m with
    | nil => simp [List.lookup_cons, hk]
    | cons e m ih =>
      obtain ⟨e1, e2⟩ := e
      simp only [List.cons_append, List.lookup_cons]
      split
      · exact ⟨rfl, rfl⟩
      · exact ih
  by_cases hk : k' = k
  · subst hk
    cases h with
    | new _ _ _ h => rw [hne _ h]; simp
    | old m₁ m₂ _ _ w h => rw [hne _ h]; simp
  · have hk : (k' == k) = false := by simp [hk]
    rw [List.lookup_cons, hk]
    simp only
    cases h with
    | new _ _ _ h =>
      have := (hother m [] v v hk).2
      simpa using this
    | old m₁ m₂ _ _ w h => exact (hother m₁ m₂ v w hk).1

theorem idxM_entry {env : Env} {e : TypeId} {i : MapInfo} {kd vd : Codec} (h : (env e).fields = entryFields i kd vd) :
    idxM env e = entryIdx (zerosOf env) (decM env) i kd vd := by
  funext n
  unfold idxM entryIdx
  rw [h]
  simp only [entryFields, lookup, List.reverse_cons, List.reverse_nil, List.nil_append, List.cons_append,
    List.find?_cons, List.find?_nil]
  by_cases h1 : n = keyNumber i.eVal
  · simp [h1, toD]
  · by_cases h2 : n = keyNumber i.eKey
    · have h3 : ¬ keyNumber i.eKey = keyNumber i.eVal := fun e => h1 (h2.trans e)
      simp [h2, h3, toD]
    · simp [h1, h2]

/-- A map record is Unmarshal of its body into a zero entry struct and one assignment. -/
theorem dec_map_inv {env : Env} {e : TypeId} {i : MapInfo} {kc vc kd vd : Codec} {data body : Bytes} {n : Bool}
    {m : List (Key × Val)} {v' : Val} {l : Nat} (he : (env e).fields = entryFields i kd vd) (hb : BytesAs data body)
    (h : dec env (.map i kc vc kd vd) data (.map n m) = .ok (.ok v' l)) :
    ∃ kv k v m', unmarshal env body (.msg e (.struct [i.kzero, i.vzero])) = .ok ⟨.msg e (.struct [kv, v]), none⟩ ∧
      kv.toKey? = some k ∧ Assign m k v m' ∧ v' = .map false m' := by
  obtain ⟨p, hp, rfl⟩ := hb
  unfold dec at h
  rw [codecDecode_map _ _ _ _ _ _ _ (bounded_codec _ _ (bounded_decM env) _) (bounded_codec _ _ (bounded_decM env) _)] at h
  have hne : p ++ body ≠ [] := by have := hp.1.length_pos; intro e; simp at e; simp [e] at this
  simp only [hne, if_false, decodeVarint_of hp, List.drop_left, ← idxM_entry he] at h
  rcases hr : run (idxM env e) body [i.kzero, i.vzero] with er | ⟨vs', _ | er⟩
  · simp [hr] at h
  · simp only [hr] at h
    split at h
    · simp at h
    · simp at h
    · rename_i k v heq
      simp only [Except.ok.injEq, Prod.mk.injEq, and_true] at heq
      subst heq
      cases hk : k.toKey? with
      | none => simp [hk] at h
      | some key =>
        simp only [hk, Except.ok.injEq, DRes.ok.injEq] at h
        obtain ⟨rfl, _⟩ := h
        exact ⟨k, key, v, _, unmarshal_ok_iff.mpr hr, hk, mapAssign_assign _ _ _, rfl⟩
    · simp at h
  · simp [hr] at h

theorem decAll_map {env : Env} {e : TypeId} {i : MapInfo} {kc vc kd vd : Codec} {ds bs : List Bytes} {n : Bool}
    {m : List (Key × Val)} {v' : Val} (he : (env e).fields = entryFields i kd vd) (hb : Bodies ds bs)
    (h : DecAll (dec env (.map i kc vc kd vd)) ds (.map n m) v') :
    ∃ n' m' kvs, v' = .map n' m' ∧ (ds ≠ [] → n' = false) ∧ Entries env e i bs kvs ∧
      ∀ k, m'.lookup k = (kvs.reverse ++ m).lookup k := by
  induction hb generalizing n m with
  | nil => cases h; exact ⟨n, m, [], rfl, by simp, .nil, by simp⟩
  | cons d ds body bs hd _ ih =>
    cases h with
    | cons _ _ _ w _ l h1 h2 =>
      obtain ⟨kv, k, v, m1, hu, hk, ha, rfl⟩ := dec_map_inv he hd h1
      obtain ⟨n', m', kvs, rfl, hn, hkv, hl⟩ := ih h2
      have hn' : n' = false := by
        cases h2 with
        | nil => rfl
        | cons => exact hn (by simp)
      have hko : k.toVal = kv := by
        cases kv <;> simp [Val.toKey?] at hk <;> subst hk <;> rfl
      refine ⟨n', m', (k, v) :: kvs, rfl, fun _ => hn', .cons _ _ _ _ _ (by rw [hko]; exact hu) hkv, fun k' => ?_⟩
      rw [hl k', List.reverse_cons, List.append_assoc, List.lookup_append, lookup_assign ha, List.lookup_append]
      rfl

/-! ### records of an encoding -/

theorem payloadsFor_append (num : Nat) (rs ss : List (Nat × Nat × Bytes)) :
    payloadsFor num (rs ++ ss) = payloadsFor num rs ++ payloadsFor num ss := by simp [payloadsFor]

theorem payloadsFor_same (w : U64) (ds : List Bytes) :
    payloadsFor (keyNumber w) (ds.map fun d => (keyNumber w, keyType w, d)) = ds := by
  induction ds with
  | nil => rfl
  | cons d ds ih => simpa [payloadsFor] using ih

theorem payloadsFor_other {num : Nat} {rs : List (Nat × Nat × Bytes)} (h : ∀ r ∈ rs, r.1 ≠ num) : payloadsFor num rs = [] := by
  unfold payloadsFor
  have : (rs.filter fun r => decide (r.1 = num)) = [] := by
    rw [List.filter_eq_nil_iff]
    intro r hr; simpa using h r hr
  rw [this]; rfl

/-- The records of an encoded message: per field, the payloads that encode its value. -/
theorem fieldRecords {L : Layout} {env : Env} (hg : Good L env) : ∀ {fs : List Field} {vs : List Val} {b : Bytes},
    EncodesMsg env fs vs b → ∀ t, (∀ f ∈ fs, f ∈ (env t).fields) →
      fs.Pairwise (fun f g => keyNumber f.tag.wiretag ≠ keyNumber g.tag.wiretag) → FitsL L (L t) vs → b.length < 2 ^ 64 →
      ∃ rs, Records b rs ∧ (∀ r ∈ rs, ∃ f ∈ fs, r.1 = keyNumber f.tag.wiretag ∧ r.2.1 = keyType f.tag.wiretag) ∧
        ∀ f ∈ fs, ∃ v ds, vs[f.offset]? = some v ∧ Encodes env f.codec v ds ∧
          payloadsFor (keyNumber f.tag.wiretag) rs = ds
  | _, _, _, .nil vs => fun t hsub hd hf hl => ⟨[], .nil, by simp, by simp⟩
  | _, _, _, .cons f fs vs v ds b hv he hes => fun t hsub hd hf hl => by
    have hmem := hsub f (by simp)
    simp only [List.length_append] at hl
    have len_of : ∀ (w : U64) (ds : List Bytes) (d : Bytes), d ∈ ds → d.length ≤ (recordsOf w ds).length := by
      intro w ds d hd
      induction ds with
      | nil => simp at hd
      | cons x xs ih =>
        rw [recordsOf_cons]
        rcases List.mem_cons.mp hd with rfl | hd
        · simp; omega
        · have := ih hd; simp; omega
    have hfit : Fits L f.codec.shape v := hf.2 _ _ _ (hg.wf.slot t f hmem) hv
    obtain ⟨hpay, _⟩ := (back_codec hg he (keyType f.tag.wiretag) f.tag.wiretag (hg.wf.codec t f hmem)
      (hg.writes t f hmem) hfit (fun d hd => by have := len_of f.tag.wiretag ds d hd; omega)).2 (hg.supported t f hmem)
    rw [List.pairwise_cons] at hd
    obtain ⟨rs, h1, h2, h3⟩ := fieldRecords hg hes t (fun g hgm => hsub g (by simp [hgm])) hd.2 hf (by omega)
    refine ⟨_, records_append (records_of_payloads hpay) h1, fun r hr => ?_, fun g hgm => ?_⟩
    · rcases List.mem_append.mp hr with hr | hr
      · obtain ⟨d, _, rfl⟩ := List.mem_map.mp hr
        exact ⟨f, by simp, rfl, rfl⟩
      · obtain ⟨g, hgm, h3⟩ := h2 r hr
        exact ⟨g, by simp [hgm], h3⟩
    · rcases List.mem_cons.mp hgm with rfl | hgm
      · refine ⟨v, ds, hv, he, ?_⟩
        rw [payloadsFor_append, payloadsFor_same, payloadsFor_other, List.append_nil]
        intro r hr e
        obtain ⟨g', hg', h4, _⟩ := h2 r hr
        exact hd.1 g' hg' (e.symm.trans h4)
      · obtain ⟨v', ds', h4, h5, h6⟩ := h3 g hgm
        refine ⟨v', ds', h4, h5, ?_⟩
        rw [payloadsFor_append, h6, payloadsFor_other, List.nil_append]
        intro r hr e
        obtain ⟨d, _, rfl⟩ := List.mem_map.mp hr
        exact hd.1 g hgm e

theorem dec_slice_ok {env : Env} {z : Val} {c : Codec} {data : Bytes} {n : Bool} {es sp sp' : List Val} {slot new : Val}
    {m : Nat} (hg : growIfFull z es sp = slot :: sp') (h : dec env c data slot = .ok (.ok new m)) :
    ∃ n', dec env (.slice z c) data (.slice n es sp) = .ok (.ok (.slice n' (es ++ [new]) sp') m) := by
  refine ⟨if sp = [] then false else n, ?_⟩
  have h' : codecDecode (zerosOf env) (decM env) c data slot = .ok (.ok new m) := h
  simp only [dec, codecDecode, hg, bind, Except.bind, pure, Except.pure, h']

theorem dec_slice_err {env : Env} {z : Val} {c : Codec} {data : Bytes} {n : Bool} {es sp sp' : List Val} {slot new : Val}
    {e : Err} (hg : growIfFull z es sp = slot :: sp') (h : dec env c data slot = .ok (.err new e)) :
    ∃ n', dec env (.slice z c) data (.slice n es sp) = .ok (.err (.slice n' es (new :: sp')) e) := by
  refine ⟨if sp = [] then false else n, ?_⟩
  have h' : codecDecode (zerosOf env) (decM env) c data slot = .ok (.err new e) := h
  simp only [dec, codecDecode, hg, bind, Except.bind, pure, Except.pure, h']

theorem dec_map_run {env : Env} {e : TypeId} {i : MapInfo} {kc vc kd vd : Codec} {data body : Bytes} {n : Bool}
    {m : List (Key × Val)} (he : (env e).fields = entryFields i kd vd) (hb : BytesAs data body) :
    dec env (.map i kc vc kd vd) data (.map n m) =
      match run (idxM env e) body [i.kzero, i.vzero] with
      | .error e => .error e
      | .ok (_, some e) => .ok (.err (.map false m) e)
      | .ok ([k, v], none) =>
        match k.toKey? with
        | some k => .ok (.ok (.map false (mapAssign m k v)) data.length)
        | none => .error .confused
      | .ok (_, none) => .error .confused := by
  obtain ⟨p, hp, rfl⟩ := hb
  unfold dec
  rw [codecDecode_map _ _ _ _ _ _ _ (bounded_codec _ _ (bounded_decM env) _) (bounded_codec _ _ (bounded_decM env) _)]
  have hne : p ++ body ≠ [] := by have := hp.1.length_pos; intro e; simp at e; simp [e] at this
  simp only [hne, if_false, decodeVarint_of hp, List.drop_left, ← idxM_entry he]
  rfl

theorem dec_map_len {env : Env} {e : TypeId} {i : MapInfo} {kc vc kd vd : Codec} {data body : Bytes} {n : Bool}
    {m : List (Key × Val)} {v' : Val} {l : Nat} (he : (env e).fields = entryFields i kd vd) (hb : BytesAs data body)
    (h : dec env (.map i kc vc kd vd) data (.map n m) = .ok (.ok v' l)) : l = data.length := by
  rw [dec_map_run he hb] at h
  split at h
  · simp at h
  · simp at h
  · split at h
    · simp only [Except.ok.injEq, DRes.ok.injEq] at h
      exact h.2.symm
    · simp at h
  · simp at h

theorem dec_map_err_inv {env : Env} {e : TypeId} {i : MapInfo} {kc vc kd vd : Codec} {data body : Bytes} {n : Bool}
    {m : List (Key × Val)} {v' : Val} {er : Err} (he : (env e).fields = entryFields i kd vd) (hb : BytesAs data body)
    (h : dec env (.map i kc vc kd vd) data (.map n m) = .ok (.err v' er)) :
    ∃ w, unmarshal env body (.msg e (.struct [i.kzero, i.vzero])) = .ok ⟨.msg e w, some (.decode er)⟩ ∧
      v' = .map false m := by
  rw [dec_map_run he hb] at h
  split at h
  · simp at h
  · rename_i hr
    simp only [Except.ok.injEq, DRes.err.injEq] at h
    obtain ⟨rfl, rfl⟩ := h
    exact ⟨_, unmarshal_err_iff.mpr hr, rfl⟩
  · split at h <;> simp at h
  · simp at h

end Pb
