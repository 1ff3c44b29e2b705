import Verif.Spec.Merge
import Verif.Proofs.Prefix
/-
The decoder implements `MergeRecs`.
-/
namespace Pb
open Spec

theorem fitsL_of_msg {L : Layout} {t : TypeId} {vs : List Val} (h : FitsMsg L t (.struct vs)) : FitsL L (L t) vs := by
  obtain ⟨ws, he, hf⟩ := fitsMsg_iff.mp h
  cases he; exact hf

/-- Decode function of a codec. -/
abbrev dec (env : Env) (c : Codec) : Bytes → Val → Except Fault DRes := codecDecode (zerosOf env) (decM env) c

theorem assign_mapAssign {m : List (Key × Val)} {k : Key} {v : Val} {m'} (h : Assign m k v m') : mapAssign m k v = m' := by
  cases h with
  | new _ _ _ h =>
    induction m with
    | nil => rfl
    | cons e m ih =>
      have h1 := h e (by simp)
      simp only [mapAssign, h1, if_false, List.cons_append]
      rw [ih (fun e he => h e (by simp [he]))]
  | old m₁ m₂ _ _ w h =>
    induction m₁ with
    | nil => simp [mapAssign]
    | cons e m ih =>
      have h1 := h e (by simp)
      simp only [List.cons_append, mapAssign, h1, if_false]
      rw [ih (fun e he => h e (by simp [he]))]

theorem mapAssign_assign (m : List (Key × Val)) (k : Key) (v : Val) : Assign m k v (mapAssign m k v) := by
  by_cases h : ∃ e ∈ m, e.1 = k
  · have : ∃ m₁ w m₂, m = m₁ ++ (k, w) :: m₂ ∧ ∀ e ∈ m₁, e.1 ≠ k := by
      clear v
      induction m with
      | nil => simp at h
      | cons e m ih =>
        by_cases he : e.1 = k
        · exact ⟨[], e.2, m, by rw [← he]; rfl, by simp⟩
        · obtain ⟨e', h1, h2⟩ := h
          rcases List.mem_cons.mp h1 with rfl | h1
          · exact absurd h2 he
          · obtain ⟨m₁, w, m₂, rfl, h3⟩ := ih ⟨e', h1, h2⟩
            refine ⟨e :: m₁, w, m₂, rfl, ?_⟩
            intro x hx
            rcases List.mem_cons.mp hx with rfl | hx
            · exact he
            · exact h3 x hx
    obtain ⟨m₁, w, m₂, rfl, h1⟩ := this
    have h2 := Assign.old m₁ m₂ k v w h1
    rw [assign_mapAssign h2]; exact h2
  · have h1 : ∀ e ∈ m, e.1 ≠ k := fun e he e1 => h ⟨e, he, e1⟩
    have h2 := Assign.new m k v h1
    rw [assign_mapAssign h2]; exact h2

theorem readsAs_payload {s : Scalar} {data : Bytes} {w : Val} (h : ReadsAs s data w) : Payload s.wire data := by
  cases h with
  | bool _ n h => exact .varint _ n h
  | int32 _ n h => exact .varint _ n h
  | uint32 _ n h => exact .varint _ n h
  | int64 _ n h => exact .varint _ n h
  | uint64 _ n h => exact .varint _ n h
  | zigzag32 _ n h => exact .varint _ n h
  | zigzag64 _ n h => exact .varint _ n h
  | fixed32 x => exact .fixed32 _ (by simp [base256_length])
  | float32 x => exact .fixed32 _ (by simp [base256_length])
  | fixed64 x => exact .fixed64 _ (by simp [base256_length])
  | float64 x => exact .fixed64 _ (by simp [base256_length])
  | string p s h => exact .varlen p s h

theorem decodeScalar_readsAs {L : Layout} {s : Scalar} {data : Bytes} {v w : Val} (h : ReadsAs s data w)
    (hf : Fits L s.shape v) (hb : s = .bool → data.length = 1) : decodeScalar s data v = .ok (.ok w data.length) := by
  obtain ⟨w', h1, h2⟩ := decodeScalar_payload hf (readsAs_payload h) hb
  rw [h1, readsAs_unique h h2]

theorem record_ne_nil {u r : Bytes} {num wt data} (h : Record u num wt data) : u ++ r ≠ [] := by
  obtain ⟨p, ht, _, rfl⟩ := h
  have := ht.2.1.length_pos
  intro e; simp at e; simp [e] at this

/-- One record at the front of the input, decoded exactly. -/
theorem run_known {idx : Nat → Option DField} {u r : Bytes} {num : Nat} {data : Bytes} {f : DField} {vs : List Val}
    {v v' : Val} (hu : Record u num f.wt data) (hi : idx num = some f) (hv : vs[f.offset]? = some v)
    (hd : f.dec data v = .ok (.ok v' data.length)) :
    run idx (u ++ r) vs = run idx r (vs.set f.offset v') := by
  rw [run_cons _ _ _ (record_ne_nil hu), stepS_known hu hi]
  simp [slotOf, hv, hd]

theorem run_unknown {idx : Nat → Option DField} {u r : Bytes} {num wt : Nat} {data : Bytes} {vs : List Val}
    (hu : Record u num wt data) (hi : idx num = none) : run idx (u ++ r) vs = run idx r vs := by
  rw [run_cons _ _ _ (record_ne_nil hu), stepS_unknown hu hi]

/-- Peel the first record. -/
theorem records_cons_inv {b : Bytes} {num wt data rs} (h : Records b ((num, wt, data) :: rs)) :
    ∃ u r, b = u ++ r ∧ Record u num wt data ∧ Records r rs := by
  cases h with
  | cons u r _ _ _ _ hu hr => exact ⟨u, r, rfl, hu, hr⟩

theorem records_nil_inv {b : Bytes} (h : Records b []) : b = [] := by cases h; rfl

theorem dec_fits {L : Layout} {env : Env} (hwf : WFEnv L env) {c : Codec} (hc : c.WF) {data : Bytes} {v v' : Val} {m : Nat}
    (hv : Fits L c.shape v) (h : dec env c data v = .ok (.ok v' m)) : Fits L c.shape v' := by
  unfold dec at h
  rcases codec_safe hwf c hc data v hv with ⟨w, n, h1, h2⟩ | ⟨w, e, h1, h2⟩
  · rw [h] at h1; simp at h1; rw [h1.1]; exact h2
  · rw [h] at h1; simp at h1

theorem dec_map_body {env : Env} {i : MapInfo} {kc vc kd vd : Codec} {data body : Bytes} {n : Bool} {m : List (Key × Val)}
    {k : Key} {v : Val} (hb : BytesAs data body)
    (h : run (entryIdx (zerosOf env) (decM env) i kd vd) body [i.kzero, i.vzero] = .ok ([k.toVal, v], none)) :
    dec env (.map i kc vc kd vd) data (.map n m) = .ok (.ok (.map false (mapAssign m k v)) data.length) := by
  obtain ⟨p, hp, rfl⟩ := hb
  unfold dec
  rw [codecDecode_map _ _ _ _ _ _ _ (bounded_codec _ _ (bounded_decM env) _) (bounded_codec _ _ (bounded_decM env) _)]
  have hne : p ++ body ≠ [] := by have := hp.1.length_pos; intro e; simp at e; simp [e] at this
  have hk : k.toVal.toKey? = some k := by cases k <;> rfl
  simp only [hne, if_false, decodeVarint_of hp, List.drop_left, h, hk]

theorem dec_msg_body {env : Env} {t : TypeId} {data body : Bytes} {old : Val} {vs vs' : List Val} (hb : BytesAs data body)
    (ho : msgTarget (zerosOf env t) old = .ok (.struct vs)) (h : run (idxM env t) body vs = .ok (vs', none)) :
    dec env (.msg t) data old = .ok (.ok (.ptr (.struct vs')) data.length) := by
  obtain ⟨p, hp, rfl⟩ := hb
  unfold dec
  rw [codecDecode_msg, ho]
  simp only [decodeVarint_of hp, List.drop_left, decM_eq, h, toDRes, List.length_append]

mutual
theorem dec_of_merge {L : Layout} {env : Env} (hwf : WFEnv L env) {c : Codec} {old : Val} {data : Bytes} {new : Val} :
    Merge env c old data new → c.WF → Fits L c.shape old → dec env c data old = .ok (.ok new data.length)
  | .normal s _ _ _ h hb => fun _ hf => decodeScalar_readsAs h hf hb
  | .required s _ _ _ h hb => fun _ hf => decodeScalar_readsAs h hf hb
  | .option s b v _ _ h hb => fun _ hf => by
    have hv : Fits L s.shape v := by
      simp only [Codec.shape] at hf
      cases hf with
      | none => exact fits_zero L _
      | some _ _ h => exact h
    simp only [dec, codecDecode, decodeOption, decodeScalar_readsAs h hv hb]
    rfl
  | .bytes old _ s h => fun _ _ => by
    obtain ⟨p, hp, rfl⟩ := h
    simp only [dec, codecDecode, decodeBytes, decodeVarlen_payload hp, bind, Except.bind, pure, Except.pure, DRes.mk,
      List.length_append]
  | .ptrNew z c _ _ h => fun hc _ => by
    have h1 := dec_of_merge hwf h hc.2 (by rw [hc.1]; exact fits_zero L _)
    simp only [dec] at h1
    simp only [dec, codecDecode, h1]; rfl
  | .ptrOld z c _ _ _ h => fun hc hf => by
    simp only [Codec.shape] at hf
    cases hf with | ptr _ _ hv =>
    have h1 := dec_of_merge hwf h hc.2 hv
    simp only [dec] at h1
    simp only [dec, codecDecode, h1]; rfl
  | .msgNew t _ body rs vs vs' hz hb hrs h => fun _ _ => by
    have hv : FitsL L (L t) vs := by
      have h1 := hwf.zero_fits t
      unfold zerosOf at h1
      rw [hz] at h1
      obtain ⟨ws, e, h2⟩ := fitsMsg_iff.mp h1
      cases e; exact h2
    exact dec_msg_body hb (by simp [msgTarget, zerosOf, hz]) (run_of_mergeRecs hwf h hv body hrs)
  | .msgOld t _ body rs vs vs' hb hrs h => fun _ hf => by
    have hv : FitsL L (L t) vs := by
      obtain ⟨ws, e, h2⟩ := fitsMsg_iff.mp (show FitsMsg L t (.struct vs) from hf)
      cases e; exact h2
    exact dec_msg_body hb rfl (run_of_mergeRecs hwf h hv body hrs)
  | .sliceGrow z c n es _ new h => fun hc hf => by
    have h1 := dec_of_merge hwf h hc.2 (by rw [hc.1]; exact fits_zero L _)
    simp only [dec] at h1
    have hg : growIfFull z es [] = z :: List.replicate ((if es = [] then 10 else es.length) - 1) z := by
      unfold growIfFull
      cases es with
      | nil => rfl
      | cons e es =>
        simp only [List.length_cons, List.length_nil, Nat.add_zero, if_true]
        have : ¬ (2 * (es.length + 1) = 0) := by omega
        have e1 : 2 * (es.length + 1) - (es.length + 1) = es.length + 1 := by omega
        simp [e1, List.replicate_succ]
    simp only [dec, codecDecode, hg, h1]; rfl
  | .sliceSlot z c n es slot sp _ new h => fun hc hf => by
    have hv : Fits L c.shape slot := by
      simp only [Codec.shape] at hf
      cases hf with | slice _ _ _ _ _ _ h => exact h slot (by simp)
    have h1 := dec_of_merge hwf h hc.2 hv
    simp only [dec] at h1
    simp only [dec, codecDecode, growIfFull, reduceCtorEq, if_false, h1]; rfl
  | .map i kc vc kd vd n m _ body rs k v m' hb hrs h ha => fun hc _ => by
    obtain ⟨hk, hkd, hvd, hkz, hvz, _, _, hkdw, hvdw⟩ := hc
    have h1 := run_of_mergeEntry hwf h hkdw hvdw (by rw [hkz, hkd]; exact fits_zero L _)
      (by rw [hvz, hvd]; exact fits_zero L _) body hrs
    rw [dec_map_body hb h1, assign_mapAssign ha]

theorem run_of_mergeRecs {L : Layout} {env : Env} (hwf : WFEnv L env) {t : TypeId} {vs : List Val}
    {rs : List (Nat × Nat × Bytes)} {vs' : List Val} :
    MergeRecs env t vs rs vs' → FitsL L (L t) vs → ∀ body, Records body rs → run (idxM env t) body vs = .ok (vs', none)
  | .nil _ _ => fun _ body hb => by rw [records_nil_inv hb, run_nil]
  | .unknown _ _ num wt data rs _ hu h => fun hf body hb => by
    obtain ⟨u, r, rfl, h1, h2⟩ := records_cons_inv hb
    rw [run_unknown h1 (idxM_undeclared hu)]
    exact run_of_mergeRecs hwf h hf r h2
  | .known _ _ num data rs _ f old new hd ho hm h => fun hf body hb => by
    obtain ⟨u, r, rfl, h1, h2⟩ := records_cons_inv hb
    have hs := hwf.slot t f hd.mem
    have hc := hwf.codec t f hd.mem
    have hold := hf.2 _ _ _ hs ho
    have h3 := dec_of_merge hwf hm hc hold
    rw [run_known (f := toD (zerosOf env) (decM env) f) h1 (idxM_declared hd) ho h3]
    exact run_of_mergeRecs hwf h (fitsL_set hf hs (dec_fits hwf hc hold h3)) r h2

theorem run_of_mergeEntry {L : Layout} {env : Env} (hwf : WFEnv L env) {i : MapInfo} {kd vd : Codec} {k v : Val}
    {rs : List (Nat × Nat × Bytes)} {k' v' : Val} :
    MergeEntry env i kd vd k v rs k' v' → kd.WF → vd.WF → Fits L kd.shape k → Fits L vd.shape v → ∀ body,
      Records body rs → run (entryIdx (zerosOf env) (decM env) i kd vd) body [k, v] = .ok ([k', v'], none)
  | .nil _ _ _ _ _ => fun _ _ _ _ body hb => by rw [records_nil_inv hb, run_nil]
  | .unknown _ _ _ _ _ num wt data rs _ _ h1 h2 h => fun hk hv hfk hfv body hb => by
    obtain ⟨u, r, rfl, hu, hr⟩ := records_cons_inv hb
    rw [run_unknown hu (by simp [entryIdx, h1, h2])]
    exact run_of_mergeEntry hwf h hk hv hfk hfv r hr
  | .key _ _ _ _ _ data rs k₁ _ _ hne hm h => fun hk hv hfk hfv body hb => by
    obtain ⟨u, r, rfl, hu, hr⟩ := records_cons_inv hb
    have h3 := dec_of_merge hwf hm hk hfk
    rw [run_known (f := ⟨keyNumber i.eKey, keyType i.eKey, 0, dec env kd⟩) hu (by simp [entryIdx, hne]) rfl h3]
    exact run_of_mergeEntry hwf h hk hv (dec_fits hwf hk hfk h3) hfv r hr
  | .val _ _ _ _ _ data rs v₁ _ _ hm h => fun hk hv hfk hfv body hb => by
    obtain ⟨u, r, rfl, hu, hr⟩ := records_cons_inv hb
    have h3 := dec_of_merge hwf hm hv hfv
    rw [run_known (f := ⟨keyNumber i.eVal, keyType i.eVal, 1, dec env vd⟩) hu (by simp [entryIdx]) rfl h3]
    exact run_of_mergeEntry hwf h hk hv hfk (dec_fits hwf hv hfv h3) r hr
end

/-! ### the converse, for types without bool -/

theorem payload_varlen {data : Bytes} (h : Payload 2 data) : ∃ body, BytesAs data body ∧ body.length < data.length := by
  generalize hw : 2 = w at h
  cases h with
  | varlen p s hp => exact ⟨s, ⟨p, hp, rfl⟩, by have := hp.1.length_pos; simp; omega⟩
  | _ => simp at hw

theorem takePayload_pos {wt : Nat} {data : Bytes} (h : Payload wt data) : 0 < data.length := by
  cases h with
  | varint _ _ h => exact h.1.length_pos
  | fixed64 _ h => omega
  | varlen p bs h => have := h.1.length_pos; simp; omega
  | fixed32 _ h => omega

/-- An accepted entry body. -/
theorem mergeEntry_of_run {L : Layout} {env : Env} (hwf : WFEnv L env) {i : MapInfo} {kd vd : Codec} (hkw : kd.WF)
    (hvw : vd.WF) (hkr : kd.Reads (keyType i.eKey)) (hvr : vd.Reads (keyType i.eVal))
    (hkb : kd.noBool) (hvb : vd.noBool) (N : Nat)
    (ihk : ∀ data old new m, Payload (keyType i.eKey) data → data.length ≤ N → Fits L kd.shape old →
      dec env kd data old = .ok (.ok new m) → Merge env kd old data new)
    (ihv : ∀ data old new m, Payload (keyType i.eVal) data → data.length ≤ N → Fits L vd.shape old →
      dec env vd data old = .ok (.ok new m) → Merge env vd old data new) :
    ∀ body, body.length ≤ N → ∀ k v k' v', Fits L kd.shape k → Fits L vd.shape v →
      run (entryIdx (zerosOf env) (decM env) i kd vd) body [k, v] = .ok ([k', v'], none) →
      ∃ rs, Records body rs ∧ MergeEntry env i kd vd k v rs k' v' := by
  have notBool : ∀ c : Codec, c.noBool → ¬ c.isBool := by
    intro c
    induction c with
    | ptr z c ih => exact ih
    | slice z c ih => exact ih
    | normal s => exact id
    | required s => exact id
    | option s => exact id
    | _ => intro _ h; exact h
  intro body
  induction hl : body.length using Nat.strongRecOn generalizing body with
  | ind n ih =>
    intro hN k v k' v' hk hv h
    by_cases h0 : body = []
    · subst h0
      rw [run_nil] at h; cases h
      exact ⟨[], .nil, .nil _ _ _ _ _⟩
    rw [run_cons _ _ _ h0] at h
    rcases hs : stepS (entryIdx (zerosOf env) (decM env) i kd vd) body [k, v] with er | ⟨vs1, er⟩ | ⟨rest, vs1⟩ <;>
      simp only [hs] at h
    · simp at h
    · simp at h
    have hlt := stepS_lt hs
    obtain ⟨tg, num, wt, data, ht, hp, hcase⟩ := stepS_next_inv hs
    have hrec : Record (tg ++ data) num wt data := ⟨tg, ht, hp, rfl⟩
    rcases hcase with ⟨hi, rfl, rfl⟩ | ⟨f, rest', x, x', m, hi, rfl, rfl, hx, hdec, rfl, rfl⟩
    · obtain ⟨rs, h1, h2⟩ := ih _ (by omega) rest rfl (by omega) k v k' v' hk hv h
      have hn : num ≠ keyNumber i.eKey ∧ num ≠ keyNumber i.eVal := by
        unfold entryIdx at hi
        split at hi
        · simp at hi
        · split at hi
          · simp at hi
          · exact ⟨by assumption, by assumption⟩
      refine ⟨(num, wt, data) :: rs, ?_, .unknown _ _ _ _ _ _ _ _ _ _ _ hn.1 hn.2 h2⟩
      rw [← List.append_assoc]
      exact .cons _ _ _ _ _ _ hrec h1
    · unfold entryIdx at hi
      split at hi
      · rename_i hnum
        subst hnum
        simp only [Option.some.injEq] at hi
        subst hi
        have hm : m = data.length := exact_codec env vd _ hvr data hp (fun hh => absurd hh (notBool vd hvb)) _ _ _ hdec
        subst hm
        simp only [List.drop_left] at h hlt
        simp at hx; subst hx
        have hlen : data.length ≤ N := by simp at hl; omega
        have h3 := ihv data v x' _ hp hlen hv hdec
        obtain ⟨rs, h1, h2⟩ := ih _ (by omega) rest' rfl (by omega) k x' k' v' hk (dec_fits hwf hvw hv hdec) h
        refine ⟨(_, _, data) :: rs, ?_, .val _ _ _ _ _ _ _ _ _ _ h3 h2⟩
        rw [← List.append_assoc]
        exact .cons _ _ _ _ _ _ hrec h1
      · split at hi
        · rename_i hne hnum
          subst hnum
          simp only [Option.some.injEq] at hi
          subst hi
          have hm : m = data.length := exact_codec env kd _ hkr data hp (fun hh => absurd hh (notBool kd hkb)) _ _ _ hdec
          subst hm
          simp only [List.drop_left] at h hlt
          simp at hx; subst hx
          have hlen : data.length ≤ N := by simp at hl; omega
          have h3 := ihk data k x' _ hp hlen hk hdec
          obtain ⟨rs, h1, h2⟩ := ih _ (by omega) rest' rfl (by omega) x' v k' v' (dec_fits hwf hkw hk hdec) hv h
          refine ⟨(_, _, data) :: rs, ?_, .key _ _ _ _ _ _ _ _ _ _ hne h3 h2⟩
          rw [← List.append_assoc]
          exact .cons _ _ _ _ _ _ hrec h1
        · simp at hi

theorem scalar_of_dec {L : Layout} {s : Scalar} {data : Bytes} {old new : Val} {m : Nat} (hp : Payload s.wire data)
    (hs : s ≠ .bool) (hf : Fits L s.shape old) (h : decodeScalar s data old = .ok (.ok new m)) : ReadsAs s data new := by
  obtain ⟨w, h1, h2⟩ := decodeScalar_payload hf hp (fun e => absurd e hs)
  rw [h] at h1; simp at h1; rw [h1.1]; exact h2

/-- Codecs, given the messages nested in shorter inputs. -/
theorem merge_of_dec {L : Layout} {env : Env} (hwf : WFEnv L env) (N : Nat)
    (IH : ∀ t body vs vs', body.length < N → FitsL L (L t) vs → run (idxM env t) body vs = .ok (vs', none) →
      ∃ rs, Records body rs ∧ MergeRecs env t vs rs vs') :
    ∀ (c : Codec) (w : Nat), c.WF → c.noBool → c.Reads w → ∀ data old new m, Payload w data → data.length ≤ N →
      Fits L c.shape old → dec env c data old = .ok (.ok new m) → Merge env c old data new := by
  intro c
  induction c with
  | normal s =>
    intro w _ hb hr data old new m hp _ hf h
    simp only [Codec.Reads] at hr; subst hr
    exact .normal s old data new (scalar_of_dec hp hb hf h) (fun e => absurd e hb)
  | required s =>
    intro w _ hb hr data old new m hp _ hf h
    simp only [Codec.Reads] at hr; subst hr
    exact .required s old data new (scalar_of_dec hp hb hf h) (fun e => absurd e hb)
  | option s =>
    intro w _ hb hr data old new m hp _ hf h
    simp only [Codec.Reads] at hr; subst hr
    simp only [Codec.shape] at hf
    simp only [dec, codecDecode, decodeOption] at h
    cases hf with
    | none =>
      obtain ⟨r, h1, h2⟩ := bind_ok h
      simp only [pure, Except.pure, Except.ok.injEq] at h2
      obtain ⟨x, rfl, rfl⟩ := wrap_ok h2
      exact .option s _ _ data x (scalar_of_dec hp hb (fits_zero L _) h1) (fun e => absurd e hb)
    | some _ v hv =>
      obtain ⟨r, h1, h2⟩ := bind_ok h
      simp only [pure, Except.pure, Except.ok.injEq] at h2
      obtain ⟨x, rfl, rfl⟩ := wrap_ok h2
      exact .option s _ _ data x (scalar_of_dec hp hb hv h1) (fun e => absurd e hb)
  | bytes =>
    intro w _ _ hr data old new m hp _ hf h
    simp only [Codec.Reads] at hr; subst hr
    obtain ⟨body, ⟨p, hp', rfl⟩, _⟩ := payload_varlen hp
    simp only [Codec.shape] at hf
    cases hf with
    | bytes x =>
      simp only [dec, codecDecode, decodeBytes, decodeVarlen_payload hp', bind, Except.bind, pure, Except.pure, DRes.mk,
        Except.ok.injEq, DRes.ok.injEq] at h
      rw [← h.1]
      exact .bytes x _ body ⟨p, hp', rfl⟩
  | ptr z c ih =>
    intro w hw hb hr data old new m hp hl hf h
    simp only [Codec.shape] at hf
    simp only [dec, codecDecode] at h
    cases hf with
    | ptrNil =>
      obtain ⟨r, h1, h2⟩ := bind_ok h
      simp only [pure, Except.pure, Except.ok.injEq] at h2
      obtain ⟨x, rfl, rfl⟩ := wrap_ok h2
      exact .ptrNew z c data x (ih w hw.2 hb hr data z x m hp hl (by rw [hw.1]; exact fits_zero L _) h1)
    | ptr _ v hv =>
      obtain ⟨r, h1, h2⟩ := bind_ok h
      simp only [pure, Except.pure, Except.ok.injEq] at h2
      obtain ⟨x, rfl, rfl⟩ := wrap_ok h2
      exact .ptrOld z c v data x (ih w hw.2 hb hr data v x m hp hl hv h1)
  | msg t =>
    intro w _ _ hr data old new m hp hl hf h
    simp only [Codec.Reads] at hr; subst hr
    obtain ⟨body, ⟨p, hp', rfl⟩, hlt⟩ := payload_varlen hp
    unfold dec at h
    rw [codecDecode_msg] at h
    have hz := hwf.zero_fits t
    obtain ⟨zs, hze, hzf⟩ := fitsMsg_iff.mp hz
    simp only [Codec.shape] at hf
    generalize hsh : Shape.msg t = sh at hf
    cases hf with
    | msgNil =>
      cases hsh
      simp only [msgTarget, hze, decodeVarint_of hp', List.drop_left, decM_eq] at h
      rcases hrun : run (idxM env t) body zs with e | ⟨vs', _ | e⟩ <;> simp [hrun, toDRes] at h
      obtain ⟨rfl, _⟩ := h
      obtain ⟨rs, h1, h2⟩ := IH t body zs vs' (by omega) hzf hrun
      exact .msgNew t _ body rs zs vs' hze ⟨p, hp', rfl⟩ h1 h2
    | msg _ vs hlen hvs =>
      cases hsh
      simp only [msgTarget, decodeVarint_of hp', List.drop_left, decM_eq] at h
      rcases hrun : run (idxM env t) body vs with e | ⟨vs', _ | e⟩ <;> simp [hrun, toDRes] at h
      obtain ⟨rfl, _⟩ := h
      obtain ⟨rs, h1, h2⟩ := IH t body vs vs' (by omega) ⟨hlen, hvs⟩ hrun
      exact .msgOld t _ body rs vs vs' ⟨p, hp', rfl⟩ h1 h2
    | _ => cases hsh
  | slice z c ih =>
    intro w hw hb hr data old new m hp hl hf h
    simp only [Codec.shape] at hf
    cases hf with
    | slice _ n es sp _ _ hsp =>
      simp only [dec, codecDecode] at h
      cases sp with
      | nil =>
        have hg : growIfFull z es [] = z :: List.replicate ((if es = [] then 10 else es.length) - 1) z := by
          unfold growIfFull
          cases es with
          | nil => rfl
          | cons e es =>
            simp only [List.length_cons, List.length_nil, Nat.add_zero, if_true]
            have : ¬ (2 * (es.length + 1) = 0) := by omega
            have e1 : 2 * (es.length + 1) - (es.length + 1) = es.length + 1 := by omega
            simp [e1, List.replicate_succ]
        simp only [hg] at h
        obtain ⟨r, h1, h2⟩ := bind_ok h
        cases r with
        | ok x k =>
          simp [pure, Except.pure] at h2
          obtain ⟨rfl, rfl⟩ := h2
          exact .sliceGrow z c n es data x (ih w hw.2 hb hr data z x k hp hl (by rw [hw.1]; exact fits_zero L _) h1)
        | err x e => simp [pure, Except.pure] at h2
      | cons slot sp =>
        simp only [growIfFull, reduceCtorEq, if_false] at h
        obtain ⟨r, h1, h2⟩ := bind_ok h
        cases r with
        | ok x k =>
          simp [pure, Except.pure] at h2
          obtain ⟨rfl, rfl⟩ := h2
          exact .sliceSlot z c n es slot sp data x (ih w hw.2 hb hr data slot x k hp hl (hsp slot (by simp)) h1)
        | err x e => simp [pure, Except.pure] at h2
  | map i kc vc kd vd _ _ ihk ihv =>
    intro w hw hb hr data old new m hp hl hf h
    obtain ⟨hk, hkd, hvd, hkz, hvz, _, _, hkdw, hvdw⟩ := hw
    simp only [Codec.Reads] at hr
    obtain ⟨rfl, hkr, hvr⟩ := hr
    obtain ⟨body, ⟨p, hp', rfl⟩, hlt⟩ := payload_varlen hp
    simp only [Codec.shape] at hf
    cases hf with
    | map _ _ n mm _ _ _ _ =>
      unfold dec at h
      rw [codecDecode_map _ _ _ _ _ _ _ (bounded_codec _ _ (bounded_decM env) _)
        (bounded_codec _ _ (bounded_decM env) _)] at h
      have hne : p ++ body ≠ [] := by have := hp'.1.length_pos; intro e; simp at e; simp [e] at this
      simp only [hne, if_false, decodeVarint_of hp', List.drop_left] at h
      rcases hrun : run (entryIdx (zerosOf env) (decM env) i kd vd) body [i.kzero, i.vzero]
        with e | ⟨vs, _ | e⟩ <;> simp only [hrun] at h
      · simp at h
      · split at h
        · simp at h
        · simp at h
        · rename_i k v heq
          simp only [Except.ok.injEq, Prod.mk.injEq, and_true] at heq
          subst heq
          split at h
          · rename_i key hkey
            simp only [Except.ok.injEq, DRes.ok.injEq] at h
            rw [← h.1]
            have hkv : k = key.toVal := by
              cases k <;> simp [Val.toKey?] at hkey <;> subst hkey <;> rfl
            subst hkv
            obtain ⟨rs, h1, h2⟩ := mergeEntry_of_run hwf hkdw hvdw hkr hvr hb.1 hb.2 N
              (fun data old new m hp hl hf hd => ihk _ hkdw hb.1 hkr data old new m hp hl hf hd)
              (fun data old new m hp hl hf hd => ihv _ hvdw hb.2 hvr data old new m hp hl hf hd)
              body (by omega) i.kzero i.vzero _ v
              (by rw [hkz, hkd]; exact fits_zero L _) (by rw [hvz, hvd]; exact fits_zero L _) hrun
            exact .map i kc vc kd vd n mm _ body rs key v _ ⟨p, hp', rfl⟩ h1 h2 (mapAssign_assign mm key v)
          · simp at h
        · simp at h
      · simp at h

/-- An accepted input means something, and its meaning is the result. -/
theorem mergeRecs_of_run {L : Layout} {env : Env} (hwf : WFEnv L env) (hr : ReadsOK env)
    (hb : ∀ t, ∀ f ∈ (env t).fields, f.codec.noBool) :
    ∀ body t vs vs', FitsL L (L t) vs → run (idxM env t) body vs = .ok (vs', none) →
      ∃ rs, Records body rs ∧ MergeRecs env t vs rs vs' := by
  have notBool : ∀ c : Codec, c.noBool → ¬ c.isBool := by
    intro c
    induction c with
    | ptr z c ih => exact ih
    | slice z c ih => exact ih
    | normal s => exact id
    | required s => exact id
    | option s => exact id
    | _ => intro _ h; exact h
  intro body
  induction hl : body.length using Nat.strongRecOn generalizing body with
  | ind n ih =>
    intro t vs vs' hf h
    by_cases h0 : body = []
    · subst h0
      rw [run_nil] at h; cases h
      exact ⟨[], .nil, .nil _ _⟩
    rw [run_cons _ _ _ h0] at h
    rcases hs : stepS (idxM env t) body vs with er | ⟨vs1, er⟩ | ⟨rest, vs1⟩ <;> simp only [hs] at h
    · simp at h
    · simp at h
    have hlt := stepS_lt hs
    obtain ⟨tg, num, wt, data, ht, hp, hcase⟩ := stepS_next_inv hs
    have hrec : Record (tg ++ data) num wt data := ⟨tg, ht, hp, rfl⟩
    rcases hcase with ⟨hi, rfl, rfl⟩ | ⟨f, rest', x, x', m, hi, rfl, rfl, hx, hdec, rfl, rfl⟩
    · obtain ⟨rs, h1, h2⟩ := ih _ (by omega) rest rfl t vs1 vs' hf h
      have hu : Undeclared (env t).fields num := by
        apply lookup_undeclared.mp
        unfold idxM at hi
        simpa using hi
      refine ⟨(num, wt, data) :: rs, ?_, .unknown _ _ _ _ _ _ _ hu h2⟩
      rw [← List.append_assoc]
      exact .cons _ _ _ _ _ _ hrec h1
    · obtain ⟨g, hg, rfl⟩ := idxM_some hi
      have hnb := hb t g hg.mem
      have hm : m = data.length := exact_codec env g.codec _ (hr t g hg.mem) data hp
        (fun hh => absurd hh (notBool _ hnb)) _ _ _ hdec
      subst hm
      simp only [List.drop_left] at h hlt
      have hsl := hwf.slot t g hg.mem
      have hc := hwf.codec t g hg.mem
      have hold := hf.2 _ _ _ hsl hx
      have htl := ht.2.1.length_pos
      have h3 : Merge env g.codec x data x' := by
        refine merge_of_dec hwf n (fun t' b' ws ws' hlen hfw hrun => ?_) g.codec _ hc hnb (hr t g hg.mem) data x x' _ hp ?_
          hold hdec
        · exact ih b'.length hlen b' rfl t' ws ws' hfw hrun
        · simp at hl; omega
      obtain ⟨rs, h1, h2⟩ := ih _ (by omega) rest' rfl t (vs.set g.offset x') vs' (fitsL_set hf hsl
        (dec_fits hwf hc hold hdec)) h
      refine ⟨(num, keyType g.tag.wiretag, data) :: rs, ?_, .known _ _ _ _ _ _ _ _ _ hg hx h3 h2⟩
      rw [← List.append_assoc]
      exact .cons _ _ _ _ _ _ hrec h1

end Pb
