import Verif.Spec.Reading
import Verif.Proofs.Merge
/-
The decoder implements `ReadingRecs`, and nothing else.
-/
namespace Pb
open Spec

theorem cuts_nil_inv {isb : Nat → Prop} {b : Bytes} (h : Cuts isb b []) : b = [] := by cases h; rfl

theorem cuts_whole_inv {isb : Nat → Prop} {b : Bytes} {num wt : Nat} {data : Bytes} {rs} (h : Cuts isb b ((num, wt, data) :: rs)) :
    (¬ isb num ∧ ∃ u r, b = u ++ r ∧ Record u num wt data ∧ Cuts isb r rs) ∨
    (isb num ∧ ∃ p x q r, data = [x] ∧ b = p ++ ((x :: q) ++ r) ∧ TagBytes p num wt ∧ Payload wt (x :: q) ∧ Cuts isb (q ++ r) rs) := by
  cases h with
  | whole u r _ _ _ _ h1 h2 h3 => exact .inl ⟨h1, u, r, rfl, h2, h3⟩
  | bool p r _ _ x q _ h1 h2 h3 h4 => exact .inr ⟨h1, p, x, q, r, rfl, rfl, h2, h3, h4⟩

theorem tag_unique {p p' r r' : Bytes} {num num' wt wt' : Nat} (h : TagBytes p num wt) (h' : TagBytes p' num' wt') (e : p ++ r = p' ++ r') :
    num = num' ∧ wt = wt' ∧ p = p' ∧ r = r' := by
  have e1 := decodeTag_of h r
  have e2 := decodeTag_of h' r'
  rw [e, e2] at e1
  simp only [Prod.mk.injEq, and_true] at e1
  obtain ⟨rfl, rfl, hl⟩ := e1
  obtain ⟨h1, h2⟩ := List.append_inj e hl.symm
  exact ⟨rfl, rfl, h1, h2⟩

theorem cuts_unique {isb : Nat → Prop} {b : Bytes} {rs rs' : List (Nat × Nat × Bytes)} (h : Cuts isb b rs) (h' : Cuts isb b rs') :
    rs = rs' := by
  induction h generalizing rs' with
  | nil =>
    cases rs' with
    | nil => rfl
    | cons r rs' =>
      obtain ⟨num, wt, data⟩ := r
      rcases cuts_whole_inv h' with ⟨_, u, r, e, hu, _⟩ | ⟨_, p, x, q, r, _, e, _⟩
      · exact absurd e.symm (record_ne_nil hu)
      · simp at e
  | whole u r num wt data rs hn hu hr ih =>
    cases rs' with
    | nil => exact absurd (cuts_nil_inv h') (record_ne_nil hu)
    | cons r' rs' =>
      obtain ⟨num', wt', data'⟩ := r'
      obtain ⟨p, ht, hp, rfl⟩ := hu
      rcases cuts_whole_inv h' with ⟨_, u', r', e, ⟨p', ht', hp', rfl⟩, hr'⟩ | ⟨hb, p', x, q, r', _, e, ht', _⟩
      · simp only [List.append_assoc] at e
        obtain ⟨rfl, rfl, rfl, e1⟩ := tag_unique ht ht' e
        obtain ⟨rfl, rfl⟩ := payload_unique hp hp' e1
        rw [ih hr']
      · simp only [List.append_assoc] at e
        obtain ⟨rfl, _⟩ := tag_unique ht ht' e
        exact absurd hb hn
  | bool p r num wt x q rs hb ht hp hr ih =>
    generalize hc : p ++ ((x :: q) ++ r) = c at h'
    cases rs' with
    | nil => rw [cuts_nil_inv h'] at hc; simp at hc
    | cons r' rs' =>
      obtain ⟨num', wt', data'⟩ := r'
      rcases cuts_whole_inv h' with ⟨hn, u', r', e, ⟨p', ht', hp', rfl⟩, hr'⟩ | ⟨_, p', x', q', r', rfl, e, ht', hp', hr'⟩
      · subst hc
        simp only [List.append_assoc] at e
        obtain ⟨rfl, _⟩ := tag_unique ht ht' e
        exact absurd hb hn
      · subst hc
        obtain ⟨rfl, rfl, rfl, e1⟩ := tag_unique ht ht' e
        obtain ⟨e2, rfl⟩ := payload_unique hp hp' e1
        cases e2
        rw [ih hr']

theorem decodeBool_byte {L : Layout} {x : Byte} {q : Bytes} {v : Val} (hf : Fits L Scalar.bool.shape v) :
    decodeScalar .bool (x :: q) v = .ok (.ok (.b8 (x ≠ 0#8)) 1) := by
  cases hf
  rfl


theorem run_known_part {idx : Nat → Option DField} {p r : Bytes} {num : Nat} {d q : Bytes} {f : DField} {vs : List Val}
    {v v' : Val} (ht : TagBytes p num f.wt) (hp : Payload f.wt (d ++ q)) (hi : idx num = some f) (hv : vs[f.offset]? = some v)
    (hd : f.dec (d ++ q) v = .ok (.ok v' d.length)) :
    run idx (p ++ ((d ++ q) ++ r)) vs = run idx (q ++ r) (vs.set f.offset v') := by
  have hu : Record (p ++ (d ++ q)) num f.wt (d ++ q) := ⟨p, ht, hp, rfl⟩
  rw [← List.append_assoc, run_cons _ _ _ (record_ne_nil hu), stepS_known hu hi]
  simp [slotOf, hv, hd]

theorem isBool_bool {c : Codec} {w : Val} (h : c.isBool) {env : Env} {old : Val} {data : Bytes} (hr : Reading env c old data w) :
    data.length = 1 := by
  induction c generalizing old data w with
  | normal s => cases hr with
    | normal _ _ _ _ hn _ => exact absurd h hn
    | normalBool => rfl
  | required s => cases hr with
    | required _ _ _ _ hn _ => exact absurd h hn
    | requiredBool => rfl
  | option s => cases hr with
    | option _ _ _ _ _ hn _ => exact absurd h hn
    | optionBool => rfl
  | ptr z c ih => cases hr with
    | ptrNew _ _ _ _ hr => exact ih h hr
    | ptrOld _ _ _ _ _ hr => exact ih h hr
  | slice z c ih => cases hr with
    | sliceGrow _ _ _ _ _ _ hr => exact ih h hr
    | sliceSlot _ _ _ _ _ _ _ _ hr => exact ih h hr
  | bytes => cases h
  | msg => cases h
  | map => cases h

theorem idx_bool {env : Env} {t : TypeId} {num : Nat} {f : Field} (h : Declared (env t).fields num f) :
    BoolNumber (env t).fields num ↔ f.codec.isBool := by
  constructor
  · rintro ⟨g, hg, hb⟩
    have h1 := idxM_declared (env := env) (t := t) h
    have h2 := lookup_declared.mpr h
    have h3 := lookup_declared.mpr hg
    rw [h2] at h3
    cases h3; exact hb
  · exact fun hb => ⟨f, h, hb⟩

/-- One step of a loop over records, from the front record of a division. -/
theorem run_cut {idx : Nat → Option DField} {isb : Nat → Prop} {b : Bytes} {num : Nat} {data : Bytes} {rs} {f : DField} {vs : List Val} {v v' : Val}
    (h : Cuts isb b ((num, f.wt, data) :: rs)) (hi : idx num = some f) (hv : vs[f.offset]? = some v)
    (hd : ∀ q, (q = [] ∨ isb num) → f.dec (data ++ q) v = .ok (.ok v' data.length)) :
    ∃ r, Cuts isb r rs ∧ run idx b vs = run idx r (vs.set f.offset v') := by
  rcases cuts_whole_inv h with ⟨hn, u, r, rfl, hu, hr⟩ | ⟨hb, p, x, q, r, rfl, rfl, ht, hp, hr⟩
  · exact ⟨r, hr, run_known hu hi hv (by simpa using hd [] (.inl rfl))⟩
  · exact ⟨q ++ r, hr, run_known_part (d := [x]) ht hp hi hv (hd q (.inr hb))⟩

theorem run_cut_unknown {idx : Nat → Option DField} {isb : Nat → Prop} {b : Bytes} {num wt : Nat} {data : Bytes} {rs} {vs : List Val}
    (h : Cuts isb b ((num, wt, data) :: rs)) (hi : idx num = none) (hn : ¬ isb num) :
    ∃ r, Cuts isb r rs ∧ run idx b vs = run idx r vs := by
  rcases cuts_whole_inv h with ⟨hn, u, r, rfl, hu, hr⟩ | ⟨hb, _⟩
  · exact ⟨r, hr, run_unknown hu hi⟩
  · exact absurd hb hn

mutual
theorem dec_of_reading {L : Layout} {env : Env} (hwf : WFEnv L env) {c : Codec} {old : Val} {data : Bytes} {new : Val} :
    Reading env c old data new → c.WF → Fits L c.shape old → ∀ q, (q = [] ∨ c.isBool) →
      dec env c (data ++ q) old = .ok (.ok new data.length)
  | .normal s _ _ _ hn h => fun _ hf q hq => by
    rcases hq with rfl | hb
    · rw [List.append_nil]; exact decodeScalar_readsAs h hf (fun e => absurd e hn)
    · exact absurd hb hn
  | .required s _ _ _ hn h => fun _ hf q hq => by
    rcases hq with rfl | hb
    · rw [List.append_nil]; exact decodeScalar_readsAs h hf (fun e => absurd e hn)
    · exact absurd hb hn
  | .option s b v _ _ hn h => fun _ hf q hq => by
    rcases hq with rfl | hb
    · have hv : Fits L s.shape v := by
        simp only [Codec.shape] at hf
        cases hf with
        | none => exact fits_zero L _
        | some _ _ h => exact h
      rw [List.append_nil]
      simp only [dec, codecDecode, decodeOption, decodeScalar_readsAs h hv (fun e => absurd e hn)]
      rfl
    · exact absurd hb hn
  | .normalBool _ x => fun _ hf q _ => decodeBool_byte hf
  | .requiredBool _ x => fun _ hf q _ => decodeBool_byte hf
  | .optionBool b v x => fun _ hf q _ => by
    have hv : Fits L Scalar.bool.shape v := by
      simp only [Codec.shape] at hf
      cases hf with
      | none => exact fits_zero L _
      | some _ _ h => exact h
    simp only [dec, codecDecode, decodeOption, List.singleton_append, decodeBool_byte hv]
    rfl
  | .bytes old _ s h => fun _ _ q hq => by
    rcases hq with rfl | hb
    · obtain ⟨p, hp, rfl⟩ := h
      simp only [dec, codecDecode, decodeBytes, List.append_nil, decodeVarlen_payload hp, bind, Except.bind, pure, Except.pure, DRes.mk,
        List.length_append]
    · cases hb
  | .ptrNew z c _ _ h => fun hc _ q hq => by
    have h1 := dec_of_reading hwf h hc.2 (by rw [hc.1]; exact fits_zero L _) q hq
    simp only [dec] at h1
    simp only [dec, codecDecode, h1]; rfl
  | .ptrOld z c _ _ _ h => fun hc hf q hq => by
    simp only [Codec.shape] at hf
    cases hf with | ptr _ _ hv =>
    have h1 := dec_of_reading hwf h hc.2 hv q hq
    simp only [dec] at h1
    simp only [dec, codecDecode, h1]; rfl
  | .msgNew t _ body rs vs vs' hz hb hrs h => fun _ _ q hq => by
    have hv : FitsL L (L t) vs := by
      have h1 := hwf.zero_fits t
      unfold zerosOf at h1
      rw [hz] at h1
      obtain ⟨ws, e, h2⟩ := fitsMsg_iff.mp h1
      cases e; exact h2
    rcases hq with rfl | hh
    · rw [List.append_nil]
      exact dec_msg_body hb (by simp [msgTarget, zerosOf, hz]) (run_of_readingRecs hwf h hv body hrs)
    · cases hh
  | .msgOld t _ body rs vs vs' hb hrs h => fun _ hf q hq => by
    have hv : FitsL L (L t) vs := by
      obtain ⟨ws, e, h2⟩ := fitsMsg_iff.mp (show FitsMsg L t (.struct vs) from hf)
      cases e; exact h2
    rcases hq with rfl | hh
    · rw [List.append_nil]
      exact dec_msg_body hb rfl (run_of_readingRecs hwf h hv body hrs)
    · cases hh
  | .sliceGrow z c n es _ new h => fun hc hf q hq => by
    have h1 := dec_of_reading hwf h hc.2 (by rw [hc.1]; exact fits_zero L _) q hq
    simp only [dec] at h1
    have hg : growIfFull z es [] = z :: List.replicate ((if es = [] then 10 else es.length) - 1) z := by
      unfold growIfFull
      cases es with
      | nil => rfl
      | cons e es =>
        simp only [List.length_cons, List.length_nil, Nat.add_zero, if_true]
        have : ¬ (2 * (es.length + 1) = 0) := by omega
        have e1 : 2 * (es.length + 1) - (es.length + 1) = es.length + 1 := by omega
        simp [e1, List.replicate_succ]
    simp only [dec, codecDecode, hg, h1]; rfl
  | .sliceSlot z c n es slot sp _ new h => fun hc hf q hq => by
    have hv : Fits L c.shape slot := by
      simp only [Codec.shape] at hf
      cases hf with | slice _ _ _ _ _ _ h => exact h slot (by simp)
    have h1 := dec_of_reading hwf h hc.2 hv q hq
    simp only [dec] at h1
    simp only [dec, codecDecode, growIfFull, reduceCtorEq, if_false, h1]; rfl
  | .map i kc vc kd vd n m _ body rs k v m' hb hrs h ha => fun hc _ q hq => by
    obtain ⟨hk, hkd, hvd, hkz, hvz, _, _, hkdw, hvdw⟩ := hc
    have h1 := run_of_readingEntry hwf h hkdw hvdw (by rw [hkz, hkd]; exact fits_zero L _)
      (by rw [hvz, hvd]; exact fits_zero L _) body hrs
    rcases hq with rfl | hh
    · rw [List.append_nil, dec_map_body hb h1, assign_mapAssign ha]
    · cases hh

theorem run_of_readingRecs {L : Layout} {env : Env} (hwf : WFEnv L env) {t : TypeId} {vs : List Val}
    {rs : List (Nat × Nat × Bytes)} {vs' : List Val} :
    ReadingRecs env t vs rs vs' → FitsL L (L t) vs → ∀ body, Cuts (BoolNumber (env t).fields) body rs →
      run (idxM env t) body vs = .ok (vs', none)
  | .nil _ _ => fun _ body hb => by rw [cuts_nil_inv hb, run_nil]
  | .unknown _ _ num wt data rs _ hu h => fun hf body hb => by
    obtain ⟨r, h1, e⟩ := run_cut_unknown (vs := vs) hb (idxM_undeclared hu) (fun ⟨f, hf, _⟩ => hu f hf.mem (by
      obtain ⟨_, _, _, e, _⟩ := hf; exact e))
    rw [e]
    exact run_of_readingRecs hwf h hf r h1
  | .known _ _ num data rs _ f old new hd ho hm h => fun hf body hb => by
    have hs := hwf.slot t f hd.mem
    have hc := hwf.codec t f hd.mem
    have hold := hf.2 _ _ _ hs ho
    have h3 := dec_of_reading hwf hm hc hold
    obtain ⟨r, h1, e⟩ := run_cut (f := toD (zerosOf env) (decM env) f) hb (idxM_declared hd) ho
      (fun q hq => h3 q (hq.imp_right (idx_bool hd).mp))
    rw [e]
    exact run_of_readingRecs hwf h (fitsL_set hf hs (dec_fits hwf hc hold (by simpa using h3 [] (.inl rfl)))) r h1

theorem run_of_readingEntry {L : Layout} {env : Env} (hwf : WFEnv L env) {i : MapInfo} {kd vd : Codec} {k v : Val}
    {rs : List (Nat × Nat × Bytes)} {k' v' : Val} :
    ReadingEntry env i kd vd k v rs k' v' → kd.WF → vd.WF → Fits L kd.shape k → Fits L vd.shape v → ∀ body,
      Cuts (BoolPart i kd vd) body rs → run (entryIdx (zerosOf env) (decM env) i kd vd) body [k, v] = .ok ([k', v'], none)
  | .nil _ _ _ _ _ => fun _ _ _ _ body hb => by rw [cuts_nil_inv hb, run_nil]
  | .unknown _ _ _ _ _ num wt data rs _ _ h1 h2 h => fun hk hv hfk hfv body hb => by
    obtain ⟨r, hr, e⟩ := run_cut_unknown (idx := entryIdx (zerosOf env) (decM env) i kd vd) (vs := [k, v]) hb
      (by simp [entryIdx, h1, h2]) (by simp [BoolPart, h1, h2])
    rw [e]
    exact run_of_readingEntry hwf h hk hv hfk hfv r hr
  | .key _ _ _ _ _ data rs k₁ _ _ hne hm h => fun hk hv hfk hfv body hb => by
    have h3 := dec_of_reading hwf hm hk hfk
    obtain ⟨r, hr, e⟩ := run_cut (idx := entryIdx (zerosOf env) (decM env) i kd vd) (vs := [k, v])
      (f := ⟨keyNumber i.eKey, keyType i.eKey, 0, dec env kd⟩) hb (by simp [entryIdx, hne]) rfl
      (fun q hq => h3 q (hq.imp_right fun hb => by
        rcases hb with ⟨e, _⟩ | ⟨_, _, hb⟩
        · exact absurd e hne
        · exact hb))
    rw [e]
    exact run_of_readingEntry hwf h hk hv (dec_fits hwf hk hfk (by simpa using h3 [] (.inl rfl))) hfv r hr
  | .val _ _ _ _ _ data rs v₁ _ _ hm h => fun hk hv hfk hfv body hb => by
    have h3 := dec_of_reading hwf hm hv hfv
    obtain ⟨r, hr, e⟩ := run_cut (idx := entryIdx (zerosOf env) (decM env) i kd vd) (vs := [k, v])
      (f := ⟨keyNumber i.eVal, keyType i.eVal, 1, dec env vd⟩) hb (by simp [entryIdx]) rfl
      (fun q hq => h3 q (hq.imp_right fun hb => by
        rcases hb with ⟨_, hb⟩ | ⟨hne, _⟩
        · exact hb
        · exact absurd rfl hne))
    rw [e]
    exact run_of_readingEntry hwf h hk hv hfk (dec_fits hwf hv hfv (by simpa using h3 [] (.inl rfl))) r hr
end

/-! ### the converse -/

/-- The part of a payload that a codec takes. -/
def Part (c : Codec) (data d : Bytes) : Prop := (¬ c.isBool ∧ d = data) ∨ (c.isBool ∧ ∃ x q, data = x :: q ∧ d = [x])

theorem part_elem {c c' : Codec} (h : c'.isBool ↔ c.isBool) {data d : Bytes} (hp : Part c data d) : Part c' data d := by
  rcases hp with ⟨h1, h2⟩ | ⟨h1, h2⟩
  · exact .inl ⟨fun h' => h1 (h.mp h'), h2⟩
  · exact .inr ⟨h.mpr h1, h2⟩

/-- The front of an accepted input becomes the first record of its division. -/
theorem cuts_part {isb : Nat → Prop} {tg data rest d : Bytes} {num wt m : Nat} {c : Codec} {rs} (ht : TagBytes tg num wt) (hp : Payload wt data)
    (hb : isb num ↔ c.isBool) (hd : Part c data d) (hm : m = d.length) (h : Cuts isb ((data ++ rest).drop m) rs) :
    Cuts isb (tg ++ (data ++ rest)) ((num, wt, d) :: rs) := by
  subst hm
  rcases hd with ⟨h1, rfl⟩ | ⟨h1, x, q, rfl, rfl⟩
  · rw [List.drop_left] at h
    rw [← List.append_assoc]
    exact .whole _ _ _ _ _ _ (fun hh => h1 (hb.mp hh)) ⟨tg, ht, hp, rfl⟩ h
  · exact .bool _ _ _ _ _ _ _ (hb.mpr h1) ht hp h

theorem readingEntry_of_run {L : Layout} {env : Env} (hwf : WFEnv L env) {i : MapInfo} {kd vd : Codec} (hkw : kd.WF)
    (hvw : vd.WF) (N : Nat)
    (ihk : ∀ data old new m, Payload (keyType i.eKey) data → data.length ≤ N → Fits L kd.shape old →
      dec env kd data old = .ok (.ok new m) → ∃ d, Part kd data d ∧ m = d.length ∧ Reading env kd old d new)
    (ihv : ∀ data old new m, Payload (keyType i.eVal) data → data.length ≤ N → Fits L vd.shape old →
      dec env vd data old = .ok (.ok new m) → ∃ d, Part vd data d ∧ m = d.length ∧ Reading env vd old d new) :
    ∀ body, body.length ≤ N → ∀ k v k' v', Fits L kd.shape k → Fits L vd.shape v →
      run (entryIdx (zerosOf env) (decM env) i kd vd) body [k, v] = .ok ([k', v'], none) →
      ∃ rs, Cuts (BoolPart i kd vd) body rs ∧ ReadingEntry env i kd vd k v rs k' v' := by
  intro body
  induction hl : body.length using Nat.strongRecOn generalizing body with
  | ind n ih =>
    intro hN k v k' v' hk hv h
    by_cases h0 : body = []
    · subst h0
      rw [run_nil] at h; cases h
      exact ⟨[], .nil, .nil _ _ _ _ _⟩
    rw [run_cons _ _ _ h0] at h
    rcases hs : stepS (entryIdx (zerosOf env) (decM env) i kd vd) body [k, v] with er | ⟨vs1, er⟩ | ⟨rest, vs1⟩ <;>
      simp only [hs] at h
    · simp at h
    · simp at h
    have hlt := stepS_lt hs
    obtain ⟨tg, num, wt, data, ht, hp, hcase⟩ := stepS_next_inv hs
    have hrec : Record (tg ++ data) num wt data := ⟨tg, ht, hp, rfl⟩
    rcases hcase with ⟨hi, rfl, rfl⟩ | ⟨f, rest', x, x', m, hi, rfl, rfl, hx, hdec, rfl, rfl⟩
    · obtain ⟨rs, h1, h2⟩ := ih _ (by omega) rest rfl (by omega) k v k' v' hk hv h
      have hn : num ≠ keyNumber i.eKey ∧ num ≠ keyNumber i.eVal := by
        unfold entryIdx at hi
        split at hi
        · simp at hi
        · split at hi
          · simp at hi
          · exact ⟨by assumption, by assumption⟩
      refine ⟨(num, wt, data) :: rs, ?_, .unknown _ _ _ _ _ _ _ _ _ _ _ hn.1 hn.2 h2⟩
      rw [← List.append_assoc]
      exact .whole _ _ _ _ _ _ (by simp [BoolPart, hn.1, hn.2]) hrec h1
    · have hlen : data.length ≤ N := by simp at hl; omega
      unfold entryIdx at hi
      split at hi
      · rename_i hnum
        subst hnum
        simp only [Option.some.injEq] at hi
        subst hi
        simp at hx; subst hx
        obtain ⟨d, hd, hm, h3⟩ := ihv data v x' _ hp hlen hv hdec
        obtain ⟨rs, h1, h2⟩ := ih _ (by omega) _ rfl (by omega) k x' k' v' hk (dec_fits hwf hvw hv hdec) h
        exact ⟨(_, _, d) :: rs, cuts_part ht hp (by simp [BoolPart]) hd hm h1, .val _ _ _ _ _ _ _ _ _ _ h3 h2⟩
      · split at hi
        · rename_i hne hnum
          subst hnum
          simp only [Option.some.injEq] at hi
          subst hi
          simp at hx; subst hx
          obtain ⟨d, hd, hm, h3⟩ := ihk data k x' _ hp hlen hk hdec
          obtain ⟨rs, h1, h2⟩ := ih _ (by omega) _ rfl (by omega) x' v k' v' (dec_fits hwf hkw hk hdec) hv h
          exact ⟨(_, _, d) :: rs, cuts_part ht hp (by simp [BoolPart, hne]) hd hm h1, .key _ _ _ _ _ _ _ _ _ _ hne h3 h2⟩
        · simp at hi

theorem payload_cons {w : Nat} {data : Bytes} (h : Payload w data) : ∃ x q, data = x :: q := by
  have := takePayload_pos h
  cases data with
  | nil => simp at this
  | cons x q => exact ⟨x, q, rfl⟩

theorem scalar_part {L : Layout} {s : Scalar} {data : Bytes} {old new : Val} {m : Nat} (hp : Payload s.wire data)
    (hf : Fits L s.shape old) (h : decodeScalar s data old = .ok (.ok new m)) :
    (s ≠ .bool ∧ m = data.length ∧ ReadsAs s data new) ∨ (s = .bool ∧ ∃ x q, data = x :: q ∧ m = 1 ∧ new = .b8 (x ≠ 0#8)) := by
  by_cases hs : s = .bool
  · subst hs
    obtain ⟨x, q, rfl⟩ := payload_cons hp
    rw [decodeBool_byte hf] at h
    simp only [Except.ok.injEq, DRes.ok.injEq] at h
    exact .inr ⟨rfl, x, q, rfl, h.2.symm, h.1.symm⟩
  · obtain ⟨w, h1, h2⟩ := decodeScalar_payload hf hp (fun e => absurd e hs)
    rw [h] at h1; simp at h1
    exact .inl ⟨hs, h1.2, h1.1 ▸ h2⟩

/-- Codecs, given the messages nested in shorter inputs. -/
theorem reading_of_dec {L : Layout} {env : Env} (hwf : WFEnv L env) (N : Nat)
    (IH : ∀ t body vs vs', body.length < N → FitsL L (L t) vs → run (idxM env t) body vs = .ok (vs', none) →
      ∃ rs, Cuts (BoolNumber (env t).fields) body rs ∧ ReadingRecs env t vs rs vs') :
    ∀ (c : Codec) (w : Nat), c.WF → c.Reads w → ∀ data old new m, Payload w data → data.length ≤ N →
      Fits L c.shape old → dec env c data old = .ok (.ok new m) → ∃ d, Part c data d ∧ m = d.length ∧ Reading env c old d new := by
  intro c
  induction c with
  | normal s =>
    intro w _ hr data old new m hp _ hf h
    simp only [Codec.Reads] at hr; subst hr
    rcases scalar_part hp hf h with ⟨hs, rfl, h1⟩ | ⟨rfl, x, q, rfl, rfl, rfl⟩
    · exact ⟨data, .inl ⟨hs, rfl⟩, rfl, .normal _ _ _ _ hs h1⟩
    · exact ⟨[x], .inr ⟨rfl, x, q, rfl, rfl⟩, rfl, .normalBool _ x⟩
  | required s =>
    intro w _ hr data old new m hp _ hf h
    simp only [Codec.Reads] at hr; subst hr
    rcases scalar_part hp hf h with ⟨hs, rfl, h1⟩ | ⟨rfl, x, q, rfl, rfl, rfl⟩
    · exact ⟨data, .inl ⟨hs, rfl⟩, rfl, .required _ _ _ _ hs h1⟩
    · exact ⟨[x], .inr ⟨rfl, x, q, rfl, rfl⟩, rfl, .requiredBool _ x⟩
  | option s =>
    intro w _ hr data old new m hp _ hf h
    simp only [Codec.Reads] at hr; subst hr
    simp only [Codec.shape] at hf
    simp only [dec, codecDecode, decodeOption] at h
    have key : ∀ b v, Fits L s.shape v → (∃ x, decodeScalar s data v = .ok (.ok x m) ∧ new = .opt true x) →
        ∃ d, Part (.option s) data d ∧ m = d.length ∧ Reading env (.option s) (.opt b v) d new := by
      rintro b v hv ⟨x, h1, rfl⟩
      rcases scalar_part hp hv h1 with ⟨hs, rfl, h2⟩ | ⟨rfl, x, q, rfl, rfl, rfl⟩
      · exact ⟨data, .inl ⟨hs, rfl⟩, rfl, .option _ _ _ _ _ hs h2⟩
      · exact ⟨[x], .inr ⟨rfl, x, q, rfl, rfl⟩, rfl, .optionBool _ _ x⟩
    cases hf with
    | none =>
      obtain ⟨r, h1, h2⟩ := bind_ok h
      simp only [pure, Except.pure, Except.ok.injEq] at h2
      obtain ⟨x, rfl, rfl⟩ := wrap_ok h2
      exact key _ _ (fits_zero L _) ⟨x, h1, rfl⟩
    | some _ v hv =>
      obtain ⟨r, h1, h2⟩ := bind_ok h
      simp only [pure, Except.pure, Except.ok.injEq] at h2
      obtain ⟨x, rfl, rfl⟩ := wrap_ok h2
      exact key _ _ hv ⟨x, h1, rfl⟩
  | bytes =>
    intro w _ hr data old new m hp _ hf h
    simp only [Codec.Reads] at hr; subst hr
    obtain ⟨body, ⟨p, hp', rfl⟩, _⟩ := payload_varlen hp
    simp only [Codec.shape] at hf
    cases hf with
    | bytes x =>
      simp only [dec, codecDecode, decodeBytes, decodeVarlen_payload hp', bind, Except.bind, pure, Except.pure, DRes.mk,
        Except.ok.injEq, DRes.ok.injEq] at h
      rw [← h.1]
      exact ⟨_, .inl ⟨id, rfl⟩, by rw [← h.2, List.length_append], .bytes x _ body ⟨p, hp', rfl⟩⟩
  | ptr z c ih =>
    intro w hw hr data old new m hp hl hf h
    simp only [Codec.shape] at hf
    simp only [dec, codecDecode] at h
    cases hf with
    | ptrNil =>
      obtain ⟨r, h1, h2⟩ := bind_ok h
      simp only [pure, Except.pure, Except.ok.injEq] at h2
      obtain ⟨x, rfl, rfl⟩ := wrap_ok h2
      obtain ⟨d, hd, hm, hr⟩ := ih w hw.2 hr data z x m hp hl (by rw [hw.1]; exact fits_zero L _) h1
      exact ⟨d, hd, hm, .ptrNew z c d x hr⟩
    | ptr _ v hv =>
      obtain ⟨r, h1, h2⟩ := bind_ok h
      simp only [pure, Except.pure, Except.ok.injEq] at h2
      obtain ⟨x, rfl, rfl⟩ := wrap_ok h2
      obtain ⟨d, hd, hm, hr⟩ := ih w hw.2 hr data v x m hp hl hv h1
      exact ⟨d, hd, hm, .ptrOld z c v d x hr⟩
  | msg t =>
    intro w _ hr data old new m hp hl hf h
    simp only [Codec.Reads] at hr; subst hr
    obtain ⟨body, ⟨p, hp', rfl⟩, hlt⟩ := payload_varlen hp
    unfold dec at h
    rw [codecDecode_msg] at h
    have hz := hwf.zero_fits t
    obtain ⟨zs, hze, hzf⟩ := fitsMsg_iff.mp hz
    simp only [Codec.shape] at hf
    generalize hsh : Shape.msg t = sh at hf
    cases hf with
    | msgNil =>
      cases hsh
      simp only [msgTarget, hze, decodeVarint_of hp', List.drop_left, decM_eq] at h
      rcases hrun : run (idxM env t) body zs with e | ⟨vs', _ | e⟩ <;> simp [hrun, toDRes] at h
      obtain ⟨rfl, rfl⟩ := h
      obtain ⟨rs, h1, h2⟩ := IH t body zs vs' (by omega) hzf hrun
      exact ⟨_, .inl ⟨id, rfl⟩, by simp, .msgNew t _ body rs zs vs' hze ⟨p, hp', rfl⟩ h1 h2⟩
    | msg _ vs hlen hvs =>
      cases hsh
      simp only [msgTarget, decodeVarint_of hp', List.drop_left, decM_eq] at h
      rcases hrun : run (idxM env t) body vs with e | ⟨vs', _ | e⟩ <;> simp [hrun, toDRes] at h
      obtain ⟨rfl, rfl⟩ := h
      obtain ⟨rs, h1, h2⟩ := IH t body vs vs' (by omega) ⟨hlen, hvs⟩ hrun
      exact ⟨_, .inl ⟨id, rfl⟩, by simp, .msgOld t _ body rs vs vs' ⟨p, hp', rfl⟩ h1 h2⟩
    | _ => cases hsh
  | slice z c ih =>
    intro w hw hr data old new m hp hl hf h
    simp only [Codec.shape] at hf
    cases hf with
    | slice _ n es sp _ _ hsp =>
      simp only [dec, codecDecode] at h
      cases sp with
      | nil =>
        have hg : growIfFull z es [] = z :: List.replicate ((if es = [] then 10 else es.length) - 1) z := by
          unfold growIfFull
          cases es with
          | nil => rfl
          | cons e es =>
            simp only [List.length_cons, List.length_nil, Nat.add_zero, if_true]
            have : ¬ (2 * (es.length + 1) = 0) := by omega
            have e1 : 2 * (es.length + 1) - (es.length + 1) = es.length + 1 := by omega
            simp [e1, List.replicate_succ]
        simp only [hg] at h
        obtain ⟨r, h1, h2⟩ := bind_ok h
        cases r with
        | ok x k =>
          simp [pure, Except.pure] at h2
          obtain ⟨rfl, rfl⟩ := h2
          obtain ⟨d, hd, hm, hr⟩ := ih w hw.2 hr data z x k hp hl (by rw [hw.1]; exact fits_zero L _) h1
          exact ⟨d, hd, hm, .sliceGrow z c n es d x hr⟩
        | err x e => simp [pure, Except.pure] at h2
      | cons slot sp =>
        simp only [growIfFull, reduceCtorEq, if_false] at h
        obtain ⟨r, h1, h2⟩ := bind_ok h
        cases r with
        | ok x k =>
          simp [pure, Except.pure] at h2
          obtain ⟨rfl, rfl⟩ := h2
          obtain ⟨d, hd, hm, hr⟩ := ih w hw.2 hr data slot x k hp hl (hsp slot (by simp)) h1
          exact ⟨d, hd, hm, .sliceSlot z c n es slot sp d x hr⟩
        | err x e => simp [pure, Except.pure] at h2
  | map i kc vc kd vd _ _ ihk ihv =>
    intro w hw hr data old new m hp hl hf h
    obtain ⟨hk, hkd, hvd, hkz, hvz, _, _, hkdw, hvdw⟩ := hw
    simp only [Codec.Reads] at hr
    obtain ⟨rfl, hkr, hvr⟩ := hr
    have hex := exact_codec env (.map i kc vc kd vd) 2 ⟨rfl, hkr, hvr⟩ data hp (fun h => by cases h) _ _ _ h
    obtain ⟨body, ⟨p, hp', rfl⟩, hlt⟩ := payload_varlen hp
    simp only [Codec.shape] at hf
    cases hf with
    | map _ _ n mm _ _ _ _ =>
      unfold dec at h
      rw [codecDecode_map _ _ _ _ _ _ _ (bounded_codec _ _ (bounded_decM env) _)
        (bounded_codec _ _ (bounded_decM env) _)] at h
      have hne : p ++ body ≠ [] := by have := hp'.1.length_pos; intro e; simp at e; simp [e] at this
      simp only [hne, if_false, decodeVarint_of hp', List.drop_left] at h
      rcases hrun : run (entryIdx (zerosOf env) (decM env) i kd vd) body [i.kzero, i.vzero]
        with e | ⟨vs, _ | e⟩ <;> simp only [hrun] at h
      · simp at h
      · split at h
        · simp at h
        · simp at h
        · rename_i k v heq
          simp only [Except.ok.injEq, Prod.mk.injEq, and_true] at heq
          subst heq
          split at h
          · rename_i key hkey
            simp only [Except.ok.injEq, DRes.ok.injEq] at h
            rw [← h.1]
            have hkv : k = key.toVal := by
              cases k <;> simp [Val.toKey?] at hkey <;> subst hkey <;> rfl
            subst hkv
            obtain ⟨rs, h1, h2⟩ := readingEntry_of_run hwf hkdw hvdw N
              (fun data old new m hp hl hf hd => ihk _ hkdw hkr data old new m hp hl hf hd)
              (fun data old new m hp hl hf hd => ihv _ hvdw hvr data old new m hp hl hf hd)
              body (by omega) i.kzero i.vzero _ v
              (by rw [hkz, hkd]; exact fits_zero L _) (by rw [hvz, hvd]; exact fits_zero L _) hrun
            exact ⟨_, .inl ⟨id, rfl⟩, hex, .map i kc vc kd vd n mm _ body rs key v _ ⟨p, hp', rfl⟩ h1 h2 (mapAssign_assign mm key v)⟩
          · simp at h
        · simp at h
      · simp at h

/-- What is accepted has been read. -/
theorem readingRecs_of_run {L : Layout} {env : Env} (hwf : WFEnv L env) (hr : ReadsOK env) :
    ∀ body t vs vs', FitsL L (L t) vs → run (idxM env t) body vs = .ok (vs', none) →
      ∃ rs, Cuts (BoolNumber (env t).fields) body rs ∧ ReadingRecs env t vs rs vs' := by
  intro body
  induction hl : body.length using Nat.strongRecOn generalizing body with
  | ind n ih =>
    intro t vs vs' hf h
    by_cases h0 : body = []
    · subst h0
      rw [run_nil] at h; cases h
      exact ⟨[], .nil, .nil _ _⟩
    rw [run_cons _ _ _ h0] at h
    rcases hs : stepS (idxM env t) body vs with er | ⟨vs1, er⟩ | ⟨rest, vs1⟩ <;> simp only [hs] at h
    · simp at h
    · simp at h
    have hlt := stepS_lt hs
    obtain ⟨tg, num, wt, data, ht, hp, hcase⟩ := stepS_next_inv hs
    have hrec : Record (tg ++ data) num wt data := ⟨tg, ht, hp, rfl⟩
    rcases hcase with ⟨hi, rfl, rfl⟩ | ⟨f, rest', x, x', m, hi, rfl, rfl, hx, hdec, rfl, rfl⟩
    · obtain ⟨rs, h1, h2⟩ := ih _ (by omega) rest rfl t vs1 vs' hf h
      have hu : Undeclared (env t).fields num := by
        apply lookup_undeclared.mp
        unfold idxM at hi
        simpa using hi
      refine ⟨(num, wt, data) :: rs, ?_, .unknown _ _ _ _ _ _ _ hu h2⟩
      rw [← List.append_assoc]
      exact .whole _ _ _ _ _ _ (fun ⟨f, hf, _⟩ => hu f hf.mem (by obtain ⟨_, _, _, e, _⟩ := hf; exact e)) hrec h1
    · obtain ⟨g, hg, rfl⟩ := idxM_some hi
      have hsl := hwf.slot t g hg.mem
      have hc := hwf.codec t g hg.mem
      have hold := hf.2 _ _ _ hsl hx
      have htl := ht.2.1.length_pos
      obtain ⟨d, hd, hm, h3⟩ : ∃ d, Part g.codec data d ∧ m = d.length ∧ Reading env g.codec x d x' := by
        refine reading_of_dec hwf n (fun t' b' ws ws' hlen hfw hrun => ?_) g.codec _ hc (hr t g hg.mem) data x x' _ hp ?_
          hold hdec
        · exact ih b'.length hlen b' rfl t' ws ws' hfw hrun
        · simp at hl; omega
      obtain ⟨rs, h1, h2⟩ := ih _ (by omega) _ rfl t (vs.set g.offset x') vs' (fitsL_set hf hsl
        (dec_fits hwf hc hold hdec)) h
      exact ⟨(num, keyType g.tag.wiretag, d) :: rs, cuts_part ht hp (idx_bool hg) hd hm h1, .known _ _ _ _ _ _ _ _ _ hg hx h3 h2⟩

end Pb
