import Verif.Proofs.Conform
import Verif.Proofs.Merge
/-
The meaning of an encoding is the message it came from, as `Back` describes it.
-/
namespace Pb
open Spec

theorem varint64_leb128 {n : Nat} (h : n < 2 ^ 64) : Varint64 (leb128 n) n := by
  refine ⟨varint_leb128 n, ?_, h⟩
  have := leb128_length_le_ten (BitVec.ofNat 64 n)
  rwa [ofNat64_toNat h] at this

theorem bytesAs_delimited {s : Bytes} (h : s.length < 2 ^ 64) : BytesAs (delimited s) s :=
  ⟨leb128 s.length, varint64_leb128 h, rfl⟩

theorem unzigzag_zigzag (i : Int) : unzigzag (zigzag i) = i := by
  unfold unzigzag zigzag
  split <;> split <;> omega

theorem ofNat32_toInt (x : U32) : BitVec.ofNat 32 (x.toInt % 2 ^ 64).toNat = x := by
  apply BitVec.eq_of_toNat_eq
  have hx := x.isLt
  rw [BitVec.toInt_eq_toNat_cond]
  simp only [BitVec.toNat_ofNat]
  split <;> omega

theorem zigzag_lt {i : Int} (h1 : -(2 ^ 63) ≤ i) (h2 : i < 2 ^ 63) : zigzag i < 2 ^ 64 := by
  unfold zigzag; split <;> omega

theorem readsAs_spec_payload {L : Layout} {s : Scalar} {v : Val} (hv : Fits L s.shape v)
    (hl : (payload s v).length < 2 ^ 64) : ReadsAs s (payload s v) v := by
  cases s <;> simp only [Scalar.shape] at hv <;> cases hv <;> rename_i x <;> simp only [payload] at hl ⊢
  · cases x
    · exact .bool [0#8] 0 ⟨.last 0#8 (by decide), by decide, by decide⟩
    · exact .bool [1#8] 1 ⟨.last 1#8 (by decide), by decide, by decide⟩
  · exact .string _ _ (varint64_leb128 (by simp at hl; omega))
  · exact .float32 x
  · exact .float64 x
  · have h := ReadsAs.int32 _ _ (varint64_leb128 (n := (x.toInt % 2 ^ 64).toNat) (by omega))
    rwa [ofNat32_toInt] at h
  · have h := ReadsAs.int64 _ _ (varint64_leb128 (n := (x.toInt % 2 ^ 64).toNat) (by omega))
    rw [toNat_toInt] at h ⊢
    simpa using h
  · have h := ReadsAs.uint32 _ _ (varint64_leb128 (n := x.toNat) (by have := x.isLt; omega))
    simpa using h
  · exact .fixed32 x
  · have h := ReadsAs.uint64 _ _ (varint64_leb128 (n := x.toNat) (by have := x.isLt; omega))
    simpa using h
  · exact .fixed64 x
  · have h := ReadsAs.zigzag32 _ _ (varint64_leb128 (n := zigzag x.toInt)
      (zigzag_lt (by have := BitVec.le_toInt x; omega) (by have := BitVec.toInt_lt (x := x); omega)))
    rwa [unzigzag_zigzag, BitVec.ofInt_toInt] at h
  · have h := ReadsAs.zigzag64 _ _ (varint64_leb128 (n := zigzag x.toInt)
      (zigzag_lt (by have := BitVec.le_toInt x; omega) (by have := BitVec.toInt_lt (x := x); omega)))
    rwa [unzigzag_zigzag, BitVec.ofInt_toInt] at h

theorem payload_bool {L : Layout} {v : Val} (hv : Fits L Scalar.bool.shape v) : (payload .bool v).length = 1 := by
  simp only [Scalar.shape] at hv; cases hv; rfl

theorem wiretag_split (w : U64) : 8 * keyNumber w + keyType w = w.toNat ∧ keyType w < 8 := by
  unfold keyNumber keyType
  omega

theorem record_of {w : U64} {d : Bytes} (h : Payload (keyType w) d) :
    Record (leb128 w.toNat ++ d) (keyNumber w) (keyType w) d := by
  obtain ⟨h1, h2⟩ := wiretag_split w
  exact ⟨_, ⟨h2, by rw [h1]; exact varint64_leb128 w.isLt⟩, h, rfl⟩

theorem records_of_payloads {w : U64} {ds : List Bytes} (h : ∀ d ∈ ds, Payload (keyType w) d) :
    Records (recordsOf w ds) (ds.map fun d => (keyNumber w, keyType w, d)) := by
  induction ds with
  | nil => exact .nil
  | cons d ds ih =>
    rw [recordsOf_cons, ← List.append_assoc]
    exact .cons _ _ _ _ _ _ (record_of (h d (by simp))) (ih fun d hd => h d (by simp [hd]))

/-- The payloads `ds`, merged one after the other. -/
def MergeAll (env : Env) (c : Codec) : Val → List Bytes → Val → Prop
  | old, [], new => new = old
  | old, d :: ds, new => ∃ mid, Merge env c old d mid ∧ MergeAll env c mid ds new

theorem mergeAll_append {env : Env} {c : Codec} {ds ds' : List Bytes} {a b e : Val} (h : MergeAll env c a ds b)
    (h' : MergeAll env c b ds' e) : MergeAll env c a (ds ++ ds') e := by
  induction ds generalizing a with
  | nil => simp only [MergeAll] at h; subst h; exact h'
  | cons d ds ih =>
    obtain ⟨m, h1, h2⟩ := h
    exact ⟨m, h1, ih h2⟩

theorem mergeRecs_append {env : Env} {t : TypeId} {rs ss : List (Nat × Nat × Bytes)} {a b e : List Val} :
    MergeRecs env t a rs b → MergeRecs env t b ss e → MergeRecs env t a (rs ++ ss) e := by
  intro h
  induction rs generalizing a with
  | nil => cases h; exact id
  | cons r rs ih =>
    intro h'
    cases h with
    | unknown _ _ num wt data _ _ hu h2 => exact .unknown _ _ _ _ _ _ _ hu (ih h2 h')
    | known _ _ num data _ _ f old new hd ho hm h2 => exact .known _ _ _ _ _ _ _ _ _ hd ho hm (ih h2 h')

theorem mergeRecs_field {env : Env} {t : TypeId} {f : Field}
    (hd : Declared (env t).fields (keyNumber f.tag.wiretag) f) {ds : List Bytes} {vs : List Val} {old new : Val}
    (ho : vs[f.offset]? = some old) (h : MergeAll env f.codec old ds new) :
    MergeRecs env t vs (ds.map fun d => (keyNumber f.tag.wiretag, keyType f.tag.wiretag, d)) (vs.set f.offset new) := by
  induction ds generalizing vs old with
  | nil =>
    simp only [MergeAll] at h; subst h
    have : vs.set f.offset new = vs := by
      apply List.ext_getElem?
      intro i
      by_cases hi : f.offset = i
      · subst hi; rw [ho]; simp [(List.getElem?_eq_some_iff.mp ho).1]
      · simp [hi]
    rw [this]
    exact .nil _ _
  | cons d ds ih =>
    obtain ⟨mid, h1, h2⟩ := h
    refine .known _ _ _ _ _ _ f old mid hd ho h1 ?_
    have hlt := (List.getElem?_eq_some_iff.mp ho).1
    have := ih (vs := vs.set f.offset mid) (old := mid) (by simp [hlt]) h2
    simpa using this

theorem merge_sameReader {env : Env} {c d : Codec} (h : SameReader c d) :
    ∀ {old data new}, Merge env c old data new → Merge env d old data new := by
  induction h with
  | refl c => exact id
  | normal s => intro old data new h; cases h with | required _ _ _ _ h1 h2 => exact .normal _ _ _ _ h1 h2
  | ptr z c d _ ih =>
    intro old data new h
    cases h with
    | ptrNew _ _ _ _ h => exact .ptrNew _ _ _ _ (ih h)
    | ptrOld _ _ _ _ _ h => exact .ptrOld _ _ _ _ _ (ih h)

/-- What comes back of a codec that writes at most one record. -/
def ElemBack (env : Env) (c : Codec) (w : Nat) (v : Val) (ds : List Bytes) : Prop :=
  ∃ new, Back env c v new ∧ ((ds = [] ∧ ¬ Written c v ∧ new = c.shape.zero) ∨
    ∃ d, ds = [d] ∧ Written c v ∧ Payload w d ∧ Merge env c c.shape.zero d new)

/-- What comes back of any field. -/
def FieldBack (env : Env) (c : Codec) (w : Nat) (v : Val) (ds : List Bytes) : Prop :=
  (∀ d ∈ ds, Payload w d) ∧ ∃ new, Back env c v new ∧ MergeAll env c c.shape.zero ds new

theorem ElemBack.field {env : Env} {c : Codec} {w : Nat} {v : Val} {ds : List Bytes} (h : ElemBack env c w v ds) :
    FieldBack env c w v ds := by
  obtain ⟨new, hb, ⟨rfl, _, rfl⟩ | ⟨d, rfl, _, hp, hm⟩⟩ := h
  · exact ⟨by simp, _, hb, rfl⟩
  · exact ⟨by simpa using hp, _, hb, _, hm, rfl⟩

theorem elem_scalar {L : Layout} {env : Env} {s : Scalar} {v : Val} (hv : Fits L s.shape v)
    (hl : (payload s v).length < 2 ^ 64) (c : Codec) (hc : c = .normal s ∨ c = .required s) (hw : Written c v) :
    ElemBack env c s.wire v [payload s v] := by
  have h := readsAs_spec_payload hv hl
  have hb : s = .bool → (payload s v).length = 1 := by rintro rfl; exact payload_bool hv
  rcases hc with rfl | rfl
  · exact ⟨v, .normal s v, .inr ⟨_, rfl, hw, readsAs_payload h, .normal s _ _ _ h hb⟩⟩
  · exact ⟨v, .required s v, .inr ⟨_, rfl, hw, readsAs_payload h, .required s _ _ _ h hb⟩⟩

/-- A supported field codec that is an element codec. -/
theorem supported_elem {c : Codec} {w : U64} (h : c.Supported w) (h1 : ∀ z d, c ≠ .slice z d)
    (h2 : ∀ i kc vc kd vd, c ≠ .map i kc vc kd vd) : c.IsElem := by
  cases c with
  | slice z d => exact absurd rfl (h1 z d)
  | map i kc vc kd vd => exact absurd rfl (h2 i kc vc kd vd)
  | _ => exact h

theorem declared_of_mem {fields : List Field} (hd : fields.Pairwise fun f g =>
    f.offset ≠ g.offset ∧ keyNumber f.tag.wiretag ≠ keyNumber g.tag.wiretag) {f : Field} (h : f ∈ fields) :
    Declared fields (keyNumber f.tag.wiretag) f := by
  induction fields with
  | nil => simp at h
  | cons g fs ih =>
    rw [List.pairwise_cons] at hd
    rcases List.mem_cons.mp h with rfl | h
    · exact ⟨[], fs, rfl, rfl, fun g hg => (hd.1 g hg).2.symm⟩
    · obtain ⟨xs, ys, rfl, h1, h2⟩ := ih hd.2 h
      exact ⟨g :: xs, ys, rfl, h1, h2⟩

theorem growSpare (z : Val) (n : Nat) : ∀ e ∈ List.replicate n z, e = z := by
  intro e he; exact (List.mem_replicate.mp he).2

mutual
theorem back_codec {L : Layout} {env : Env} (hg : Good L env) {c : Codec} {v : Val} {ds : List Bytes} :
    Encodes env c v ds → ∀ (w : Nat) (tag : U64), c.WF → c.Writes w → Fits L c.shape v →
      (∀ d ∈ ds, d.length < 2 ^ 64) → (c.IsElem → ElemBack env c w v ds) ∧ (c.Supported tag → FieldBack env c w v ds)
  | .zero s => fun w tag _ hw hv hl => by
    have h : ElemBack env (.normal s) w s.shape.zero [] := ⟨_, .normal s _, .inl ⟨rfl, by simp [Written], rfl⟩⟩
    exact ⟨fun _ => h, fun _ => h.field⟩
  | .nonzero s v hz => fun w tag _ hw hv hl => by
    simp only [Codec.Writes] at hw; subst hw
    have h := elem_scalar (env := env) hv (hl _ (by simp)) (.normal s) (.inl rfl) hz
    exact ⟨fun _ => h, fun _ => h.field⟩
  | .required s v => fun w tag _ hw hv hl => by
    simp only [Codec.Writes] at hw; subst hw
    have h := elem_scalar (env := env) hv (hl _ (by simp)) (.required s) (.inr rfl) trivial
    exact ⟨fun _ => h, fun _ => h.field⟩
  | .none s v => fun w tag _ hw hv hl => by
    have h : ElemBack env (.option s) w (.opt false v) [] := by
      simp only [Codec.shape] at hv
      cases hv
      exact ⟨_, .option s _, .inl ⟨rfl, by simp [Written], rfl⟩⟩
    exact ⟨fun _ => h, fun _ => h.field⟩
  | .some s v => fun w tag _ hw hv hl => by
    simp only [Codec.Writes] at hw; subst hw
    have h : ElemBack env (.option s) s.wire (.opt true v) [payload s v] := by
      simp only [Codec.shape] at hv
      have hv : Fits L s.shape v := by cases hv; assumption
      have h := readsAs_spec_payload hv (hl _ (by simp))
      have hb : s = .bool → (payload s v).length = 1 := by rintro rfl; exact payload_bool hv
      exact ⟨_, .option s _, .inr ⟨_, rfl, rfl, readsAs_payload h, .option s _ _ _ _ h hb⟩⟩
    exact ⟨fun _ => h, fun _ => h.field⟩
  | .bytesNil => fun w tag _ hw hv hl => by
    have h : ElemBack env .bytes w (.bytes .none) [] := ⟨_, .bytes _, .inl ⟨rfl, by simp [Written], rfl⟩⟩
    exact ⟨fun _ => h, fun _ => h.field⟩
  | .bytes s => fun w tag _ hw hv hl => by
    simp only [Codec.Writes] at hw; subst hw
    have hs := hl (delimited s) (by simp)
    have hs : s.length < 2 ^ 64 := by simp [delimited] at hs; omega
    have h : ElemBack env .bytes 2 (.bytes (.some s)) [delimited s] :=
      ⟨_, .bytes _, .inr ⟨_, rfl, by simp [Written], .varlen _ _ (varint64_leb128 hs), .bytes _ _ _ (bytesAs_delimited hs)⟩⟩
    exact ⟨fun _ => h, fun _ => h.field⟩
  | .ptrNil z c => fun w tag _ hw hv hl => by
    have h : ElemBack env (.ptr z c) w .nilp [] := ⟨_, .ptrNil _ _, .inl ⟨rfl, by simp [Written], rfl⟩⟩
    exact ⟨fun _ => h, fun _ => h.field⟩
  | .ptr z c v ds he => fun w tag hc hw hv hl => by
    have h : (Codec.ptr z c).IsElem → ElemBack env (.ptr z c) w (.ptr v) ds := fun hel => by
      simp only [Codec.shape] at hv
      have hv : Fits L c.shape v := by cases hv; assumption
      obtain ⟨new, hb, ⟨rfl, h1, rfl⟩ | ⟨d, rfl, h1, h2, h3⟩⟩ := (back_codec hg he w tag hc.2 hw hv hl).1 hel
      · exact ⟨_, .ptrLost _ _ _ h1, .inl ⟨rfl, h1, rfl⟩⟩
      · exact ⟨_, .ptr _ _ _ _ h1 hb, .inr ⟨d, rfl, h1, h2, .ptrNew _ _ _ _ (by rw [hc.1]; exact h3)⟩⟩
    exact ⟨h, fun hs => (h hs).field⟩
  | .msgNil t => fun w tag _ hw hv hl => by
    have h : ElemBack env (.msg t) w .nilp [] := ⟨_, .msgNil _, .inl ⟨rfl, by simp [Written], rfl⟩⟩
    exact ⟨fun _ => h, fun _ => h.field⟩
  | .msg t vs body he => fun w tag hc hw hv hl => by
    simp only [Codec.Writes] at hw; subst hw
    have h : ElemBack env (.msg t) 2 (.ptr (.struct vs)) [delimited body] := by
      have hs := hl (delimited body) (by simp)
      have hs : body.length < 2 ^ 64 := by simp [delimited] at hs; omega
      have hfl := fitsL_of_msg (L := L) (t := t) (vs := vs) hv
      obtain ⟨rs, ws, h1, h2, h3, h4, h5⟩ := back_msg hg he t (fun f hf => hf) (hg.distinct t) hfl hs
        ((L t).map Shape.zero) (fun f hf => by simp [hg.wf.slot t f hf])
      refine ⟨_, .msg t vs ws _ (hg.wf.zero t) ?_ h4 h5, .inr ⟨_, rfl, trivial, .varlen _ _ (varint64_leb128 hs),
        .msgNew t _ body rs _ ws (hg.wf.zero t) (bytesAs_delimited hs) h1 h2⟩⟩
      simp [h3, hfl.1]
    exact ⟨fun _ => h, fun _ => h.field⟩
  | .slice z c n es sp ds he => fun w tag hc hw hv hl => by
    refine ⟨fun h => h.elim, fun hs => ?_⟩
    simp only [Codec.shape] at hv
    have hv : ∀ e ∈ es, Fits L c.shape e := by cases hv; assumption
    obtain ⟨ws, sp', h1, h2, h3⟩ := back_list hg he w z hc.1 hc.2 hs hw hv hl [] [] (by simp) (by simp)
    exact ⟨h3, _, .slice z c n es sp ws sp' h1, by simpa [Codec.shape, Shape.zero] using h2⟩
  | .mapEmpty i kc vc kd vd n => fun w tag hc hw hv hl => by
    refine ⟨fun h => h.elim, fun hs => ?_⟩
    simp only [Codec.Writes] at hw
    obtain ⟨rfl, _, _⟩ := hw
    obtain ⟨hk, _, _, hkz, _⟩ := hc
    obtain ⟨k, hk1⟩ : ∃ k : Key, k.toVal = i.kzero := by
      rw [hkz]
      cases hsh : kc.shape <;> simp [hsh, Shape.isKey] at hk
      · exact ⟨.b8 false, rfl⟩
      · exact ⟨.w32 0#32, rfl⟩
      · exact ⟨.w64 0#64, rfl⟩
      · exact ⟨.str [], rfl⟩
    refine ⟨by simpa using Payload.varlen [0#8] [] ⟨.last 0#8 (by decide), by decide, by decide⟩, _,
      .mapEmpty i kc vc kd vd n k hk1, _, ?_, rfl⟩
    refine .map i kc vc kd vd true [] [0#8] [] [] k i.vzero _ ⟨[0#8], ⟨.last 0#8 (by decide), by decide, by decide⟩, rfl⟩
      .nil ?_ (.new [] k _ (by simp))
    rw [hk1]
    exact .nil _ _ _ _ _
  | .map i kc vc kd vd n m ds hne he => fun w tag hc hw hv hl => by
    refine ⟨fun h => h.elim, fun hs => ?_⟩
    simp only [Codec.shape] at hv
    obtain ⟨hnd, hks, hvs⟩ : (m.map Prod.fst).Nodup ∧ (∀ e ∈ m, Fits L kc.shape e.1.toVal) ∧ ∀ e ∈ m, Fits L vc.shape e.2 := by
      cases hv; exact ⟨by assumption, by assumption, by assumption⟩
    simp only [Codec.Writes] at hw
    obtain ⟨rfl, hwk, hwv⟩ := hw
    obtain ⟨m', n', h1, h2, h3, h4⟩ := back_map hg he kd vd hc hs hwk hwv hnd hks hvs hl true [] (by simp)
    obtain rfl := h3 hne
    exact ⟨h4, _, .map i kc vc kd vd n m m' hne h1, by simpa [Codec.shape, Shape.zero] using h2⟩

theorem back_list {L : Layout} {env : Env} (hg : Good L env) {c : Codec} {es : List Val} {ds : List Bytes} :
    EncodesL env c es ds → ∀ (w : Nat) (z : Val), z = c.shape.zero → c.WF → c.IsElem → c.Writes w →
      (∀ e ∈ es, Fits L c.shape e) → (∀ d ∈ ds, d.length < 2 ^ 64) → ∀ pre sp, (pre = [] → sp = []) → (∀ e ∈ sp, e = z) →
      ∃ ws sp', BackL env c es ws ∧ MergeAll env (.slice z c) (.slice (decide (pre = [])) pre sp) ds
        (.slice (decide (pre ++ ws = [])) (pre ++ ws) sp') ∧ ∀ d ∈ ds, Payload w d
  | .nil c => fun w z hz hc hel hw hv hl pre sp hp hsp => ⟨[], sp, .nil c, by simp [MergeAll], by simp⟩
  | .cons c e es ds ds' he hes => fun w z hz hc hel hw hv hl pre sp hp hsp => by
    have hl1 : ∀ d ∈ ds, d.length < 2 ^ 64 := fun d hd => hl d (by simp [hd])
    have hl2 : ∀ d ∈ ds', d.length < 2 ^ 64 := fun d hd => hl d (by simp [hd])
    obtain ⟨new, hb, ⟨rfl, h1, rfl⟩ | ⟨d, rfl, h1, h2, h3⟩⟩ := (back_codec hg he w 0#64 hc hw (hv e (by simp)) hl1).1 hel
    · obtain ⟨ws, sp', h4, h5, h6⟩ := back_list hg hes w z hz hc hel hw (fun e he => hv e (by simp [he])) hl2 pre sp hp hsp
      exact ⟨ws, sp', .drop _ _ _ _ h1 h4, h5, h6⟩
    · rw [← hz] at h3
      cases sp with
      | nil =>
        obtain ⟨ws, sp', h4, h5, h6⟩ := back_list hg hes w z hz hc hel hw (fun e he => hv e (by simp [he])) hl2
          (pre ++ [new]) (List.replicate ((if pre = [] then 10 else pre.length) - 1) z) (by simp) (growSpare z _)
        refine ⟨new :: ws, sp', .keep _ _ _ _ _ h1 hb h4, ?_, ?_⟩
        · refine ⟨_, .sliceGrow z c _ pre d new h3, ?_⟩
          simpa using h5
        · intro d' hd'
          rcases List.mem_cons.mp hd' with rfl | hd'
          · exact h2
          · exact h6 d' hd'
      | cons s sp =>
        have hs : s = z := hsp s (by simp)
        subst hs
        have hpre : pre ≠ [] := fun e => by have := hp e; simp at this
        obtain ⟨ws, sp', h4, h5, h6⟩ := back_list hg hes w s hz hc hel hw (fun e he => hv e (by simp [he])) hl2
          (pre ++ [new]) sp (by simp) (fun e he => hsp e (by simp [he]))
        refine ⟨new :: ws, sp', .keep _ _ _ _ _ h1 hb h4, ?_, ?_⟩
        · refine ⟨_, .sliceSlot s c _ pre s sp d new h3, ?_⟩
          simpa [hpre] using h5
        · intro d' hd'
          rcases List.mem_cons.mp hd' with rfl | hd'
          · exact h2
          · exact h6 d' hd'

theorem back_map {L : Layout} {env : Env} (hg : Good L env) {i : MapInfo} {kc vc : Codec} {m : List (Key × Val)}
    {ds : List Bytes} :
    EncodesM env i kc vc m ds → ∀ (kd vd : Codec) {tag : U64}, (Codec.map i kc vc kd vd).WF →
      (Codec.map i kc vc kd vd).Supported tag → kc.Writes (keyType i.key.wiretag) → vc.Writes (keyType i.val.wiretag) →
      (m.map Prod.fst).Nodup → (∀ e ∈ m, Fits L kc.shape e.1.toVal) → (∀ e ∈ m, Fits L vc.shape e.2) →
      (∀ d ∈ ds, d.length < 2 ^ 64) → ∀ (n : Bool) (pre : List (Key × Val)), (∀ e ∈ pre, ∀ e' ∈ m, e.1 ≠ e'.1) →
      ∃ m' n', BackM env vc m m' ∧ MergeAll env (.map i kc vc kd vd) (.map n pre) ds (.map n' (pre ++ m')) ∧
        (m ≠ [] → n' = false) ∧ ∀ d ∈ ds, Payload 2 d
  | .nil i kc vc => fun kd vd tag hc hs hwk hwv hnd hks hvs hl n pre hp =>
    ⟨[], n, .nil _, by simp [MergeAll], by simp, by simp⟩
  | .cons i kc vc k v m kds vds ds hke hve hm => fun kd vd tag hc hs hwk hwv hnd hks hvs hl n pre hp => by
    have hsm := hl (delimited (recordsOf i.key.wiretag kds ++ recordsOf i.val.wiretag vds)) (by simp)
    have hsm : (recordsOf i.key.wiretag kds).length + (recordsOf i.val.wiretag vds).length < 2 ^ 64 := by
      simp [delimited] at hsm; omega
    have len_of : ∀ (w : U64) (ds : List Bytes) (d : Bytes), d ∈ ds → d.length ≤ (recordsOf w ds).length := by
      intro w ds d hd
      induction ds with
      | nil => simp at hd
      | cons x xs ih =>
        rw [recordsOf_cons]
        rcases List.mem_cons.mp hd with rfl | hd
        · simp; omega
        · have := ih hd; simp; omega
    have hc' := hc
    have hs' := hs
    obtain ⟨hk, hkd, hvd, hkz, hvz, hkw, hvw, _, _⟩ := hc
    obtain ⟨_, hek, hev, hnum, hkel, hvel, hkr, hvr⟩ := hs
    obtain ⟨knew, hkb, hkcase⟩ := (back_codec hg hke (keyType i.key.wiretag) 0#64 hkw hwk (hks (k, v) (by simp))
      (fun d hd => by have := len_of i.key.wiretag kds d hd; omega)).1 hkel
    obtain ⟨vnew, hvb, hvcase⟩ := (back_codec hg hve (keyType i.val.wiretag) 0#64 hvw hwv (hvs (k, v) (by simp))
      (fun d hd => by have := len_of i.val.wiretag vds d hd; omega)).1 hvel
    -- a key comes back as it was
    have hkk : knew = k.toVal := by
      cases kc with
      | normal s => cases hkb; rfl
      | required s => cases hkb; rfl
      | option s => exact hk.elim
      | bytes => exact hk.elim
      | ptr z c => exact hk.elim
      | msg t => exact hk.elim
      | slice z c => exact hk.elim
      | map i kc vc kd vd => exact hk.elim
    subst hkk
    have hbody : ∃ rs, Records (recordsOf i.key.wiretag kds ++ recordsOf i.val.wiretag vds) rs ∧
        MergeEntry env i kd vd i.kzero i.vzero rs k.toVal vnew := by
      have hne : keyNumber i.eKey ≠ keyNumber i.eVal := by rw [hek, hev]; exact hnum
      have val : ∀ kv : Val, ∃ rs, Records (recordsOf i.val.wiretag vds) rs ∧ MergeEntry env i kd vd kv i.vzero rs kv vnew := by
        intro kv
        rcases hvcase with ⟨rfl, _, rfl⟩ | ⟨d, rfl, _, hpd, hmd⟩
        · rw [← hvz]; exact ⟨[], .nil, .nil _ _ _ _ _⟩
        · refine ⟨[(keyNumber i.val.wiretag, keyType i.val.wiretag, d)], ?_, ?_⟩
          · exact records_of_payloads (by simpa using hpd)
          · rw [← hev]
            exact .val _ _ _ _ _ _ _ _ _ _ (merge_sameReader hvr (by rw [hvz]; exact hmd)) (.nil _ _ _ _ _)
      obtain ⟨rs, hr, hme⟩ := val k.toVal
      rcases hkcase with ⟨rfl, _, hz⟩ | ⟨d, rfl, _, hpd, hmd⟩
      · refine ⟨rs, by simpa [recordsOf_nil] using hr, ?_⟩
        rw [hkz, ← hz]; exact hme
      · refine ⟨(keyNumber i.key.wiretag, keyType i.key.wiretag, d) :: rs, ?_, ?_⟩
        · rw [recordsOf_one]
          exact .cons _ _ _ _ _ _ (record_of hpd) hr
        · rw [← hek]
          exact .key _ _ _ _ _ _ _ _ _ _ hne (merge_sameReader hkr (by rw [hkz]; exact hmd)) hme
    obtain ⟨rs, hr, hme⟩ := hbody
    simp only [List.map_cons, List.nodup_cons] at hnd
    obtain ⟨m', n', h1, h2, h3, h4⟩ := back_map hg hm kd vd hc' hs' hwk hwv hnd.2 (fun e he => hks e (by simp [he]))
      (fun e he => hvs e (by simp [he])) (fun d hd => hl d (by simp [hd])) false (pre ++ [(k, vnew)]) (by
        intro e he e' he' hee
        rcases List.mem_append.mp he with he | he
        · exact hp e he e' (by simp [he']) hee
        · simp at he; subst he
          exact hnd.1 (List.mem_map.mpr ⟨e', he', hee.symm⟩))
    refine ⟨(k, vnew) :: m', n', .cons _ _ _ _ _ _ hvb h1, ?_, ?_, ?_⟩
    · refine ⟨_, .map i kc vc kd vd n pre _ _ rs k vnew _ (bytesAs_delimited (by simpa using hsm)) hr hme
        (.new pre k vnew fun e he => hp e he (k, v) (by simp)), by simpa using h2⟩
    · intro _
      cases m with
      | nil =>
        cases hm
        simp only [MergeAll, Val.map.injEq] at h2
        exact h2.1
      | cons e m => exact h3 (by simp)
    · intro d hd
      rcases List.mem_cons.mp hd with rfl | hd
      · exact .varlen _ _ (varint64_leb128 (by simpa using hsm))
      · exact h4 d hd

theorem back_msg {L : Layout} {env : Env} (hg : Good L env) {fs : List Field} {vs : List Val} {b : Bytes} :
    EncodesMsg env fs vs b → ∀ t, (∀ f ∈ fs, f ∈ (env t).fields) →
      (fs.Pairwise fun f g => f.offset ≠ g.offset ∧ keyNumber f.tag.wiretag ≠ keyNumber g.tag.wiretag) →
      FitsL L (L t) vs → b.length < 2 ^ 64 → ∀ cur : List Val,
      (∀ f ∈ fs, cur[f.offset]? = Option.some f.codec.shape.zero) →
      ∃ rs ws, Records b rs ∧ MergeRecs env t cur rs ws ∧ ws.length = cur.length ∧
        (∀ f ∈ fs, ∀ v w, vs[f.offset]? = Option.some v → ws[f.offset]? = Option.some w → Back env f.codec v w) ∧
        (∀ i : Nat, (∀ f ∈ fs, f.offset ≠ i) → ws[i]? = cur[i]?)
  | .nil vs => fun t hsub hpw hf hl cur hz => ⟨[], cur, .nil, .nil _ _, rfl, by simp, by simp⟩
  | .cons f fs vs v ds b hv he hes => fun t hsub hpw hf hl cur hz => by
    have hmem := hsub f (by simp)
    rw [List.pairwise_cons] at hpw
    simp only [List.length_append] at hl
    have len_of : ∀ (w : U64) (ds : List Bytes) (d : Bytes), d ∈ ds → d.length ≤ (recordsOf w ds).length := by
      intro w ds d hd
      induction ds with
      | nil => simp at hd
      | cons x xs ih =>
        rw [recordsOf_cons]
        rcases List.mem_cons.mp hd with rfl | hd
        · simp; omega
        · have := ih hd; simp; omega
    have hfit : Fits L f.codec.shape v := hf.2 _ _ _ (hg.wf.slot t f hmem) hv
    obtain ⟨hpay, new, hb, hm⟩ := (back_codec hg he (keyType f.tag.wiretag) f.tag.wiretag (hg.wf.codec t f hmem)
      (hg.writes t f hmem) hfit (fun d hd => by have := len_of f.tag.wiretag ds d hd; omega)).2 (hg.supported t f hmem)
    have hcur := hz f (by simp)
    have hlt := (List.getElem?_eq_some_iff.mp hcur).1
    obtain ⟨rs, ws, h1, h2, h3, h4, h5⟩ := back_msg hg hes t (fun f hf => hsub f (by simp [hf])) hpw.2 hf (by omega)
      (cur.set f.offset new) (fun g hgm => by
        rw [List.getElem?_set_ne (hpw.1 g hgm).1]; exact hz g (by simp [hgm]))
    refine ⟨_, ws, records_append (records_of_payloads hpay) h1,
      mergeRecs_append (mergeRecs_field (declared_of_mem (hg.distinct t) hmem) hcur hm) h2, by simpa using h3, ?_, ?_⟩
    · intro g hgm v' w' hv' hw'
      rcases List.mem_cons.mp hgm with rfl | hgm
      · rw [h5 g.offset (fun g' hg' => (hpw.1 g' hg').1.symm)] at hw'
        rw [hv] at hv'; cases hv'
        simp [hlt] at hw'
        subst hw'; exact hb
      · exact h4 g hgm v' w' hv' hw'
    · intro j hj
      rw [h5 j (fun g hg' => hj g (by simp [hg'])), List.getElem?_set_ne (hj f (by simp))]
end

end Pb
