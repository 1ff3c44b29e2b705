import Verif.Spec.Errors
import Verif.Proofs.Fields
/-
Acceptance and errors as relations on the input.
-/
namespace Pb
open Spec Props

def idxF (env : Env) (fs : List Field) : Nat → Option DField :=
  fun n => (lookup fs n).map (toD (zerosOf env) (decM env))

/-- The fields work on slots of the shapes `sh`. -/
structure FieldsOK (sh : List Shape) (fs : List Field) : Prop where
  slot : ∀ f ∈ fs, sh[f.offset]? = some f.codec.shape
  codec : ∀ f ∈ fs, f.codec.WF
  reads : ∀ f ∈ fs, f.codec.Reads (keyType f.tag.wiretag)

theorem fieldsOK_msg {L : Layout} {env : Env} (hwf : WFEnv L env) (hr : ReadsOK env) (t : TypeId) :
    FieldsOK (L t) (env t).fields := ⟨hwf.slot t, hwf.codec t, hr t⟩

theorem fieldsOK_entry {i : MapInfo} {kc vc kd vd : Codec} {w : Nat} (hc : (Codec.map i kc vc kd vd).WF)
    (hr : (Codec.map i kc vc kd vd).Reads w) : FieldsOK [kc.shape, vc.shape] (entryFields i kd vd) := by
  obtain ⟨_, h1, h2, _, _, _, _, h3, h4⟩ := hc
  obtain ⟨_, h5, h6⟩ := hr
  refine ⟨fun f hf => ?_, fun f hf => ?_, fun f hf => ?_⟩ <;>
    simp only [entryFields, List.mem_cons, List.not_mem_nil, or_false] at hf <;> rcases hf with rfl | rfl
  · simp [h1]
  · simp [h2]
  · exact h3
  · exact h4
  · exact h5
  · exact h6

theorem fitsL_entry {L : Layout} {i : MapInfo} {kc vc kd vd : Codec} (hc : (Codec.map i kc vc kd vd).WF) :
    FitsL L [kc.shape, vc.shape] [i.kzero, i.vzero] := by
  obtain ⟨_, _, _, h1, h2, _⟩ := hc
  refine ⟨rfl, fun j s v hs hv => ?_⟩
  match j with
  | 0 => simp at hs hv; subst hs hv; rw [h1]; exact fits_zero _ _
  | 1 => simp at hs hv; subst hs hv; rw [h2]; exact fits_zero _ _
  | j + 2 => simp at hs

theorem idxF_entry (env : Env) (i : MapInfo) (kd vd : Codec) :
    entryIdx (zerosOf env) (decM env) i kd vd = idxF env (entryFields i kd vd) := by
  funext n
  unfold idxF entryIdx
  simp only [entryFields, lookup, List.reverse_cons, List.reverse_nil, List.nil_append, List.cons_append,
    List.find?_cons, List.find?_nil]
  by_cases h1 : n = keyNumber i.eVal
  · simp [h1, toD]
  · by_cases h2 : n = keyNumber i.eKey
    · subst h2
      simp [h1, toD]
    · simp [h1, h2]

theorem idxF_declared {env : Env} {fs : List Field} {n : Nat} {f : Field} (h : Declared fs n f) :
    idxF env fs n = some (toD (zerosOf env) (decM env) f) := by simp [idxF, lookup_declared.mpr h]

theorem idxF_undeclared {env : Env} {fs : List Field} {n : Nat} (h : Undeclared fs n) : idxF env fs n = none := by
  simp [idxF, lookup_undeclared.mpr h]

theorem idxF_cases {env : Env} {fs : List Field} (n : Nat) :
    (idxF env fs n = none ∧ Undeclared fs n) ∨
    ∃ f, idxF env fs n = some (toD (zerosOf env) (decM env) f) ∧ Declared fs n f := by
  cases h : lookup fs n with
  | none => exact .inl ⟨by simp [idxF, h], lookup_undeclared.mp h⟩
  | some f => exact .inr ⟨f, by simp [idxF, h], lookup_declared.mp h⟩

/-! ### varints and payloads -/

theorem noVarint_iff {s : Bytes} {e : Err} : NoVarint s e ↔ ∃ v n, decodeVarint s = (v, n, some e) := by
  constructor
  · rintro (⟨_, h⟩ | ⟨p, r, n, h1, h2⟩)
    · obtain ⟨y, h⟩ := decodeVarint_eof h
      exact ⟨_, _, h⟩
    · exact ⟨_, _, decodeVarint_overflow h1 h2 r⟩
  · rintro ⟨v, n, h⟩
    rcases decodeVarint_cases s with ⟨p, r, m, rfl, _, _, _, h1⟩ | ⟨p, r, m, rfl, h1, h2, h3⟩ | ⟨h1, y, h2⟩
    · rw [h1] at h; simp at h
    · rw [h3] at h; simp at h; rw [← h.2.2]; exact .overflow _ _ _ h1 h2
    · rw [h2] at h; simp at h; rw [← h.2.2]; exact .eof _ h1

theorem decodeTag_err {s : Bytes} {e : Err} : (decodeTag s).2.2.2 = some e ↔ NoVarint s e := by
  rw [noVarint_iff]
  unfold decodeTag
  rcases decodeVarint s with ⟨v, n, o⟩
  simp

theorem noPayload_iff {wt : Nat} {s : Bytes} {e : Err} : NoPayload wt s e ↔ takePayload s wt = .error e := by
  constructor
  · rintro (⟨_, _, h⟩ | ⟨_, h⟩ | ⟨_, _, h⟩ | ⟨p, r, n, h, hl⟩ | ⟨_, h⟩ | ⟨_, _, h0, h1, h2, h5⟩)
    · obtain ⟨v, n, h⟩ := noVarint_iff.mp h
      simp [takePayload, h]
    · simp [takePayload, wtVarint, wtVarlen, wtFixed32, wtFixed64, h]
    · obtain ⟨v, n, h⟩ := noVarint_iff.mp h
      simp [takePayload, wtVarint, wtVarlen, h]
    · have h3 := h.3
      simp only [takePayload, wtVarint, wtVarlen, decodeVarint_of h]
      simp only [BitVec.toNat_ofNat, Nat.mod_eq_of_lt h3]
      simpa using hl
    · simp [takePayload, wtVarint, wtVarlen, wtFixed32, h]
    · simp [takePayload, wtVarint, wtVarlen, wtFixed32, wtFixed64, h0, h1, h2, h5]
  · intro h
    unfold takePayload at h
    split at h
    · rename_i hw; subst hw
      split at h
      · simp at h
      · rename_i v n e' hd
        simp at h; subst h
        exact .varint _ _ (noVarint_iff.mpr ⟨_, _, hd⟩)
    split at h
    · rename_i hw; subst hw
      split at h
      · rename_i l n hd
        obtain ⟨p, r', rfl, hp, rfl⟩ := decodeVarint_inv hd
        split at h
        · rename_i hlt
          simp at h; subst h
          simp at hlt
          exact .body _ _ _ hp hlt
        · simp at h
      · rename_i v n e' hd
        simp at h; subst h
        exact .length _ _ (noVarint_iff.mpr ⟨_, _, hd⟩)
    split at h
    · rename_i hw; subst hw
      split at h
      · rename_i hl; simp at h; subst h; exact .fixed32 _ hl
      · simp at h
    split at h
    · rename_i hw; subst hw
      split at h
      · rename_i hl; simp at h; subst h; exact .fixed64 _ hl
      · simp at h
    · rename_i h0 h2 h5 h1
      simp at h; subst h
      exact .unknown _ _ h0 h1 h2 h5

/-! ### scalars -/

theorem payload_ne_nil {w : Nat} {data : Bytes} (h : Payload w data) : data ≠ [] := by
  cases h with
  | varint _ n h => intro e; subst e; have := h.1.length_pos; simp at this
  | fixed64 _ h => intro e; subst e; simp at h
  | varlen p bs h => intro e; have := h.1.length_pos; simp at e; simp [e.1] at this
  | fixed32 _ h => intro e; subst e; simp at h

/-- Scalar payloads are always fine; bools consume one byte. -/
theorem decodeScalar_fine {L : Layout} {s : Scalar} {data : Bytes} {v : Val} (hf : Fits L s.shape v)
    (hp : Payload s.wire data) :
    ∃ w m, decodeScalar s data v = .ok (.ok w m) ∧ (s = .bool → m = 1) ∧ (s ≠ .bool → m = data.length) := by
  by_cases hs : s = .bool
  · subst hs
    have := payload_ne_nil hp
    cases data with
    | nil => exact absurd rfl this
    | cons c cs =>
      simp only [Scalar.shape] at hf
      cases hf with
      | b8 x => exact ⟨.b8 (c ≠ 0#8), 1, rfl, fun _ => rfl, fun h => absurd rfl h⟩
  · obtain ⟨w, h, _⟩ := decodeScalar_payload hf hp (fun h => absurd h hs)
    exact ⟨w, _, h, fun h => absurd h hs, fun _ => rfl⟩

/-! ### payloads and inputs, forward -/

/-- The loop on shorter inputs is explained. -/
def Explained (L : Layout) (env : Env) (k : Nat) : Prop :=
  ∀ b : Bytes, b.length < k → ∀ fs sh vs, FieldsOK sh fs → FitsL L sh vs →
    ∃ vs' o, run (idxF env fs) b vs = .ok (vs', o) ∧ (o = none → Readable env fs b) ∧ ∀ e, o = some e → Rejected env fs b e

theorem fits_msgTarget {L : Layout} {env : Env} (hwf : WFEnv L env) {t : TypeId} {old : Val} (hf : Fits L (.msg t) old) :
    ∃ vs, msgTarget (zerosOf env t) old = .ok (.struct vs) ∧ FitsL L (L t) vs := by
  cases hf with
  | msgNil =>
    refine ⟨(L t).map Shape.zero, by simp [msgTarget, zerosOf, hwf.zero t], ?_⟩
    have := hwf.zero_fits t
    simp only [zerosOf, hwf.zero t] at this
    exact fitsL_of_msg this
  | msg _ vs h1 h2 => exact ⟨vs, rfl, h1, h2⟩

theorem dec_explained {L : Layout} {env : Env} (hwf : WFEnv L env) (hr : ReadsOK env) {k : Nat} (ih : Explained L env k) :
    ∀ {c : Codec} {w : Nat} {data : Bytes} {old : Val}, c.WF → c.Reads w → Payload w data → data.length ≤ k →
      Fits L c.shape old →
      (∃ new m, dec env c data old = .ok (.ok new m) ∧ Fine env c data ∧ (c.isBool → m = 1) ∧
        (¬ c.isBool → m = data.length)) ∨
      (∃ new e, dec env c data old = .ok (.err new e) ∧ Bad env c data e) := by
  intro c
  induction c with
  | normal s =>
    intro w data old _ hw hp _ hf
    simp only [Codec.Reads] at hw; subst hw
    obtain ⟨v, m, h1, h2⟩ := decodeScalar_fine hf hp
    exact .inl ⟨v, m, h1, .normal _ _, h2⟩
  | required s =>
    intro w data old _ hw hp _ hf
    simp only [Codec.Reads] at hw; subst hw
    obtain ⟨v, m, h1, h2⟩ := decodeScalar_fine hf hp
    exact .inl ⟨v, m, h1, .required _ _, h2⟩
  | option s =>
    intro w data old _ hw hp _ hf
    simp only [Codec.Reads] at hw; subst hw
    simp only [Codec.shape] at hf
    have : ∃ b v, old = .opt b v ∧ Fits L s.shape v := by
      cases hf with
      | none => exact ⟨_, _, rfl, fits_zero _ _⟩
      | some _ v h => exact ⟨_, _, rfl, h⟩
    obtain ⟨b, v, rfl, hv⟩ := this
    obtain ⟨v', m, h1, h2⟩ := decodeScalar_fine hv hp
    refine .inl ⟨.opt true v', m, ?_, .option _ _, h2⟩
    simp [dec, codecDecode, decodeOption, h1, bind, Except.bind, pure, Except.pure, DRes.wrap]
  | bytes =>
    intro w data old hc hw hp _ hf
    obtain ⟨new, h1, h2⟩ := dec_singular (env := env) (c := .bytes) trivial hc hw hp (fun h => h.elim) hf
    exact .inl ⟨new, _, h1, .bytes _, fun h => h.elim, fun _ => rfl⟩
  | ptr z c ihc =>
    intro w data old hc hw hp hl hf
    simp only [Codec.shape] at hf
    have key : ∀ o, Fits L c.shape o → (∀ v' m, dec env c data o = .ok (.ok v' m) →
        dec env (.ptr z c) data old = .ok (.ok (.ptr v') m)) → (∀ v' e, dec env c data o = .ok (.err v' e) →
        dec env (.ptr z c) data old = .ok (.err (.ptr v') e)) →
        (∃ new m, dec env (.ptr z c) data old = .ok (.ok new m) ∧ Fine env (.ptr z c) data ∧ (c.isBool → m = 1) ∧
          (¬ c.isBool → m = data.length)) ∨
        (∃ new e, dec env (.ptr z c) data old = .ok (.err new e) ∧ Bad env (.ptr z c) data e) := fun o ho h1 h2 => by
      rcases ihc hc.2 hw hp hl ho with ⟨new, m, h3, h4, h5⟩ | ⟨new, e, h3, h4⟩
      · exact .inl ⟨.ptr new, m, h1 _ _ h3, .ptr _ _ _ h4, h5⟩
      · exact .inr ⟨.ptr new, e, h2 _ _ h3, .ptr _ _ _ _ h4⟩
    cases hf with
    | ptrNil =>
      refine key z (by rw [hc.1]; exact fits_zero _ _) (fun v' m h => ?_) (fun v' e h => ?_) <;>
      · have h' : codecDecode (zerosOf env) (decM env) c data z = _ := h
        simp [dec, codecDecode, h', bind, Except.bind, pure, Except.pure, DRes.wrap]
    | ptr _ o ho =>
      refine key o ho (fun v' m h => ?_) (fun v' e h => ?_) <;>
      · have h' : codecDecode (zerosOf env) (decM env) c data o = _ := h
        simp [dec, codecDecode, h', bind, Except.bind, pure, Except.pure, DRes.wrap]
  | slice z c ihc =>
    intro w data old hc hw hp hl hf
    simp only [Codec.shape] at hf
    cases hf with
    | slice _ n es sp _ _ hsp =>
      obtain ⟨slot, sp', hg, hs⟩ := growIfFull_cons z es sp
      have hsf : Fits L c.shape slot := by
        rcases hs with ⟨_, rfl, _⟩ | rfl
        · rw [hc.1]; exact fits_zero _ _
        · exact hsp _ (by simp)
      rcases ihc hc.2 hw hp hl hsf with ⟨new, m, h3, h4, h5⟩ | ⟨new, e, h3, h4⟩
      · obtain ⟨n', h⟩ := dec_slice_ok (n := n) hg h3
        exact .inl ⟨_, m, h, .slice _ _ _ h4, h5⟩
      · obtain ⟨n', h⟩ := dec_slice_err (n := n) hg h3
        exact .inr ⟨_, e, h, .slice _ _ _ _ h4⟩
  | msg t =>
    intro w data old hc hw hp hl hf
    simp only [Codec.Reads] at hw; subst hw
    obtain ⟨body, hb, hlen⟩ := payload_varlen hp
    obtain ⟨vs, ht, hv⟩ := fits_msgTarget hwf hf
    have hd := dec_msg_unmarshal (env := env) hb ht
    obtain ⟨vs', o, h1, h2, h3⟩ := ih body (by omega) (env t).fields (L t) vs (fieldsOK_msg hwf hr t) hv
    have h1 : run (idxM env t) body vs = .ok (vs', o) := h1
    cases o with
    | none =>
      rw [unmarshal_ok_iff.mpr h1] at hd
      exact .inl ⟨_, _, hd, .msg _ _ _ hb (h2 rfl), fun h => h.elim, fun _ => rfl⟩
    | some e =>
      rw [unmarshal_err_iff.mpr h1] at hd
      exact .inr ⟨_, e, hd, .msg _ _ _ _ hb (h3 e rfl)⟩
  | map i kc vc kd vd =>
    intro w data old hc hw hp hl hf
    have hw2 : w = 2 := hw.1
    subst hw2
    obtain ⟨body, hb, hlen⟩ := payload_varlen hp
    obtain ⟨vs', o, h1, h2, h3⟩ := ih body (by omega) _ _ _ (fieldsOK_entry hc hw) (fitsL_entry hc)
    rw [← idxF_entry] at h1
    have hsafe := codec_safe hwf _ hc data old hf
    simp only [Codec.shape] at hf
    cases hf with
    | map _ _ n m _ _ _ _ =>
      obtain ⟨p, hp', rfl⟩ := hb
      have hne : p ++ body ≠ [] := payload_ne_nil hp
      have hbd := fun c => bounded_codec (zerosOf env) (decM env) (bounded_decM env) c
      rw [codecDecode_map _ _ _ _ _ _ _ (hbd _) (hbd _)] at hsafe
      have hd : dec env (.map i kc vc kd vd) (p ++ body) (.map n m) = _ :=
        codecDecode_map _ _ _ _ _ _ _ (hbd _) (hbd _) (p ++ body) n m
      simp only [hne, if_false, decodeVarint_of hp', List.drop_left, h1] at hd hsafe
      cases o with
      | some e => exact .inr ⟨_, e, hd, .map _ _ _ _ _ _ _ _ ⟨p, hp', rfl⟩ (h3 e rfl)⟩
      | none =>
        refine .inl ?_
        have hfine : Fine env (.map i kc vc kd vd) (p ++ body) := .map _ _ _ _ _ _ _ ⟨p, hp', rfl⟩ (h2 rfl)
        match vs', hd, hsafe with
        | [kv, v], hd, hsafe =>
          cases hk : kv.toKey? with
          | none => simp [hk] at hsafe
          | some key =>
            simp only [hk] at hd
            exact ⟨_, _, hd, hfine, fun h => h.elim, fun _ => rfl⟩
        | [], hd, hsafe => simp at hsafe
        | [_], hd, hsafe => simp at hsafe
        | _ :: _ :: _ :: _, hd, hsafe => simp at hsafe

theorem run_explained {L : Layout} {env : Env} (hwf : WFEnv L env) (hr : ReadsOK env) : ∀ k, Explained L env k := by
  intro k
  induction k using Nat.strongRecOn with
  | ind k ihk =>
    intro b hb fs sh vs hok hv
    have ih : Explained L env b.length := ihk _ hb
    by_cases h0 : b = []
    · subst h0
      exact ⟨vs, none, run_nil _ _, fun _ => .nil _, by simp⟩
    rw [run_cons _ _ _ h0]
    rcases hst : stepS (idxF env fs) b vs with er | st
    · -- impossible
      exfalso
      unfold stepS at hst
      rcases hd : decodeTag b with ⟨num, wt, n, o⟩
      rw [hd] at hst
      cases o with
      | some e => simp at hst
      | none =>
        obtain ⟨p, r, rfl, ht, rfl⟩ := decodeTag_inv hd
        have hpos := ht.2.1.length_pos
        rcases idxF_cases (env := env) (fs := fs) num with ⟨hi, _⟩ | ⟨f, hi, hf⟩
        · simp only [hi] at hst
          split at hst <;> simp at hst
        · simp only [hi, List.drop_left] at hst
          split at hst
          · simp at hst
          · rename_i hwt
            split at hst
            · simp at hst
            · rename_i data rest htp
              obtain ⟨hpay, rfl⟩ := takePayload_inv htp
              obtain ⟨old, ho1, ho2, hfit⟩ := slotOf_fits hv (hok.slot f hf.mem)
              have ho1' : slotOf (.struct vs) (toD (zerosOf env) (decM env) f).offset = .ok old := ho1
              have hwt : wt = keyType f.tag.wiretag := by simpa [toD] using hwt
              subst hwt
              rcases dec_explained hwf hr ih (hok.codec f hf.mem) (hok.reads f hf.mem) hpay (by simp; omega) hfit with
                ⟨new, m, h, _⟩ | ⟨new, e, h, _⟩ <;>
              · have h' : (toD (zerosOf env) (decM env) f).dec data old = _ := h
                simp [ho1', h'] at hst
    · have := stepS_cases hst
      rcases this with ⟨e, he, rfl⟩ | ⟨p, r, num, wt, rfl, ht, hh⟩
      · exact ⟨vs, some e, rfl, by simp, fun e' h => by cases h; exact .tag _ _ _ h0 (decodeTag_err.mp he)⟩
      have hpos := ht.2.1.length_pos
      rcases hh with ⟨hi, hh⟩ | ⟨df, hi, hh⟩
      · have hun : Undeclared fs num := by
          rcases idxF_cases (env := env) (fs := fs) num with ⟨_, h⟩ | ⟨f, h, _⟩
          · exact h
          · rw [h] at hi; simp at hi
        rcases hh with ⟨e, htp, rfl⟩ | ⟨data, rest, hpay, rfl, rfl⟩
        · exact ⟨vs, _, rfl, by simp, fun e' h => by cases h; exact .skip _ _ _ _ _ _ ht hun (noPayload_iff.mpr htp)⟩
        · have hpass : Passes env fs ((p ++ data) ++ rest) rest := .unknown _ _ num wt data _ ⟨p, ht, hpay, rfl⟩ hun
          rw [List.append_assoc] at hpass
          obtain ⟨vs', o, h1, h2, h3⟩ := ih rest (by simp; omega) fs sh vs hok hv
          exact ⟨vs', o, h1, fun h => .cons _ _ _ hpass (h2 h), fun e h => .later _ _ _ _ hpass (h3 e h)⟩
      · obtain ⟨f, rfl, hf⟩ : ∃ f, df = toD (zerosOf env) (decM env) f ∧ Declared fs num f := by
          rcases idxF_cases (env := env) (fs := fs) num with ⟨h, _⟩ | ⟨f, h, hf⟩
          · rw [h] at hi; simp at hi
          · rw [h] at hi; simp at hi; exact ⟨f, hi.symm, hf⟩
        rcases hh with ⟨hne, rfl⟩ | ⟨rfl, hh⟩
        · exact ⟨vs, _, rfl, by simp, fun e' h => by cases h; exact .wire _ _ _ _ _ _ ht hf hne⟩
        rcases hh with ⟨e, htp, rfl⟩ | ⟨data, rest, old, hpay, rfl, ho, hh⟩
        · exact ⟨vs, _, rfl, by simp, fun e' h => by cases h; exact .short _ _ _ _ _ _ ht hf (noPayload_iff.mpr htp)⟩
        have hfit : Fits L f.codec.shape old := hv.2 _ _ _ (hok.slot f hf.mem) ho
        have hrec : Record (p ++ data) num (keyType f.tag.wiretag) data := ⟨p, ht, hpay, rfl⟩
        have hex := dec_explained hwf hr ih (hok.codec f hf.mem) (hok.reads f hf.mem) hpay (by simp; omega) hfit
        rcases hh with ⟨v', m, hdec, rfl⟩ | ⟨v', e, hdec, rfl⟩
        · have hdec : dec env f.codec data old = .ok (.ok v' m) := hdec
          rcases hex with ⟨new, m', h, hfine, hm1, hm2⟩ | ⟨new, e, h, _⟩
          · rw [hdec] at h
            simp only [Except.ok.injEq, DRes.ok.injEq] at h
            obtain ⟨rfl, rfl⟩ := h
            have hv' : FitsL L sh (vs.set f.offset v') :=
              fitsL_set hv (hok.slot f hf.mem) (dec_fits hwf (hok.codec f hf.mem) hfit hdec)
            have hpass : Passes env fs (p ++ (data ++ rest)) ((data ++ rest).drop m) := by
              by_cases hbool : f.codec.isBool
              · have := hm1 hbool; subst this
                have hne := payload_ne_nil hpay
                cases data with
                | nil => exact absurd rfl hne
                | cons c cs =>
                  have := Passes.bool (env := env) fs (p ++ c :: cs) p num f c cs rest hrec hf hbool rfl
                  simpa using this
              · have := hm2 hbool; subst this
                have := Passes.known (env := env) fs (p ++ data) num f data rest hrec hf hbool hfine
                simpa using this
            have hm : 0 < m := by
              have hne := payload_ne_nil hpay
              by_cases hbool : f.codec.isBool
              · have := hm1 hbool; omega
              · have := hm2 hbool
                cases data with
                | nil => exact absurd rfl hne
                | cons c cs => simp at this; omega
            obtain ⟨vs', o, h1, h2, h3⟩ := ih ((data ++ rest).drop m)
              (by simp only [List.length_drop, List.length_append]; omega) fs sh _ hok hv'
            exact ⟨vs', o, h1, fun h => .cons _ _ _ hpass (h2 h), fun e h => .later _ _ _ _ hpass (h3 e h)⟩
          · rw [hdec] at h; simp at h
        · have hdec : dec env f.codec data old = .ok (.err v' e) := hdec
          rcases hex with ⟨new, m', h, _⟩ | ⟨new, e', h, hbad⟩
          · rw [hdec] at h; simp at h
          · rw [hdec] at h
            simp only [Except.ok.injEq, DRes.err.injEq] at h
            obtain ⟨rfl, rfl⟩ := h
            have := Rejected.nested (env := env) fs (p ++ data) num f data rest e hrec hf hbad
            rw [List.append_assoc] at this
            exact ⟨_, _, rfl, by simp, fun e' h => by cases h; exact this⟩

/-! ### backward -/

theorem bool_dec {L : Layout} {env : Env} {c : Codec} {w : Nat} {data : Bytes} {old : Val} (hb : c.isBool) (hc : c.WF)
    (hw : c.Reads w) (hp : Payload w data) (hf : Fits L c.shape old) :
    ∃ new m, dec env c data old = .ok (.ok new m) ∧ m = 1 := by
  induction c generalizing old with
  | normal s =>
    simp only [Codec.Reads] at hw; subst hw
    obtain ⟨v, m, h1, h2, _⟩ := decodeScalar_fine hf hp
    exact ⟨v, m, h1, h2 hb⟩
  | required s =>
    simp only [Codec.Reads] at hw; subst hw
    obtain ⟨v, m, h1, h2, _⟩ := decodeScalar_fine hf hp
    exact ⟨v, m, h1, h2 hb⟩
  | option s =>
    simp only [Codec.Reads] at hw; subst hw
    simp only [Codec.shape] at hf
    have : ∃ b v, old = .opt b v ∧ Fits L s.shape v := by
      cases hf with
      | none => exact ⟨_, _, rfl, fits_zero _ _⟩
      | some _ v h => exact ⟨_, _, rfl, h⟩
    obtain ⟨b, v, rfl, hv⟩ := this
    obtain ⟨v', m, h1, h2, _⟩ := decodeScalar_fine hv hp
    refine ⟨.opt true v', m, ?_, h2 hb⟩
    simp [dec, codecDecode, decodeOption, h1, bind, Except.bind, pure, Except.pure, DRes.wrap]
  | bytes => exact hb.elim
  | msg t => exact hb.elim
  | map => exact hb.elim
  | ptr z c ihc =>
    simp only [Codec.shape] at hf
    cases hf with
    | ptrNil =>
      obtain ⟨new, m, h, h2⟩ := ihc hb hc.2 hw (fits_zero L _)
      refine ⟨.ptr new, m, ?_, h2⟩
      rw [← hc.1] at h
      have h' : codecDecode (zerosOf env) (decM env) c data z = _ := h
      simp [dec, codecDecode, h', bind, Except.bind, pure, Except.pure, DRes.wrap]
    | ptr _ o ho =>
      obtain ⟨new, m, h, h2⟩ := ihc hb hc.2 hw ho
      refine ⟨.ptr new, m, ?_, h2⟩
      have h' : codecDecode (zerosOf env) (decM env) c data o = _ := h
      simp [dec, codecDecode, h', bind, Except.bind, pure, Except.pure, DRes.wrap]
  | slice z c ihc =>
    simp only [Codec.shape] at hf
    cases hf with
    | slice _ n es sp _ _ hsp =>
      obtain ⟨slot, sp', hg, hs⟩ := growIfFull_cons z es sp
      have hsf : Fits L c.shape slot := by
        rcases hs with ⟨_, rfl, _⟩ | rfl
        · rw [hc.1]; exact fits_zero _ _
        · exact hsp _ (by simp)
      obtain ⟨new, m, h, h2⟩ := ihc hb hc.2 hw hsf
      obtain ⟨n', h⟩ := dec_slice_ok (n := n) hg h
      exact ⟨_, m, h, h2⟩


theorem stepS_nil_next {idx : Nat → Option DField} {vs vs1 : List Val} {r : Bytes} : stepS idx [] vs ≠ .ok (.next r vs1) := by
  simp [stepS, decodeTag, decodeVarint, decodeVarintLoop]

mutual
theorem passes_step {L : Layout} {env : Env} (hwf : WFEnv L env) (hr : ReadsOK env) : ∀ {fs : List Field} {b r : Bytes},
    Passes env fs b r → ∀ {sh : List Shape} {vs : List Val}, FieldsOK sh fs → FitsL L sh vs →
    ∃ vs1, stepS (idxF env fs) b vs = .ok (.next r vs1) ∧ FitsL L sh vs1
  | _, _, _, .unknown fs u num wt data r hu hun, sh, vs, hok, hv =>
    ⟨vs, stepS_unknown hu (idxF_undeclared hun) r vs, hv⟩
  | _, _, _, .known fs u num f data r hu hf hb hfine, sh, vs, hok, hv => by
    obtain ⟨old, ho1, ho2, hfit⟩ := slotOf_fits hv (hok.slot f hf.mem)
    obtain ⟨p, _, hp, _⟩ := id hu
    obtain ⟨new, m, h, _, h2⟩ := fine_dec hwf hr hfine (hok.codec f hf.mem) (hok.reads f hf.mem) hp hfit
    have h2 := h2 hb
    subst h2
    refine ⟨vs.set f.offset new, ?_, fitsL_set hv (hok.slot f hf.mem) (dec_fits hwf (hok.codec f hf.mem) hfit h)⟩
    rw [stepS_known (f := toD (zerosOf env) (decM env) f) hu (idxF_declared hf)]
    have ho1' : slotOf (.struct vs) (toD (zerosOf env) (decM env) f).offset = .ok old := ho1
    have h' : (toD (zerosOf env) (decM env) f).dec data old = .ok (.ok new data.length) := h
    simp only [ho1', h', List.drop_left]
    rfl
  | _, _, _, .bool fs u p num f c cs r hu hf hb _, sh, vs, hok, hv => by
    obtain ⟨old, ho1, ho2, hfit⟩ := slotOf_fits hv (hok.slot f hf.mem)
    obtain ⟨p, _, hp, _⟩ := id hu
    obtain ⟨new, m, h, h2⟩ := bool_dec (env := env) hb (hok.codec f hf.mem) (hok.reads f hf.mem) hp hfit
    subst h2
    refine ⟨vs.set f.offset new, ?_, fitsL_set hv (hok.slot f hf.mem) (dec_fits hwf (hok.codec f hf.mem) hfit h)⟩
    rw [stepS_known (f := toD (zerosOf env) (decM env) f) hu (idxF_declared hf)]
    have ho1' : slotOf (.struct vs) (toD (zerosOf env) (decM env) f).offset = .ok old := ho1
    have h' : (toD (zerosOf env) (decM env) f).dec (c :: cs) old = .ok (.ok new 1) := h
    simp only [ho1', h']
    rfl

theorem accepted_run {L : Layout} {env : Env} (hwf : WFEnv L env) (hr : ReadsOK env) : ∀ {fs : List Field} {b : Bytes},
    Readable env fs b → ∀ {sh : List Shape} {vs : List Val}, FieldsOK sh fs → FitsL L sh vs →
    ∃ vs1, run (idxF env fs) b vs = .ok (vs1, none)
  | _, _, .nil _, sh, vs, _, _ => ⟨vs, run_nil _ _⟩
  | _, _, .cons _ b r hp ha, sh, vs, hok, hv => by
    obtain ⟨vs1, h1, hv1⟩ := passes_step hwf hr hp hok hv
    have h0 : b ≠ [] := by rintro rfl; exact stepS_nil_next h1
    obtain ⟨vs2, h2⟩ := accepted_run hwf hr ha hok hv1
    exact ⟨vs2, by rw [run_cons _ _ _ h0, h1]; exact h2⟩

theorem fine_dec {L : Layout} {env : Env} (hwf : WFEnv L env) (hr : ReadsOK env) : ∀ {c : Codec} {data : Bytes},
    Fine env c data → ∀ {w : Nat} {old : Val}, c.WF → c.Reads w → Payload w data → Fits L c.shape old →
    ∃ new m, dec env c data old = .ok (.ok new m) ∧ (c.isBool → m = 1) ∧ (¬ c.isBool → m = data.length)
  | _, _, .normal s data, w, old, _, hw, hp, hf => by
    simp only [Codec.Reads] at hw; subst hw
    exact decodeScalar_fine hf hp
  | _, _, .required s data, w, old, _, hw, hp, hf => by
    simp only [Codec.Reads] at hw; subst hw
    exact decodeScalar_fine hf hp
  | _, _, .option s data, w, old, hc, hw, hp, hf => by
    rcases dec_explained hwf hr (k := data.length) (run_explained hwf hr _) hc hw hp (by omega) hf with ⟨new, m, h, _, h2⟩ | ⟨_, e, _, h⟩
    · exact ⟨new, m, h, h2⟩
    · cases h
  | _, _, .bytes data, w, old, hc, hw, hp, hf => by
    obtain ⟨new, h1, h2⟩ := dec_singular (env := env) (c := .bytes) trivial hc hw hp (fun h => h.elim) hf
    exact ⟨new, _, h1, fun h => h.elim, fun _ => rfl⟩
  | _, _, .ptr z c data hfine, w, old, hc, hw, hp, hf => by
    simp only [Codec.shape] at hf
    cases hf with
    | ptrNil =>
      obtain ⟨new, m, h, h2⟩ := fine_dec hwf hr hfine hc.2 hw hp (fits_zero L _)
      refine ⟨.ptr new, m, ?_, h2⟩
      rw [← hc.1] at h
      have h' : codecDecode (zerosOf env) (decM env) c data z = _ := h
      simp [dec, codecDecode, h', bind, Except.bind, pure, Except.pure, DRes.wrap]
    | ptr _ o ho =>
      obtain ⟨new, m, h, h2⟩ := fine_dec hwf hr hfine hc.2 hw hp ho
      refine ⟨.ptr new, m, ?_, h2⟩
      have h' : codecDecode (zerosOf env) (decM env) c data o = _ := h
      simp [dec, codecDecode, h', bind, Except.bind, pure, Except.pure, DRes.wrap]
  | _, _, .slice z c data hfine, w, old, hc, hw, hp, hf => by
    simp only [Codec.shape] at hf
    cases hf with
    | slice _ n es sp _ _ hsp =>
      obtain ⟨slot, sp', hg, hs⟩ := growIfFull_cons z es sp
      have hsf : Fits L c.shape slot := by
        rcases hs with ⟨_, rfl, _⟩ | rfl
        · rw [hc.1]; exact fits_zero _ _
        · exact hsp _ (by simp)
      obtain ⟨new, m, h, h2⟩ := fine_dec hwf hr hfine hc.2 hw hp hsf
      obtain ⟨n', h⟩ := dec_slice_ok (n := n) hg h
      exact ⟨_, m, h, h2⟩
  | _, _, .msg t data body hb ha, w, old, hc, hw, hp, hf => by
    obtain ⟨vs, ht, hv⟩ := fits_msgTarget hwf hf
    have hd := dec_msg_unmarshal (env := env) hb ht
    obtain ⟨vs1, h⟩ := accepted_run hwf hr ha (fieldsOK_msg hwf hr t) hv
    have h : run (idxM env t) body vs = .ok (vs1, none) := h
    rw [unmarshal_ok_iff.mpr h] at hd
    exact ⟨_, _, hd, fun h => h.elim, fun _ => rfl⟩
  | _, _, .map i kc vc kd vd data body hb ha, w, old, hc, hw, hp, hf => by
    obtain ⟨vs1, h⟩ := accepted_run hwf hr ha (fieldsOK_entry hc hw) (fitsL_entry (L := L) hc)
    obtain ⟨p, hp', rfl⟩ := hb
    have hsafe := codec_safe hwf _ hc (p ++ body) old hf
    simp only [Codec.shape] at hf
    cases hf with
    | map _ _ n m _ _ _ _ =>
      have hne : p ++ body ≠ [] := payload_ne_nil hp
      have hbd := fun c => bounded_codec (zerosOf env) (decM env) (bounded_decM env) c
      rw [codecDecode_map _ _ _ _ _ _ _ (hbd _) (hbd _)] at hsafe
      have hd : dec env (.map i kc vc kd vd) (p ++ body) (.map n m) = _ :=
        codecDecode_map _ _ _ _ _ _ _ (hbd _) (hbd _) (p ++ body) n m
      simp only [hne, if_false, decodeVarint_of hp', List.drop_left, idxF_entry, h] at hd hsafe
      match vs1, hd, hsafe with
      | [kv, v], hd, hsafe =>
        cases hk : kv.toKey? with
        | none => simp [hk] at hsafe
        | some key =>
          simp only [hk] at hd
          exact ⟨_, _, hd, fun h => h.elim, fun _ => rfl⟩
      | [], hd, hsafe => simp at hsafe
      | [_], hd, hsafe => simp at hsafe
      | _ :: _ :: _ :: _, hd, hsafe => simp at hsafe
end

mutual
theorem rejected_run {L : Layout} {env : Env} (hwf : WFEnv L env) (hr : ReadsOK env) : ∀ {fs : List Field} {b : Bytes} {e : Err},
    Rejected env fs b e → ∀ {sh : List Shape} {vs : List Val}, FieldsOK sh fs → FitsL L sh vs →
    ∃ vs1, run (idxF env fs) b vs = .ok (vs1, some e)
  | _, _, _, .later _ b r e hp ha, sh, vs, hok, hv => by
    obtain ⟨vs1, h1, hv1⟩ := passes_step hwf hr hp hok hv
    have h0 : b ≠ [] := by rintro rfl; exact stepS_nil_next h1
    obtain ⟨vs2, h2⟩ := rejected_run hwf hr ha hok hv1
    exact ⟨vs2, by rw [run_cons _ _ _ h0, h1]; exact h2⟩
  | _, _, _, .tag _ b e h0 hn, sh, vs, hok, hv => by
    refine ⟨vs, ?_⟩
    rw [run_cons _ _ _ h0]
    have := decodeTag_err.mpr hn
    rcases hd : decodeTag b with ⟨num, wt, n, o⟩
    rw [hd] at this
    simp only at this
    subst this
    simp [stepS, hd]
  | _, _, _, .skip _ p r num wt e ht hun hn, sh, vs, hok, hv => by
    refine ⟨vs, ?_⟩
    have h0 : p ++ r ≠ [] := by have := ht.2.1.length_pos; intro e; simp at e; simp [e] at this
    rw [run_cons _ _ _ h0]
    simp [stepS, decodeTag_of ht, idxF_undeclared hun, noPayload_iff.mp hn]
  | _, _, _, .wire _ p r num wt f ht hf hne, sh, vs, hok, hv => by
    refine ⟨vs, ?_⟩
    have h0 : p ++ r ≠ [] := by have := ht.2.1.length_pos; intro e; simp at e; simp [e] at this
    rw [run_cons _ _ _ h0]
    simp [stepS, decodeTag_of ht, idxF_declared hf, toD, hne]
  | _, _, _, .short _ p r num f e ht hf hn, sh, vs, hok, hv => by
    refine ⟨vs, ?_⟩
    have h0 : p ++ r ≠ [] := by have := ht.2.1.length_pos; intro e; simp at e; simp [e] at this
    rw [run_cons _ _ _ h0]
    simp [stepS, decodeTag_of ht, idxF_declared hf, toD, noPayload_iff.mp hn]
  | _, _, _, .nested _ u num f data r e hu hf hbad, sh, vs, hok, hv => by
    obtain ⟨old, ho1, ho2, hfit⟩ := slotOf_fits hv (hok.slot f hf.mem)
    obtain ⟨p, _, hp, _⟩ := id hu
    obtain ⟨new, h⟩ := bad_dec hwf hr hbad (hok.codec f hf.mem) (hok.reads f hf.mem) hp hfit
    refine ⟨vs.set f.offset new, ?_⟩
    have h0 : u ++ r ≠ [] := record_ne_nil hu
    rw [run_cons _ _ _ h0, stepS_known (f := toD (zerosOf env) (decM env) f) hu (idxF_declared hf)]
    have ho1' : slotOf (.struct vs) (toD (zerosOf env) (decM env) f).offset = .ok old := ho1
    have h' : (toD (zerosOf env) (decM env) f).dec data old = .ok (.err new e) := h
    simp only [ho1', h']
    rfl

theorem bad_dec {L : Layout} {env : Env} (hwf : WFEnv L env) (hr : ReadsOK env) : ∀ {c : Codec} {data : Bytes} {e : Err},
    Bad env c data e → ∀ {w : Nat} {old : Val}, c.WF → c.Reads w → Payload w data → Fits L c.shape old →
    ∃ new, dec env c data old = .ok (.err new e)
  | _, _, _, .ptr z c data e hbad, w, old, hc, hw, hp, hf => by
    simp only [Codec.shape] at hf
    cases hf with
    | ptrNil =>
      obtain ⟨new, h⟩ := bad_dec hwf hr hbad hc.2 hw hp (fits_zero L _)
      refine ⟨.ptr new, ?_⟩
      rw [← hc.1] at h
      have h' : codecDecode (zerosOf env) (decM env) c data z = _ := h
      simp [dec, codecDecode, h', bind, Except.bind, pure, Except.pure, DRes.wrap]
    | ptr _ o ho =>
      obtain ⟨new, h⟩ := bad_dec hwf hr hbad hc.2 hw hp ho
      refine ⟨.ptr new, ?_⟩
      have h' : codecDecode (zerosOf env) (decM env) c data o = _ := h
      simp [dec, codecDecode, h', bind, Except.bind, pure, Except.pure, DRes.wrap]
  | _, _, _, .slice z c data e hbad, w, old, hc, hw, hp, hf => by
    simp only [Codec.shape] at hf
    cases hf with
    | slice _ n es sp _ _ hsp =>
      obtain ⟨slot, sp', hg, hs⟩ := growIfFull_cons z es sp
      have hsf : Fits L c.shape slot := by
        rcases hs with ⟨_, rfl, _⟩ | rfl
        · rw [hc.1]; exact fits_zero _ _
        · exact hsp _ (by simp)
      obtain ⟨new, h⟩ := bad_dec hwf hr hbad hc.2 hw hp hsf
      obtain ⟨n', h⟩ := dec_slice_err (n := n) hg h
      exact ⟨_, h⟩
  | _, _, _, .msg t data body e hb ha, w, old, hc, hw, hp, hf => by
    obtain ⟨vs, ht, hv⟩ := fits_msgTarget hwf hf
    have hd := dec_msg_unmarshal (env := env) hb ht
    obtain ⟨vs1, h⟩ := rejected_run hwf hr ha (fieldsOK_msg hwf hr t) hv
    have h : run (idxM env t) body vs = .ok (vs1, some e) := h
    rw [unmarshal_err_iff.mpr h] at hd
    exact ⟨_, hd⟩
  | _, _, _, .map i kc vc kd vd data body e hb ha, w, old, hc, hw, hp, hf => by
    obtain ⟨vs1, h⟩ := rejected_run hwf hr ha (fieldsOK_entry hc hw) (fitsL_entry (L := L) hc)
    obtain ⟨p, hp', rfl⟩ := hb
    simp only [Codec.shape] at hf
    cases hf with
    | map _ _ n m _ _ _ _ =>
      have hne : p ++ body ≠ [] := payload_ne_nil hp
      have hbd := fun c => bounded_codec (zerosOf env) (decM env) (bounded_decM env) c
      have hd : dec env (.map i kc vc kd vd) (p ++ body) (.map n m) = _ :=
        codecDecode_map _ _ _ _ _ _ _ (hbd _) (hbd _) (p ++ body) n m
      simp only [hne, if_false, decodeVarint_of hp', List.drop_left, idxF_entry, h] at hd
      exact ⟨_, hd⟩
end

end Pb
