import Verif.Spec.Back
import Verif.Proofs.Size
/-
What the encode functions write is what `Encodes` describes.
-/
namespace Pb
open Spec

theorem ofNat64_toNat {n : Nat} (h : n < 2 ^ 64) : (BitVec.ofNat 64 n).toNat = n := by
  simp [BitVec.toNat_ofNat]; omega

theorem toNat_toInt (x : U64) : (x.toInt % 2 ^ 64).toNat = x.toNat := by
  have h := BitVec.toNat_ofInt (n := 64) x.toInt
  rw [BitVec.ofInt_toInt] at h
  rw [h]; rfl

theorem pay_payload_str {L : Layout} {s : Scalar} {v : Val} (hv : Fits L s.shape v) (hl : ∀ x, v = .str x → x.length < 2 ^ 64) :
    pay s v = payload s v := by
  cases s <;> simp only [Scalar.shape] at hv <;> cases hv <;> simp only [pay, payload]
  · rename_i x
    rw [len64, ofNat64_toNat (hl x rfl)]
  · rename_i x
    rw [← sext_toInt, toNat_toInt]
  · rw [toNat_toInt]
  · simp only [zext, BitVec.toNat_setWidth]
    rename_i x
    rw [Nat.mod_eq_of_lt (by have := x.isLt; omega)]
  · rw [encodeZigZag64_toNat, sext_toInt]
  · rw [encodeZigZag64_toNat]

theorem pay_payload {L : Layout} {s : Scalar} {v : Val} (hv : Fits L s.shape v) (hl : (pay s v).length < 2 ^ 64) :
    pay s v = payload s v := by
  refine pay_payload_str hv fun x hx => ?_
  subst hx
  cases s <;> simp only [Scalar.shape] at hv <;> cases hv
  simp only [pay, List.length_append] at hl; omega

/-- The same with the bound on the specified payload. -/
theorem pay_payload_of {L : Layout} {s : Scalar} {v : Val} (hv : Fits L s.shape v) (hl : (payload s v).length < 2 ^ 64) :
    pay s v = payload s v := by
  refine pay_payload_str hv fun x hx => ?_
  subst hx
  cases s <;> simp only [Scalar.shape] at hv <;> cases hv
  simp only [payload, List.length_append] at hl; omega

theorem recordsOf_nil (w : U64) : recordsOf w [] = [] := rfl

theorem recordsOf_cons (w : U64) (d : Bytes) (ds : List Bytes) :
    recordsOf w (d :: ds) = leb128 w.toNat ++ (d ++ recordsOf w ds) := by
  simp [recordsOf]

theorem recordsOf_append (w : U64) (ds ds' : List Bytes) : recordsOf w (ds ++ ds') = recordsOf w ds ++ recordsOf w ds' := by
  simp [recordsOf]

theorem recordsOf_one (w : U64) (d : Bytes) : recordsOf w [d] = leb128 w.toNat ++ d := by
  simp [recordsOf]

/-- Messages nested less than `D` deep are encoded as specified. -/
def ConfMsg (L : Layout) (env : Env) (D : Nat) : Prop :=
  ∀ t vs b, (Val.struct vs).depth < D → FitsMsg L t (.struct vs) → EncOKMsg env t (.struct vs) →
    encM env t (.struct vs) = .ok b → b.length < 2 ^ 64 → EncodesMsg env (env t).fields vs b

theorem conf_elem {L : Layout} {env : Env} (hwf : WFEnv L env) (ht : TagsOK env) (D : Nat) (hrec : ConfMsg L env D) :
    ∀ (c : Codec), c.WF → c.IsElem → ∀ v f b, f.OK → v.depth ≤ D → Fits L c.shape v → EncOK env c v →
      encP (sizeM env) (encM env) c v f = .ok b → b.length < 2 ^ 64 →
      ∃ ds, Encodes env c v ds ∧ b = recordsOf f.wiretag ds := by
  intro c
  induction c with
  | normal s =>
    intro _ _ v f b hf _ hv _ h hl
    simp only [Codec.shape] at hv
    simp only [encP, encodeNormal_eq f hv, Except.ok.injEq] at h
    subst h
    by_cases hz : isZero v = true
    · rw [isZero_iff hv] at hz
      subst hz
      exact ⟨[], .zero s, by simp [recordsOf_nil, (isZero_iff hv).mpr rfl]⟩
    · simp only [hz, if_false, Bool.false_eq_true] at hl ⊢
      rw [isZero_iff hv] at hz
      refine ⟨_, .nonzero s v hz, ?_⟩
      rw [recordsOf_one, pay_payload hv (by simp at hl; omega)]
  | required s =>
    intro _ _ v f b hf _ hv _ h hl
    simp only [Codec.shape] at hv
    simp only [encP, encodeRequired_eq f hv, Except.ok.injEq] at h
    subst h
    refine ⟨_, .required s v, ?_⟩
    rw [recordsOf_one, pay_payload hv (by simp at hl; omega)]
  | option s =>
    intro _ _ v f b hf _ hv _ h hl
    simp only [Codec.shape] at hv
    cases hv with
    | none => simp only [encP, encodeOption] at h; simp at h; subst h; exact ⟨[], .none s _, rfl⟩
    | some _ w hw =>
      simp only [encP, encodeOption, if_true, encodeRequired_eq f hw, Except.ok.injEq] at h
      subst h
      refine ⟨_, .some s w, ?_⟩
      rw [recordsOf_one, pay_payload hw (by simp at hl; omega)]
  | bytes =>
    intro _ _ v f b hf _ hv _ h hl
    simp only [Codec.shape] at hv
    cases hv with
    | bytes x =>
      cases x with
      | none =>
        simp [encP, encodeBytes, readBytes, bind, Except.bind, pure, Except.pure] at h
        subst h; exact ⟨[], .bytesNil, rfl⟩
      | some x =>
        simp only [encP, encodeBytes, readBytes, bind, Except.bind, pure, Except.pure, appendVarint_eq, List.nil_append,
          Except.ok.injEq, List.append_assoc] at h
        subst h
        refine ⟨_, .bytes x, ?_⟩
        rw [recordsOf_one, delimited, len64, ofNat64_toNat (by simp at hl; omega)]
  | ptr zero c ih =>
    intro hw he v f b hf hd hv ho h hl
    simp only [Codec.shape] at hv
    cases hv with
    | ptrNil => simp [encP] at h; subst h; exact ⟨[], .ptrNil _ _, rfl⟩
    | ptr _ w hfit =>
      cases ho with
      | ptr _ _ _ ho =>
        simp only [Val.depth] at hd
        simp only [encP] at h
        obtain ⟨ds, h1, h2⟩ := ih hw.2 he w f b hf (by omega) hfit ho h hl
        exact ⟨ds, .ptr _ _ _ _ h1, h2⟩
  | msg t =>
    intro hw he v f b hf hd hv ho h hl
    simp only [Codec.shape] at hv
    generalize hsh : Shape.msg t = sh at hv
    cases hv with
    | msgNil => simp [encP] at h; subst h; exact ⟨[], .msgNil _, rfl⟩
    | msg _ vs h1 h2 =>
      cases hsh
      simp only [Val.depth] at hd
      have hfm : FitsMsg L t (.struct vs) := .msg _ _ h1 h2
      obtain ⟨bs, hb, hs⟩ := sized_msg hwf ht (.struct vs) t hfm ho
      simp only [encP, hb, hs, Except.ok.injEq] at h
      subst h
      have hlt : bs.length < 2 ^ 64 := by simp at hl; omega
      refine ⟨_, .msg t vs bs (hrec t vs bs (by simp only [Val.depth]; omega) hfm ho hb hlt), ?_⟩
      rw [recordsOf_one, delimited, ofNat64_toNat hlt]
    | _ => cases hsh
  | slice zero c ih => intro _ he; exact he.elim
  | map i kc vc kd vd ihk ihv _ _ => intro _ he; exact he.elim

theorem catAll_cons_ok {α} {g : α → Except Fault Bytes} {x : α} {xs : List α} {b : Bytes} (h : catAll g (x :: xs) = .ok b) :
    ∃ a r, g x = .ok a ∧ catAll g xs = .ok r ∧ b = a ++ r := by
  simp only [catAll] at h
  cases h1 : g x with
  | error e => simp [h1] at h
  | ok a =>
    simp only [h1] at h
    cases h2 : catAll g xs with
    | error e => simp [h2] at h
    | ok r => simp [h2] at h; exact ⟨a, r, rfl, rfl, h.symm⟩

theorem conf_slice {env : Env} {c : Codec} {f : FTag} (es : List Val)
    (hel : ∀ e ∈ es, ∀ b, encP (sizeM env) (encM env) c e f = .ok b → b.length < 2 ^ 64 →
      ∃ ds, Encodes env c e ds ∧ b = recordsOf f.wiretag ds) :
    ∀ b, catAll (fun e => encP (sizeM env) (encM env) c e f) es = .ok b → b.length < 2 ^ 64 →
      ∃ ds, EncodesL env c es ds ∧ b = recordsOf f.wiretag ds := by
  induction es with
  | nil => intro b h _; simp [catAll] at h; subst h; exact ⟨[], .nil c, rfl⟩
  | cons e es ih =>
    intro b h hl
    obtain ⟨a, r, h1, h2, rfl⟩ := catAll_cons_ok h
    simp only [List.length_append] at hl
    obtain ⟨ds, h3, rfl⟩ := hel e (by simp) a h1 (by omega)
    obtain ⟨ds', h4, rfl⟩ := ih (fun e he => hel e (by simp [he])) r h2 (by omega)
    exact ⟨ds ++ ds', .cons _ _ _ _ _ h3 h4, by rw [recordsOf_append]⟩

theorem conf_map {env : Env} {i : MapInfo} {kc vc : Codec} (m : List (Key × Val))
    (hk : ∀ e ∈ m, SizedAs (codecSize (sizeM env) kc e.1.toVal i.key) (encP (sizeM env) (encM env) kc e.1.toVal i.key))
    (hv : ∀ e ∈ m, SizedAs (codecSize (sizeM env) kc e.2 i.val) (encP (sizeM env) (encM env) vc e.2 i.val))
    (hke : ∀ e ∈ m, ∀ b, encP (sizeM env) (encM env) kc e.1.toVal i.key = .ok b → b.length < 2 ^ 64 →
      ∃ ds, Encodes env kc e.1.toVal ds ∧ b = recordsOf i.key.wiretag ds)
    (hve : ∀ e ∈ m, ∀ b, encP (sizeM env) (encM env) vc e.2 i.val = .ok b → b.length < 2 ^ 64 →
      ∃ ds, Encodes env vc e.2 ds ∧ b = recordsOf i.val.wiretag ds) :
    ∀ b, catAll (fun (e : Key × Val) => entryBytes i.wiretag (codecSize (sizeM env) kc e.1.toVal i.key)
        (codecSize (sizeM env) kc e.2 i.val) (encP (sizeM env) (encM env) kc e.1.toVal i.key)
        (encP (sizeM env) (encM env) vc e.2 i.val)) m = .ok b → b.length < 2 ^ 64 →
      ∃ ds, EncodesM env i kc vc m ds ∧ b = recordsOf i.wiretag ds ∧ (m ≠ [] → b ≠ []) := by
  induction m with
  | nil => intro b h _; simp [catAll] at h; subst h; exact ⟨[], .nil _ _ _, rfl, by simp⟩
  | cons e m ih =>
    intro b h hl
    obtain ⟨k, v⟩ := e
    obtain ⟨a, r, h1, h2, rfl⟩ := catAll_cons_ok h
    obtain ⟨kb, hk1, hk2⟩ := hk (k, v) (by simp)
    obtain ⟨vb, hv1, hv2⟩ := hv (k, v) (by simp)
    simp only [hk1, hk2, hv1, hv2, entryBytes, Except.ok.injEq] at h1
    subst h1
    simp only [List.length_append] at hl
    obtain ⟨kds, h3, rfl⟩ := hke (k, v) (by simp) kb hk1 (by omega)
    obtain ⟨vds, h4, rfl⟩ := hve (k, v) (by simp) vb hv1 (by omega)
    obtain ⟨ds, h5, rfl, _⟩ := ih (fun e he => hk e (by simp [he])) (fun e he => hv e (by simp [he]))
      (fun e he => hke e (by simp [he])) (fun e he => hve e (by simp [he])) r h2 (by omega)
    refine ⟨_, .cons i kc vc k v m kds vds ds h3 h4 h5, ?_, ?_⟩
    · rw [recordsOf_cons, delimited, ofNat64_toNat (by omega), List.length_append]
      simp
    · intro _; simp [leb128_ne_nil]

theorem conf_codec {L : Layout} {env : Env} (hwf : WFEnv L env) (ht : TagsOK env) (D : Nat) (hrec : ConfMsg L env D)
    (c : Codec) (hc : c.WF) (hct : c.TagsOK) (f : FTag) (hs : c.Supported f.wiretag) (v : Val) (b : Bytes) (hf : f.OK)
    (hd : v.depth ≤ D) (hv : Fits L c.shape v) (ho : EncOK env c v)
    (h : encP (sizeM env) (encM env) c v f = .ok b) (hl : b.length < 2 ^ 64) :
    ∃ ds, Encodes env c v ds ∧ b = recordsOf f.wiretag ds := by
  have elem : c.IsElem → ∃ ds, Encodes env c v ds ∧ b = recordsOf f.wiretag ds := fun he =>
    conf_elem hwf ht D hrec c hc he v f b hf hd hv ho h hl
  cases c with
  | slice z c =>
    simp only [Codec.shape] at hv
    cases hv with
    | slice _ n es sp _ hes _ =>
      cases ho with
      | slice _ _ _ _ _ ho =>
        simp only [encP] at h
        have hdl : ∀ e ∈ es, e.depth ≤ D := by
          intro e he; have := depth_mem_L he; simp only [Val.depth] at hd; omega
        obtain ⟨ds, h1, h2⟩ := conf_slice es (fun e he b hb hl =>
          conf_elem hwf ht D hrec c hc.2 hs e f b hf (hdl e he) (hes e he) (ho e he) hb hl) b h hl
        exact ⟨ds, .slice _ _ _ _ _ _ h1, h2⟩
  | map i kc vc kd vd =>
    obtain ⟨_, _, _, _, _, hkw, hvw, _, _⟩ := hc
    obtain ⟨hit, hiv, hkt, hvt, _, _⟩ := hct
    obtain ⟨hw, _, _, _, hke, hve, _, _⟩ := hs
    simp only [Codec.shape] at hv
    cases hv with
    | map _ _ n m _ _ hks hvs =>
      cases ho with
      | map _ _ _ _ _ _ _ hsame hko hvo =>
        simp only [encP] at h
        have hdl : ∀ e ∈ m, e.2.depth ≤ D := by
          intro e he; have := depth_mem_M he; simp only [Val.depth] at hd; omega
        cases hcat : catAll (fun (e : Key × Val) => entryBytes i.wiretag (codecSize (sizeM env) kc e.1.toVal i.key)
          (codecSize (sizeM env) kc e.2 i.val) (encP (sizeM env) (encM env) kc e.1.toVal i.key)
          (encP (sizeM env) (encM env) vc e.2 i.val)) m with
        | error e => simp [hcat, wrapMap] at h
        | ok a =>
          simp only [hcat, wrapMap, Except.ok.injEq] at h
          have hal : a.length < 2 ^ 64 := by
            by_cases ha : a = []
            · simp [ha]
            · simp [ha] at h; rw [h]; exact hl
          obtain ⟨ds, h1, h2, h3⟩ := conf_map m
            (fun e he => sized_field hwf ht kc hkw hkt e.1.toVal i.key hit (hks e he) (hko e he))
            (fun e he => by
              rw [hsame e he]
              exact sized_field hwf ht vc hvw hvt e.2 i.val hiv (hvs e he) (hvo e he))
            (fun e he b hb hl => conf_elem hwf ht D hrec kc hkw hke e.1.toVal i.key b hit (by rw [key_depth]; omega)
              (hks e he) (hko e he) hb hl)
            (fun e he b hb hl => conf_elem hwf ht D hrec vc hvw hve e.2 i.val b hiv (hdl e he)
              (hvs e he) (hvo e he) hb hl) a hcat hal
          cases m with
          | nil =>
            simp [catAll] at hcat; subst hcat
            simp at h
            refine ⟨_, .mapEmpty _ _ _ _ _ _, ?_⟩
            rw [recordsOf_one, ← hw]; exact h.symm
          | cons e m =>
            have := h3 (by simp)
            simp only [this, if_false] at h
            subst h
            exact ⟨ds, .map _ _ _ _ _ _ _ _ (by simp) h1, by rw [← hw]; exact h2⟩
  | _ => exact elem hs

theorem conf_fields {L : Layout} {env : Env} (hwf : WFEnv L env) (ht : TagsOK env) (D : Nat) (hrec : ConfMsg L env D)
    (vs : List Val) (hd : (Val.struct vs).depth ≤ D + 1) (fs : List Field)
    (hc : ∀ f ∈ fs, f.codec.WF ∧ f.codec.TagsOK ∧ f.tag.OK ∧ f.codec.Supported f.tag.wiretag)
    (hv : ∀ f ∈ fs, ∃ v, vs[f.offset]? = some v ∧ Fits L f.codec.shape v ∧ EncOK env f.codec v) :
    ∀ b, encFields (encP (sizeM env) (encM env)) (.struct vs) fs = .ok b → b.length < 2 ^ 64 → EncodesMsg env fs vs b := by
  induction fs with
  | nil => intro b h _; simp [encFields, catAll] at h; subst h; exact .nil vs
  | cons f fs ih =>
    intro b h hl
    obtain ⟨a, r, h1, h2, rfl⟩ := catAll_cons_ok h
    simp only [List.length_append] at hl
    obtain ⟨v, hg, hfit, ho⟩ := hv f (by simp)
    obtain ⟨c1, c2, c3, c4⟩ := hc f (by simp)
    simp only [slotOf, hg] at h1
    have hdv : v.depth ≤ D := by
      have := depth_mem_L (List.mem_of_getElem? hg)
      simp only [Val.depth] at hd; omega
    obtain ⟨ds, h3, rfl⟩ := conf_codec hwf ht D hrec f.codec c1 c2 f.tag c4 v a c3 hdv hfit ho h1 (by omega)
    exact .cons f fs vs v ds r hg h3 (ih (fun f hf => hc f (by simp [hf])) (fun f hf => hv f (by simp [hf])) r h2 (by omega))

theorem conf_msg {L : Layout} {env : Env} (hg : Good L env) : ∀ D, ConfMsg L env D := by
  intro D
  induction D with
  | zero => intro t vs b h; omega
  | succ D ih =>
    intro t vs b hd hfit ho h hl
    rw [encM_eq] at h
    refine conf_fields hg.wf hg.tags D ih vs (by omega) _ ?_ ?_ b h hl
    · intro f hf
      exact ⟨hg.wf.codec t f hf, (hg.tags t f hf).2, (hg.tags t f hf).1, hg.supported t f hf⟩
    · intro f hf
      obtain ⟨ws, he, hfl⟩ := fitsMsg_iff.mp hfit
      cases he
      obtain ⟨v, _, hget, hv⟩ := slotOf_fits hfl (hg.wf.slot t f hf)
      cases ho with
      | msg _ _ ho => exact ⟨v, hget, hv, ho f hf v hget⟩

end Pb
