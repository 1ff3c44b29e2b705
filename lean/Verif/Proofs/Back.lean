import Verif.Proofs.Trip
/-
Consequences of the round trip.
-/
namespace Pb
open Spec

theorem obsL_eq (vs : List Val) : Val.obsL vs = vs.map Val.obs := by
  induction vs with
  | nil => rfl
  | cons v vs ih => simp [Val.obsL, ih]

theorem obsM_eq (m : List (Key × Val)) : Val.obsM m = m.map fun e => (e.1, e.2.obs) := by
  induction m with
  | nil => rfl
  | cons e m ih => obtain ⟨k, v⟩ := e; simp [Val.obsM, ih]

/-- Every message `v` of type `t` has a value in each field's slot. -/
theorem fits_slot {L : Layout} {env : Env} (hwf : WFEnv L env) {t : TypeId} {vs : List Val} (h : FitsL L (L t) vs)
    {f : Field} (hf : f ∈ (env t).fields) : ∃ v, vs[f.offset]? = some v ∧ Fits L f.codec.shape v := by
  obtain ⟨v, _, h1, h2⟩ := slotOf_fits h (hwf.slot t f hf)
  exact ⟨v, h1, h2⟩

mutual
theorem back_canon {env : Env} {c : Codec} {v w : Val} : Back env c v w → Canon env c v → w.obs = v.obs
  | .normal s v => fun _ => rfl
  | .required s v => fun _ => rfl
  | .option s v => fun _ => rfl
  | .bytes v => fun _ => rfl
  | .ptrNil z c => fun _ => rfl
  | .ptrLost z c v h => fun hc => by cases hc with | ptr _ _ _ h' _ => exact absurd h' h
  | .ptr z c v w _ h => fun hc => by
    cases hc with
    | ptr _ _ _ _ hc => simp only [Val.obs, back_canon h hc]
  | .msgNil t => fun _ => rfl
  | .msg t vs ws zs hz hl hb hu => fun hc => by
    cases hc with
    | msg _ _ zs' hz' hc hu' =>
      rw [hz] at hz'; cases hz'
      simp only [Val.obs, obsL_eq]
      congr 2
      apply List.ext_getElem?
      intro i
      simp only [List.getElem?_map]
      by_cases hi : ∀ f ∈ (env t).fields, f.offset ≠ i
      · rw [hu i hi, hu' i hi]
      · have hex : ∃ f, ∃ _ : f ∈ (env t).fields, f.offset = i := by
          refine Classical.byContradiction fun hno => hi fun f hf he => hno ⟨f, hf, he⟩
        obtain ⟨f, hf, rfl⟩ := hex
        cases hv : vs[f.offset]? with
        | none =>
          have : ws[f.offset]? = none := by rw [List.getElem?_eq_none_iff] at hv ⊢; omega
          rw [this]
        | some v =>
          have hlt := (List.getElem?_eq_some_iff.mp hv).1
          have hw : ws[f.offset]? = some ws[f.offset] := List.getElem?_eq_getElem (by omega)
          rw [hw]
          simp only [Option.map_some]
          rw [back_canon (hb f hf v _ hv hw) (hc f hf v hv)]
  | .slice z c n es sp ws sp' h => fun hc => by
    cases hc with
    | slice _ _ _ _ hw hc =>
      have := back_canonL h hw hc
      simp only [Val.obs, this]
      have hl : ws.length = es.length := by have := congrArg List.length this; simpa [obsL_eq] using this
      have : (ws = []) ↔ es = [] := by rw [← List.length_eq_zero_iff, hl, List.length_eq_zero_iff]
      simp [this]
  | .map i kc vc kd vd n m m' hne h => fun hc => by
    cases hc with
    | map _ _ _ _ _ _ _ hc => simp only [Val.obs, back_canonM h hc]
  | .mapEmpty i kc vc kd vd n k hk => fun hc => by
    generalize hm : ([] : List (Key × Val)) = m at hc
    cases hc with
    | map _ _ _ _ _ _ h _ => exact absurd hm.symm h

theorem back_canonL {env : Env} {c : Codec} {es ws : List Val} : BackL env c es ws → (∀ e ∈ es, Written c e) →
    (∀ e ∈ es, Canon env c e) → Val.obsL ws = Val.obsL es
  | .nil c => fun _ _ => rfl
  | .drop c e es ws h _ => fun hw _ => absurd (hw e (by simp)) h
  | .keep c e es w ws _ h hs => fun hw hc => by
    simp only [Val.obsL, back_canon h (hc e (by simp)), back_canonL hs (fun e he => hw e (by simp [he]))
      (fun e he => hc e (by simp [he]))]

theorem back_canonM {env : Env} {c : Codec} {m m' : List (Key × Val)} : BackM env c m m' →
    (∀ e ∈ m, Canon env c e.2) → Val.obsM m' = Val.obsM m
  | .nil c => fun _ => rfl
  | .cons c k v w m m' h hs => fun hc => by
    simp only [Val.obsM, back_canon h (hc (k, v) (by simp)), back_canonM hs (fun e he => hc e (by simp [he]))]
end

theorem backM_keys {env : Env} {c : Codec} : ∀ {m m' : List (Key × Val)}, BackM env c m m' → m'.map Prod.fst = m.map Prod.fst
  | _, _, .nil _ => rfl
  | _, _, .cons _ _ _ _ _ _ _ h => by simp [backM_keys h]

theorem backM_get {env : Env} {c : Codec} : ∀ {m m' : List (Key × Val)}, BackM env c m m' → ∀ (j : Nat) k v k' v',
    m[j]? = some (k, v) → m'[j]? = some (k', v') → Back env c v v'
  | _, _, .nil _ => by intro j k v k' v' h; simp at h
  | _, _, .cons _ _ _ _ _ _ h1 h => by
    intro j k v k' v' hj hj'
    cases j with
    | zero => simp at hj hj'; obtain ⟨rfl, rfl⟩ := hj; obtain ⟨rfl, rfl⟩ := hj'; exact h1
    | succ j => exact backM_get h j k v k' v' hj hj'

theorem backM_scalar {env : Env} {s : Scalar} : ∀ {m m' : List (Key × Val)}, BackM env (.required s) m m' → m' = m
  | _, _, .nil _ => rfl
  | _, _, .cons _ _ _ _ _ _ h1 h => by cases h1; rw [backM_scalar h]

/-- Key and value types that are measured alike. -/
theorem sameSizer_size {L : Layout} {kc vc : Codec} (h : SameSizer kc vc) (sz : TypeId → Val → Except Fault Nat)
    {v : Val} (_ : Fits L vc.shape v) (f : FTag) : codecSize sz kc v f = codecSize sz vc v f := by
  cases h <;> rfl

theorem encOK_key {L : Layout} {env : Env} {c : Codec} {v : Val} (hk : c.shape.isKey) (_ : Fits L c.shape v) : EncOK env c v := by
  cases c with
  | normal s => exact .normal _ _
  | required s => exact .required _ _
  | _ => exact hk.elim

theorem encOK_elem {L : Layout} {env : Env} (D : Nat)
    (hrec : ∀ t v, v.depth < D → FitsMsg L t v → EncOKMsg env t v) :
    ∀ c : Codec, c.MapsSized → c.WF → ∀ v, v.depth ≤ D → Fits L c.shape v → EncOK env c v := by
  intro c
  induction c with
  | normal s => intros; exact .normal _ _
  | required s => intros; exact .required _ _
  | option s => intros; exact .option _ _
  | bytes => intros; exact .bytes _
  | ptr z c ih =>
    intro hs hc v hd hv
    simp only [Codec.shape] at hv
    cases hv with
    | ptrNil => exact .ptrNil _ _
    | ptr _ w hw =>
      simp only [Val.depth] at hd
      exact .ptr _ _ _ (ih hs hc.2 w (by omega) hw)
  | msg t =>
    intro hs hc v hd hv
    simp only [Codec.shape] at hv
    generalize hsh : Shape.msg t = sh at hv
    cases hv with
    | msgNil => exact .msgNil _
    | msg _ vs h1 h2 =>
      cases hsh
      simp only [Val.depth] at hd
      exact hrec t (.struct vs) (by simp only [Val.depth]; omega) (.msg _ _ h1 h2)
    | _ => cases hsh
  | slice z c ih =>
    intro hs hc v hd hv
    simp only [Codec.shape] at hv
    cases hv with
    | slice _ n es sp _ hes _ =>
      refine .slice _ _ _ _ _ fun e he => ih hs hc.2 e ?_ (hes e he)
      have := depth_mem_L he
      simp only [Val.depth] at hd; omega
  | map i kc vc kd vd _ ihv _ _ =>
    intro hs hc v hd hv
    simp only [Codec.shape] at hv
    cases hv with
    | map _ _ n m _ _ hks hvs =>
      refine .map i kc vc kd vd n m (fun e he => sameSizer_size hs _ (hvs e he) _)
        (fun e he => encOK_key hc.1 (hks e he)) fun e he => ?_
      cases hs <;> exact .required _ _

theorem encOK_of_sized {L : Layout} {env : Env} (hwf : WFEnv L env) (hs : ∀ t, ∀ f ∈ (env t).fields, f.codec.MapsSized) :
    ∀ v t, FitsMsg L t v → EncOKMsg env t v := by
  intro v
  induction hd : v.depth using Nat.strongRecOn generalizing v with
  | ind d ih =>
    intro t hv
    obtain ⟨vs, rfl, hfl⟩ := fitsMsg_iff.mp hv
    refine .msg _ _ fun f hf w hw => ?_
    obtain ⟨w', h1, h2⟩ := fits_slot hwf hfl hf
    rw [hw] at h1; cases h1
    have := depth_mem_L (List.mem_of_getElem? hw)
    refine encOK_elem w.depth (fun t' v' hlt hv' => ih v'.depth ?_ v' rfl t' hv') f.codec (hs t f hf) (hwf.codec t f hf) w
      (by omega) h2
    simp only [Val.depth] at hd; omega

/-- Marshal succeeds, and its output is the specified encoding. -/
theorem marshal_ok {L : Layout} {env : Env} (hwf : WFEnv L env) (ht : TagsOK env) {t : TypeId} {v : Val} (hv : FitsMsg L t v)
    (ho : EncOKMsg env t v) : ∃ b, marshal env (.msg t v) = .ok (.ok b) ∧ size env (.msg t v) = .ok b.length ∧ encM env t v = .ok b := by
  obtain ⟨b, h1, h2⟩ := sized_msg hwf ht v t hv ho
  exact ⟨b, by rw [marshal_msg, h1, h2], by rw [size_msg, h2], h1⟩

theorem marshal_inv {env : Env} {t : TypeId} {v : Val} {b : Bytes} (h : marshal env (.msg t v) = .ok (.ok b)) :
    encM env t v = .ok b := by
  rw [marshal_msg] at h
  cases h1 : sizeM env t v with
  | error e => simp [h1] at h
  | ok n =>
    simp only [h1] at h
    cases h2 : encM env t v with
    | error e => simp [h2] at h
    | ok b' => simp [h2] at h; subst h; rfl

/-! ### one field at a time -/

theorem catAll_append {α} (g : α → Except Fault Bytes) (xs ys : List α) :
    catAll g (xs ++ ys) = match catAll g xs with
      | .error e => .error e
      | .ok a => match catAll g ys with
        | .error e => .error e
        | .ok b => .ok (a ++ b) := by
  induction xs with
  | nil => simp only [List.nil_append, catAll]; split <;> simp_all
  | cons x xs ih =>
    simp only [List.cons_append, catAll, ih]
    cases g x with
    | error e => rfl
    | ok a =>
      simp only
      cases catAll g xs with
      | error e => rfl
      | ok b =>
        simp only
        cases catAll g ys with
        | error e => rfl
        | ok c => simp

theorem encFields_append (enc : Codec → Val → FTag → Except Fault Bytes) (p : Val) (xs ys : List Field) :
    encFields enc p (xs ++ ys) = match encFields enc p xs with
      | .error e => .error e
      | .ok a => match encFields enc p ys with
        | .error e => .error e
        | .ok b => .ok (a ++ b) := catAll_append _ xs ys

theorem encFields_set (enc : Codec → Val → FTag → Except Fault Bytes) (vs : List Val) (o : Nat) (x : Val) (fs : List Field)
    (h : ∀ f ∈ fs, f.offset ≠ o) : encFields enc (.struct (vs.set o x)) fs = encFields enc (.struct vs) fs := by
  refine catAll_congr _ _ _ fun f hf => ?_
  simp only [slotOf, List.getElem?_set_ne (fun e => h f hf e.symm)]

/-- What Marshal writes when one field varies: the rest is the same. -/
theorem marshal_set {L : Layout} {env : Env} (hwf : WFEnv L env) (ht : TagsOK env) {t : TypeId} {vs : List Val}
    (hd : (env t).fields.Pairwise fun f g => f.offset ≠ g.offset) (hv : FitsMsg L t (.struct vs))
    (ho : EncOKMsg env t (.struct vs)) {f : Field} (hf : f ∈ (env t).fields) :
    ∃ A B, ∀ x, Fits L f.codec.shape x → EncOK env f.codec x → ∃ bx,
      encP (sizeM env) (encM env) f.codec x f.tag = .ok bx ∧
      marshal env (.msg t (.struct (vs.set f.offset x))) = .ok (.ok (A ++ bx ++ B)) := by
  obtain ⟨xs, ys, hxy⟩ := List.append_of_mem hf
  have hfl := fitsL_of_msg hv
  obtain ⟨b, h1, _⟩ := sized_msg hwf ht _ t hv ho
  rw [encM_eq, hxy, encFields_append] at h1
  cases hA : encFields (encP (sizeM env) (encM env)) (.struct vs) xs with
  | error e => simp [hA] at h1
  | ok A =>
    simp only [hA] at h1
    have e1 : f :: ys = [f] ++ ys := rfl
    rw [e1, encFields_append] at h1
    cases hF : encFields (encP (sizeM env) (encM env)) (.struct vs) [f] with
    | error e => simp [hF] at h1
    | ok F =>
      simp only [hF] at h1
      cases hB : encFields (encP (sizeM env) (encM env)) (.struct vs) ys with
      | error e => simp [hB] at h1
      | ok B =>
        refine ⟨A, B, fun x hx hox => ?_⟩
        have hp := hd
        rw [hxy, List.pairwise_append, List.pairwise_cons] at hp
        obtain ⟨_, ⟨h2, _⟩, h3⟩ := hp
        obtain ⟨bx, hbx, _⟩ := sized_field hwf ht f.codec (hwf.codec t f hf) (ht t f hf).2 x f.tag (ht t f hf).1 hx hox
        refine ⟨bx, hbx, ?_⟩
        have hfit : FitsMsg L t (.struct (vs.set f.offset x)) :=
          fitsMsg_iff.mpr ⟨_, rfl, fitsL_set hfl (hwf.slot t f hf) hx⟩
        have hlt : f.offset < vs.length := by
          obtain ⟨v, hv', _⟩ := fits_slot hwf hfl hf
          exact (List.getElem?_eq_some_iff.mp hv').1
        have henc : EncOKMsg env t (.struct (vs.set f.offset x)) := by
          refine .msg _ _ fun g hg w hw => ?_
          by_cases hgo : g.offset = f.offset
          · have hgf : g = f := by
              rw [hxy] at hg
              rcases List.mem_append.mp hg with hg | hg
              · exact absurd hgo (h3 g hg f (by simp))
              · rcases List.mem_cons.mp hg with rfl | hg
                · rfl
                · exact absurd hgo.symm (h2 g hg)
            subst hgf
            simp [hlt] at hw; subst hw; exact hox
          · rw [List.getElem?_set_ne (fun e => hgo e.symm)] at hw
            cases ho with
            | msg _ _ ho => exact ho g hg w hw
        obtain ⟨b', h4, _, h5⟩ := marshal_ok hwf ht hfit henc
        rw [h4]
        rw [encM_eq, hxy, encFields_append, encFields_set _ _ _ _ _ (fun g hg => h3 g hg f (by simp)), hA] at h5
        simp only at h5
        rw [e1, encFields_append, encFields_set _ _ _ _ ys (fun g hg => (h2 g hg).symm), hB] at h5
        have : encFields (encP (sizeM env) (encM env)) (.struct (vs.set f.offset x)) [f] = .ok bx := by
          simp [encFields, catAll, slotOf, hlt, hbx]
        simp only [this, Except.ok.injEq] at h5
        subst h5
        simp

end Pb
