import Verif.Proofs.Order
import Verif.Proofs.Back
/-
What differs between the outputs for two orders of the map entries.
-/
namespace Pb
open Spec

/-! ### messages without choices -/

theorem perm_short {α} {xs ys : List α} (h : xs.Perm ys) (hl : xs.length ≤ 1) : xs = ys := by
  match xs, hl with
  | [], _ => exact (List.nil_perm.mp h).symm
  | [x], _ => exact (List.singleton_perm.mp h)

mutual
theorem reorder_trivial {v w : Val} (h : Reorder v w) (ht : v.mapsTrivial = true) : w = v := by
  cases h with
  | refl => rfl
  | ptr h => simp only [Val.mapsTrivial] at ht; rw [reorder_trivial h ht]
  | struct h => simp only [Val.mapsTrivial] at ht; rw [reorderL_trivial h ht]
  | slice h => simp only [Val.mapsTrivial] at ht; rw [reorderL_trivial h ht]
  | map hp h =>
    simp only [Val.mapsTrivial, Bool.and_eq_true, decide_eq_true_eq] at ht
    cases perm_short hp ht.1
    rw [reorderM_trivial h ht.2]
theorem reorderL_trivial {vs ws : List Val} (h : ReorderL vs ws) (ht : Val.mapsTrivialL vs = true) : ws = vs := by
  cases h with
  | nil => rfl
  | cons h hs =>
    simp only [Val.mapsTrivialL, Bool.and_eq_true] at ht
    rw [reorder_trivial h ht.1, reorderL_trivial hs ht.2]
theorem reorderM_trivial {m m' : List (Key × Val)} (h : ReorderM m m') (ht : Val.mapsTrivialM m = true) : m' = m := by
  cases h with
  | nil => rfl
  | cons h hs =>
    simp only [Val.mapsTrivialM, Bool.and_eq_true] at ht
    rw [reorder_trivial h ht.1, reorderM_trivial hs ht.2]
end

theorem zero_trivial (s : Shape) : s.zero.mapsTrivial = true := by
  induction s <;> simp_all [Shape.zero, Val.mapsTrivial, Val.mapsTrivialL, Val.mapsTrivialM]

/-! ### reordered messages are as good -/

theorem reorderL_mem {vs ws : List Val} (h : ReorderL vs ws) {w : Val} (hw : w ∈ ws) : ∃ v ∈ vs, Reorder v w := by
  induction vs generalizing ws with
  | nil => cases h; simp at hw
  | cons v vs ih =>
    cases h with
    | cons hx h =>
      rcases List.mem_cons.mp hw with rfl | hw
      · exact ⟨v, by simp, hx⟩
      · obtain ⟨v, hv, hr⟩ := ih h hw; exact ⟨v, by simp [hv], hr⟩

theorem reorderM_mem {m m' : List (Key × Val)} (h : ReorderM m m') {e : Key × Val} (hw : e ∈ m') :
    ∃ v, (e.1, v) ∈ m ∧ Reorder v e.2 := by
  induction m generalizing m' with
  | nil => cases h; simp at hw
  | cons x vs ih =>
    cases h with
    | cons hx h =>
      rcases List.mem_cons.mp hw with rfl | hw
      · exact ⟨_, by simp, hx⟩
      · obtain ⟨v, hv, hr⟩ := ih h hw; exact ⟨v, by simp [hv], hr⟩

theorem reorderM_keys {m m' : List (Key × Val)} (h : ReorderM m m') : m'.map Prod.fst = m.map Prod.fst := by
  induction m generalizing m' with
  | nil => cases h; rfl
  | cons x vs ih => cases h with | cons hx h => simp [ih h]

theorem reorderL_get' {vs ws : List Val} (h : ReorderL vs ws) {i : Nat} {w : Val} (hw : ws[i]? = some w) :
    ∃ v, vs[i]? = some v ∧ Reorder v w := by
  induction vs generalizing ws i with
  | nil => cases h; simp at hw
  | cons x vs ih =>
    cases h with
    | cons hx h =>
      cases i with
      | zero => simp at hw; subst hw; exact ⟨_, rfl, hx⟩
      | succ i => simp at hw ⊢; exact ih h hw

theorem fits_reorder {L : Layout} {s : Shape} {v w : Val} (hv : Fits L s v) (h : Reorder v w) : Fits L s w := by
  induction hv generalizing w with
  | b8 x => cases h; exact .b8 x
  | w32 x => cases h; exact .w32 x
  | w64 x => cases h; exact .w64 x
  | str x => cases h; exact .str x
  | bytes x => cases h; exact .bytes x
  | none s => cases h; exact .none s
  | some s v hv _ => cases h; exact .some s v hv
  | ptrNil s => cases h; exact .ptrNil s
  | ptr s v hv ih => obtain ⟨w, rfl, hr⟩ := reorder_ptr h; exact .ptr s w (ih hr)
  | msgNil t => cases h; exact .msgNil t
  | msg t vs hl hv ih =>
    obtain ⟨w, rfl, hr0⟩ := reorder_ptr h
    obtain ⟨ws, rfl, hr⟩ := reorder_struct hr0
    refine .msg t ws (by rw [reorderL_length hr, hl]) fun i s w hs hw => ?_
    obtain ⟨v, hv, hrv⟩ := reorderL_get' hr hw
    exact ih i s v hs hv hrv
  | slice s n es sp hn hes hsp ih _ =>
    obtain ⟨es', rfl, hr⟩ := reorder_slice h
    refine .slice s n es' sp (fun hn' => ?_) (fun e he => ?_) hsp
    · obtain ⟨h1, h2⟩ := hn hn'
      subst h1; cases hr; exact ⟨rfl, h2⟩
    · obtain ⟨v, hv, hrv⟩ := reorderL_mem hr he
      exact ih v hv hrv
  | map k v n m hn hd hk hv _ ih =>
    obtain ⟨m', m'', rfl, hp, hr⟩ := reorder_map h
    refine .map k v n m'' (fun hn' => ?_) ?_ (fun e he => ?_) (fun e he => ?_)
    · have := hn hn'; subst this
      have := List.nil_perm.mp hp; subst this
      cases hr; rfl
    · rw [reorderM_keys hr]
      exact (hp.map Prod.fst).nodup_iff.mp hd
    · obtain ⟨v, hv, _⟩ := reorderM_mem hr he
      exact hk (e.1, v) (hp.mem_iff.mpr hv)
    · obtain ⟨v, hv, hrv⟩ := reorderM_mem hr he
      exact ih _ (hp.mem_iff.mpr hv) hrv
  | «opaque» v => exact .opaque w

theorem sizeM_reorder (env : Env) (t : TypeId) {v w : Val} (h : Reorder v w) : SameOk (sizeM env t v) (sizeM env t w) := by
  simp only [sizeM, reorder_depth h]
  exact sizeMsg_reorder env _ t v w h

theorem encOK_reorder {L : Layout} {env : Env} (hwf : WFEnv L env) (ht : TagsOK env) {c : Codec} {v : Val}
    (ho : EncOK env c v) : c.WF → c.TagsOK → Fits L c.shape v → ∀ {w}, Reorder v w → EncOK env c w := by
  induction ho with
  | normal s v => intros; exact .normal _ _
  | required s v => intros; exact .required _ _
  | option s v => intros; exact .option _ _
  | bytes v => intros; exact .bytes _
  | ptrNil z c => intro _ _ _ w h; cases h; exact .ptrNil _ _
  | ptr z c v ho ih =>
    intro hc hct hv w h
    obtain ⟨w, rfl, hr⟩ := reorder_ptr h
    cases hv with
    | ptr _ _ hv => exact .ptr _ _ _ (ih hc.2 hct hv hr)
  | msgNil t => intro _ _ _ w h; cases h; exact .msgNil _
  | msg t vs ho ih =>
    intro hc hct hv w h
    obtain ⟨w, rfl, hr0⟩ := reorder_ptr h
    obtain ⟨ws, rfl, hr⟩ := reorder_struct hr0
    refine .msg t ws fun f hf w hw => ?_
    obtain ⟨v, hv', hrv⟩ := reorderL_get' hr hw
    cases hv with
    | msg _ _ hl hvs =>
      exact ih f hf v hv' (hwf.codec t f hf) (ht t f hf).2 (hvs _ _ _ (hwf.slot t f hf) hv') hrv
  | slice z c n es sp ho ih =>
    intro hc hct hv w h
    obtain ⟨es', rfl, hr⟩ := reorder_slice h
    cases hv with
    | slice _ _ _ _ _ hes _ =>
      refine .slice _ _ _ _ _ fun e he => ?_
      obtain ⟨v, hv, hrv⟩ := reorderL_mem hr he
      exact ih v hv hc.2 hct (hes v hv) hrv
  | map i kc vc kd vd n m hs hko hvo _ ih =>
    intro hc hct hv w h
    obtain ⟨m', m'', rfl, hp, hr⟩ := reorder_map h
    obtain ⟨_, _, _, _, _, hkw, hvw, _, _⟩ := hc
    obtain ⟨hit, hiv, hkt, hvt, _, _⟩ := hct
    cases hv with
    | map _ _ _ _ _ _ hk hv =>
      refine .map _ _ _ _ _ _ _ (fun e he => ?_) (fun e he => ?_) (fun e he => ?_)
      · obtain ⟨v, hm, hrv⟩ := reorderM_mem hr he
        have hm := hp.mem_iff.mpr hm
        obtain ⟨_, _, h2⟩ := sized_field hwf ht vc hvw hvt v i.val hiv (hv _ hm) (hvo _ hm)
        have h1 := hs _ hm
        simp only [h2] at h1
        have a := (codecSize_reorder (fun t v w h => sizeM_reorder env t h) kc _ _ i.val hrv _).mp h1
        have b := (codecSize_reorder (fun t v w h => sizeM_reorder env t h) vc _ _ i.val hrv _).mp h2
        rw [a, b]
      · obtain ⟨v, hm, _⟩ := reorderM_mem hr he
        exact hko (e.1, v) (hp.mem_iff.mpr hm)
      · obtain ⟨v, hm, hrv⟩ := reorderM_mem hr he
        have hm := hp.mem_iff.mpr hm
        exact ih _ hm hvw hvt (hv _ hm) hrv

theorem written_reorder {c : Codec} {v w : Val} (h : Reorder v w) (hw : Written c v) : Written c w := by
  induction c generalizing v w with
  | normal s =>
    rcases reorder_leaf h with rfl | ⟨_, h2⟩
    · exact hw
    · intro he; subst he; cases s <;> exact h2
  | required s => trivial
  | option s => cases v <;> cases h <;> exact hw
  | bytes => cases v <;> cases h <;> exact hw
  | ptr z c ih =>
    cases v with
    | ptr v => obtain ⟨w, rfl, hr⟩ := reorder_ptr h; exact ih hr hw
    | _ => exact hw.elim
  | msg t =>
    cases v with
    | ptr v => obtain ⟨w, rfl, hr⟩ := reorder_ptr h; trivial
    | _ => exact hw.elim
  | slice => exact hw.elim
  | map => exact hw.elim

theorem canon_reorder {L : Layout} {env : Env} (hwf : WFEnv L env) {c : Codec} {v : Val} (hc : Canon env c v) :
    ∀ {w}, Reorder v w → Canon env c w := by
  induction hc with
  | normal s v => intros; exact .normal _ _
  | required s v => intros; exact .required _ _
  | option s v => intros; exact .option _ _
  | bytes v => intros; exact .bytes _
  | ptrNil z c => intro w h; cases h; exact .ptrNil _ _
  | ptr z c v hw _ ih =>
    intro w h
    obtain ⟨w, rfl, hr⟩ := reorder_ptr h
    exact .ptr _ _ _ (written_reorder hr hw) (ih hr)
  | msgNil t => intro w h; cases h; exact .msgNil _
  | msg t vs zs hz _ hu ih =>
    intro w h
    obtain ⟨w, rfl, hr0⟩ := reorder_ptr h
    obtain ⟨ws, rfl, hr⟩ := reorder_struct hr0
    refine .msg t ws zs hz (fun f hf w hw => ?_) (fun i hi => ?_)
    · obtain ⟨v, hv, hrv⟩ := reorderL_get' hr hw
      exact ih f hf v hv hrv
    · have := hu i hi
      cases hw : ws[i]? with
      | none =>
        rw [← this, List.getElem?_eq_none_iff.mpr]
        rw [← reorderL_length hr]; exact List.getElem?_eq_none_iff.mp hw
      | some w =>
        obtain ⟨v, hv, hrv⟩ := reorderL_get' hr hw
        have hvz : v.mapsTrivial = true := by
          have hz' := hwf.zero t
          rw [hz] at hz'
          simp only [Val.struct.injEq] at hz'
          rw [hv, hz', List.getElem?_map] at this
          cases hs : (L t)[i]? with
          | none => rw [hs] at this; simp at this
          | some s => rw [hs] at this; simp at this; rw [this]; exact zero_trivial s
        rw [reorder_trivial hrv hvz, ← hv, this]
  | slice z c es sp hw _ ih =>
    intro w h
    obtain ⟨es', rfl, hr⟩ := reorder_slice h
    have : decide (es = []) = decide (es' = []) := by
      have := reorderL_length hr
      cases es <;> cases es' <;> simp_all
    rw [this]
    refine .slice _ _ _ _ (fun e he => ?_) (fun e he => ?_)
    · obtain ⟨v, hv, hrv⟩ := reorderL_mem hr he
      exact written_reorder hrv (hw v hv)
    · obtain ⟨v, hv, hrv⟩ := reorderL_mem hr he
      exact ih v hv hrv
  | map i kc vc kd vd m hne _ ih =>
    intro w h
    obtain ⟨m', m'', rfl, hp, hr⟩ := reorder_map h
    refine .map _ _ _ _ _ _ (fun he => hne ?_) (fun e he => ?_)
    · subst he; cases hr; exact List.perm_nil.mp hp
    · obtain ⟨v, hm, hrv⟩ := reorderM_mem hr he
      exact ih _ (hp.mem_iff.mpr hm) hrv

/-! ### the same bytes -/

/-- Both fault, or both give the same bytes up to their order. -/
def PermOk (x y : Except Fault Bytes) : Prop :=
  (∃ e e', x = .error e ∧ y = .error e') ∨ ∃ a b, x = .ok a ∧ y = .ok b ∧ a.Perm b

theorem permOk_refl (x : Except Fault Bytes) : PermOk x x := by
  cases x with
  | error e => exact .inl ⟨e, e, rfl, rfl⟩
  | ok a => exact .inr ⟨a, a, rfl, rfl, .refl a⟩

theorem permOk_of_eq {x y : Except Fault Bytes} (h : y = x) : PermOk x y := h ▸ permOk_refl x

theorem PermOk.trans {x y z : Except Fault Bytes} (h : PermOk x y) (h' : PermOk y z) : PermOk x z := by
  rcases h with ⟨e, e', rfl, rfl⟩ | ⟨a, b, rfl, rfl, hp⟩ <;> rcases h' with ⟨f, f', h1, rfl⟩ | ⟨c, d, h1, rfl, hp'⟩
  · exact .inl ⟨e, f', rfl, rfl⟩
  · simp at h1
  · simp at h1
  · simp at h1; subst h1; exact .inr ⟨a, d, rfl, rfl, hp.trans hp'⟩

theorem catAll_cons_perm {α β} {g : α → Except Fault Bytes} {g' : β → Except Fault Bytes} {x : α} {y : β} {xs : List α}
    {ys : List β} (h1 : PermOk (g x) (g' y)) (h2 : PermOk (catAll g xs) (catAll g' ys)) :
    PermOk (catAll g (x :: xs)) (catAll g' (y :: ys)) := by
  rcases h1 with ⟨e, e', h1, h1'⟩ | ⟨a, b, h1, h1', hp⟩ <;> rcases h2 with ⟨e2, e2', h2, h2'⟩ | ⟨c, d, h2, h2', hp'⟩ <;>
    simp only [catAll, h1, h1', h2, h2']
  · exact .inl ⟨_, _, rfl, rfl⟩
  · exact .inl ⟨_, _, rfl, rfl⟩
  · exact .inl ⟨_, _, rfl, rfl⟩
  · exact .inr ⟨_, _, rfl, rfl, hp.append hp'⟩

theorem catAll_perm {α} (g : α → Except Fault Bytes) {xs ys : List α} (h : xs.Perm ys) :
    PermOk (catAll g xs) (catAll g ys) := by
  induction h with
  | nil => exact permOk_refl _
  | cons x _ ih => exact catAll_cons_perm (permOk_refl _) ih
  | swap x y l =>
    simp only [catAll]
    cases g x with
    | error e => cases g y <;> exact .inl ⟨_, _, rfl, rfl⟩
    | ok a =>
      cases g y with
      | error e => exact .inl ⟨_, _, rfl, rfl⟩
      | ok b =>
        cases catAll g l with
        | error e => exact .inl ⟨_, _, rfl, rfl⟩
        | ok c =>
          refine .inr ⟨_, _, rfl, rfl, ?_⟩
          rw [← List.append_assoc, ← List.append_assoc]
          exact List.perm_append_comm.append_right c
  | trans _ _ h1 h2 => exact h1.trans h2

theorem catAll_reorderL {g : Val → Except Fault Bytes} (hg : ∀ v w, Reorder v w → PermOk (g v) (g w)) {vs ws : List Val}
    (h : ReorderL vs ws) : PermOk (catAll g vs) (catAll g ws) := by
  induction vs generalizing ws with
  | nil => cases h; exact permOk_refl _
  | cons v vs ih => cases h with | cons h hs => exact catAll_cons_perm (hg _ _ h) (ih hs)

theorem catAll_reorderM {g : Key × Val → Except Fault Bytes} (hg : ∀ k v w, Reorder v w → PermOk (g (k, v)) (g (k, w)))
    {m m' : List (Key × Val)} (h : ReorderM m m') : PermOk (catAll g m) (catAll g m') := by
  induction m generalizing m' with
  | nil => cases h; exact permOk_refl _
  | cons v vs ih => cases h with | cons h hs => exact catAll_cons_perm (hg _ _ _ h) (ih hs)

theorem encP_reorder {sz : TypeId → Val → Except Fault Nat} {rec : TypeId → Val → Except Fault Bytes}
    (hsz : ∀ t v w, Reorder v w → SameOk (sz t v) (sz t w)) (hrec : ∀ t v w, Reorder v w → PermOk (rec t v) (rec t w)) :
    ∀ c v w f, Reorder v w → PermOk (encP sz rec c v f) (encP sz rec c w f) := by
  intro c
  induction c with
  | normal s => intro v w f h; exact permOk_of_eq (encodeNormal_reorder s [] f h)
  | required s => intro v w f h; exact permOk_of_eq (encodeRequired_reorder s [] f h)
  | option s => intro v w f h; exact permOk_of_eq (encodeOption_reorder s [] f h)
  | bytes => intro v w f h; exact permOk_of_eq (encodeBytes_reorder [] f h)
  | ptr z c ih =>
    intro v w f h
    cases h with
    | refl => exact permOk_refl _
    | ptr h => exact ih _ _ f h
    | _ => exact permOk_refl _
  | msg t =>
    intro v w f h
    cases h with
    | refl => exact permOk_refl _
    | @ptr v w h =>
      simp only [encP]
      rcases (hsz t _ _ h).cases with ⟨e, e', h1, h1'⟩ | ⟨a, h1, h1'⟩
      · rw [h1, h1']; exact .inl ⟨_, _, rfl, rfl⟩
      · rcases hrec t _ _ h with ⟨e, e', h2, h2'⟩ | ⟨b, b', h2, h2', hp⟩ <;> rw [h1, h1', h2, h2']
        · exact .inl ⟨_, _, rfl, rfl⟩
        · exact .inr ⟨_, _, rfl, rfl, (hp.append_left _).append_left _⟩
    | _ => exact permOk_refl _
  | slice z c ih =>
    intro v w f h
    cases h with
    | refl => exact permOk_refl _
    | slice h => exact catAll_reorderL (fun v w h => ih v w f h) h
    | _ => exact permOk_refl _
  | map i kc vc kd vd ihk ihv _ _ =>
    intro v w f h
    cases h with
    | refl => exact permOk_refl _
    | @map n m m' m'' hp h =>
      simp only [encP]
      have : PermOk (catAll (fun (e : Key × Val) => entryBytes i.wiretag (codecSize sz kc e.1.toVal i.key)
        (codecSize sz kc e.2 i.val) (encP sz rec kc e.1.toVal i.key) (encP sz rec vc e.2 i.val)) m)
        (catAll (fun (e : Key × Val) => entryBytes i.wiretag (codecSize sz kc e.1.toVal i.key)
        (codecSize sz kc e.2 i.val) (encP sz rec kc e.1.toVal i.key) (encP sz rec vc e.2 i.val)) m'') := by
        refine (catAll_perm _ hp).trans (catAll_reorderM (fun k v w hr => ?_) h)
        simp only
        cases codecSize sz kc k.toVal i.key with
        | error e => exact permOk_refl _
        | ok ks =>
          rcases (codecSize_reorder hsz kc v w i.val hr).cases with ⟨e, e', h1, h1'⟩ | ⟨a, h1, h1'⟩
          · rw [h1, h1']; exact .inl ⟨_, _, rfl, rfl⟩
          · rw [h1, h1']
            cases encP sz rec kc k.toVal i.key with
            | error e => exact permOk_refl _
            | ok kb =>
              rcases ihv v w i.val hr with ⟨e, e', h2, h2'⟩ | ⟨b, b', h2, h2', hp⟩ <;> rw [h2, h2']
              · exact .inl ⟨_, _, rfl, rfl⟩
              · exact .inr ⟨_, _, rfl, rfl, ((hp.append_left _).append_left _).append_left _⟩
      rcases this with ⟨e, e', h1, h1'⟩ | ⟨a, b, h1, h1', hp⟩ <;> rw [h1, h1']
      · exact .inl ⟨_, _, rfl, rfl⟩
      · simp only [wrapMap]
        by_cases ha : a = []
        · subst ha
          have := List.nil_perm.mp hp; subst this
          exact permOk_refl _
        · have hb : b ≠ [] := fun hb => ha (by subst hb; exact List.perm_nil.mp hp)
          rw [if_neg ha, if_neg hb]
          exact .inr ⟨_, _, rfl, rfl, hp⟩
    | _ => exact permOk_refl _

/-- The bytes of each field. -/
theorem fields_perm {sz : TypeId → Val → Except Fault Nat} {rec : TypeId → Val → Except Fault Bytes}
    (hsz : ∀ t v w, Reorder v w → SameOk (sz t v) (sz t w)) (hrec : ∀ t v w, Reorder v w → PermOk (rec t v) (rec t w))
    {p q : Val} (h : Reorder p q) (fs : List Field) :
    PermOk (encFields (encP sz rec) p fs) (encFields (encP sz rec) q fs) := by
  induction fs with
  | nil => exact permOk_refl _
  | cons f fs ih =>
    refine catAll_cons_perm ?_ ih
    rcases slotOf_reorder h f.offset with ⟨x, y, h1, h2, hr⟩ | ⟨h1, h2⟩ <;> rw [h1, h2]
    · exact encP_reorder hsz hrec _ _ _ _ hr
    · exact permOk_refl _

theorem encM_reorder {env : Env} : ∀ {v w} t, Reorder v w → PermOk (encM env t v) (encM env t w) := by
  suffices h : ∀ d t v w, Reorder v w → PermOk (encodeMsg env d t [] v) (encodeMsg env d t [] w) by
    intro v w t hr
    simp only [encM, reorder_depth hr]
    exact h _ t v w hr
  intro d
  induction d with
  | zero => intro t v w _; exact permOk_refl _
  | succ d ih =>
    intro t v w hr
    rw [encodeMsg_succ, encodeMsg_succ]
    exact fields_perm (sizeMsg_reorder env d) ih hr _

end Pb
