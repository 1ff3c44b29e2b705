import Verif.Proofs.Size
import Verif.Spec.Encode
/-
Size and Marshal do not fail (helper lemmas for `Props/Total.lean`).
-/
namespace Pb
open Spec

theorem sumAll_total {α} (g : α → Except Fault Nat) (xs : List α) (h : ∀ x ∈ xs, ∃ n, g x = .ok n) : ∃ n, sumAll g xs = .ok n := by
  induction xs with
  | nil => exact ⟨0, rfl⟩
  | cons x xs ih =>
    obtain ⟨a, h1⟩ := h x (by simp)
    obtain ⟨r, h2⟩ := ih fun y hy => h y (by simp [hy])
    exact ⟨_, by simp only [sumAll, h1, h2]; rfl⟩

theorem catAll_total {α} (g : α → Except Fault Bytes) (xs : List α) (h : ∀ x ∈ xs, ∃ n, g x = .ok n) : ∃ n, catAll g xs = .ok n := by
  induction xs with
  | nil => exact ⟨[], rfl⟩
  | cons x xs ih =>
    obtain ⟨a, h1⟩ := h x (by simp)
    obtain ⟨r, h2⟩ := ih fun y hy => h y (by simp [hy])
    exact ⟨_, by simp only [catAll, h1, h2]; rfl⟩

theorem size_total_codec {L : Layout} (sz : TypeId → Val → Except Fault Nat) (D : Nat)
    (hrec : ∀ t v, v.depth < D → FitsMsg L t v → ∃ n, sz t v = .ok n) :
    ∀ (c : Codec), c.WF → ∀ v f, v.depth ≤ D → Fits L c.shape v → ∃ n, codecSize sz c v f = .ok n := by
  intro c
  induction c with
  | normal s => intro _ v f _ hv; exact ⟨_, sizeNormal_eq f hv⟩
  | required s => intro _ v f _ hv; exact ⟨_, sizeRequired_eq f hv⟩
  | option s =>
    intro _ v f _ hv
    simp only [Codec.shape] at hv
    cases hv with
    | none => exact ⟨_, rfl⟩
    | some _ w hw => exact ⟨_, sizeRequired_eq f hw⟩
  | bytes =>
    intro _ v f _ hv
    simp only [Codec.shape] at hv
    cases hv with
    | bytes x => cases x <;> exact ⟨_, rfl⟩
  | ptr zero c ih =>
    intro hwf v f hd hv
    simp only [Codec.shape] at hv
    cases hv with
    | ptrNil => exact ⟨_, rfl⟩
    | ptr _ w hw =>
      simp only [Val.depth] at hd
      exact ih hwf.2 w f (by omega) hw
  | msg t =>
    intro _ v f hd hv
    simp only [Codec.shape] at hv
    cases hv with
    | msgNil => exact ⟨_, rfl⟩
    | msg _ vs h1 h2 =>
      simp only [Val.depth] at hd
      obtain ⟨n, hn⟩ := hrec t (.struct vs) (by simp only [Val.depth]; omega) (.msg _ _ h1 h2)
      exact ⟨_, by simp only [codecSize, hn, bind, Except.bind]; rfl⟩
  | slice zero c ih =>
    intro hwf v f hd hv
    simp only [Codec.shape] at hv
    cases hv with
    | slice _ isNil es spare _ hes _ =>
      simp only [codecSize, sumSizes_zero]
      refine sumAll_total _ _ fun x hx => ?_
      have := depth_mem_L hx
      simp only [Val.depth] at hd
      exact ih hwf.2 x f (by omega) (hes x hx)
  | map i kc vc kd vd ihk ihv _ _ =>
    intro hwf v f hd hv
    obtain ⟨_, _, _, _, _, hkw, hvw, _, _⟩ := hwf
    simp only [Codec.shape] at hv
    cases hv with
    | map _ _ isNil m _ _ hks hvs =>
      rw [codecSize_map]
      obtain ⟨n, hn⟩ := sumAll_total (fun (e : Key × Val) => entrySize i.wiretag (codecSize sz kc e.1.toVal i.key) (codecSize sz vc e.2 i.val)) m (by
        intro e hem
        have := depth_mem_M hem
        simp only [Val.depth] at hd
        obtain ⟨a, h1⟩ := ihk hkw e.1.toVal i.key (by rw [key_depth]; omega) (hks e hem)
        obtain ⟨b, h2⟩ := ihv hvw e.2 i.val (by omega) (hvs e hem)
        exact ⟨_, by simp only [h1, h2]; rfl⟩)
      rw [hn]
      exact ⟨_, rfl⟩

theorem size_total {L : Layout} {env : Env} (hwf : WFEnv L env) : ∀ v t, FitsMsg L t v → ∃ n, sizeM env t v = .ok n := by
  intro v
  induction hd : v.depth using Nat.strongRecOn generalizing v with
  | ind d ih =>
    intro t hv
    rw [sizeM_eq]
    refine sumAll_total _ _ fun f hf => ?_
    obtain ⟨vs, rfl, hfl⟩ := fitsMsg_iff.mp hv
    obtain ⟨w, hsl, hget, hfit⟩ := slotOf_fits hfl (hwf.slot t f hf)
    have := slotOf_depth hsl
    simp only [hsl]
    exact size_total_codec (L := L) _ w.depth (fun t' v' hlt hv' => ih v'.depth (by omega) v' rfl t' hv') f.codec
      (hwf.codec t f hf) w f.tag (by omega) hfit

theorem encode_total_codec {L : Layout} (sz : TypeId → Val → Except Fault Nat) (rec : TypeId → Val → Except Fault Bytes) (D : Nat)
    (hsz : ∀ t v, FitsMsg L t v → ∃ n, sz t v = .ok n)
    (hrec : ∀ t v, v.depth < D → FitsMsg L t v → ∃ n, rec t v = .ok n) :
    ∀ (c : Codec), c.WF → c.MapsShaped → ∀ v f, v.depth ≤ D → Fits L c.shape v → ∃ n, encP sz rec c v f = .ok n := by
  intro c
  induction c with
  | normal s => intro _ _ v f _ hv; exact ⟨_, encodeNormal_eq f hv⟩
  | required s => intro _ _ v f _ hv; exact ⟨_, encodeRequired_eq f hv⟩
  | option s =>
    intro _ _ v f _ hv
    simp only [Codec.shape] at hv
    cases hv with
    | none => exact ⟨_, rfl⟩
    | some _ w hw => exact ⟨_, encodeRequired_eq f hw⟩
  | bytes =>
    intro _ _ v f _ hv
    simp only [Codec.shape] at hv
    cases hv with
    | bytes x => cases x <;> exact ⟨_, rfl⟩
  | ptr zero c ih =>
    intro hwf hm v f hd hv
    simp only [Codec.shape] at hv
    cases hv with
    | ptrNil => exact ⟨_, rfl⟩
    | ptr _ w hw =>
      simp only [Val.depth] at hd
      exact ih hwf.2 hm w f (by omega) hw
  | msg t =>
    intro _ _ v f hd hv
    simp only [Codec.shape] at hv
    cases hv with
    | msgNil => exact ⟨_, rfl⟩
    | msg _ vs h1 h2 =>
      simp only [Val.depth] at hd
      obtain ⟨n, hn⟩ := hrec t (.struct vs) (by simp only [Val.depth]; omega) (.msg _ _ h1 h2)
      obtain ⟨k, hk⟩ := hsz t (.struct vs) (.msg _ _ h1 h2)
      exact ⟨_, by simp only [encP, hn, hk]; rfl⟩
  | slice zero c ih =>
    intro hwf hm v f hd hv
    simp only [Codec.shape] at hv
    cases hv with
    | slice _ isNil es spare _ hes _ =>
      simp only [encP]
      refine catAll_total _ _ fun x hx => ?_
      have := depth_mem_L hx
      simp only [Val.depth] at hd
      exact ih hwf.2 hm x f (by omega) (hes x hx)
  | map i kc vc kd vd ihk ihv _ _ =>
    intro hwf hm v f hd hv
    obtain ⟨hkey, _, _, _, _, hkw, hvw, _, _⟩ := hwf
    have hms : kc.shape = vc.shape := hm
    have hk : kc.MapsShaped := by cases kc <;> simp [Codec.shape, Shape.isKey] at hkey <;> trivial
    rw [hms] at hkey
    have hv' : vc.MapsShaped := by cases vc <;> simp [Codec.shape, Shape.isKey] at hkey <;> trivial
    simp only [Codec.shape] at hv
    cases hv with
    | map _ _ isNil m _ _ hks hvs =>
      simp only [encP]
      obtain ⟨n, hn⟩ := catAll_total (fun (e : Key × Val) => entryBytes i.wiretag (codecSize sz kc e.1.toVal i.key)
          (codecSize sz kc e.2 i.val) (encP sz rec kc e.1.toVal i.key) (encP sz rec vc e.2 i.val)) m (by
        intro e hem
        have := depth_mem_M hem
        simp only [Val.depth] at hd
        obtain ⟨a, h1⟩ := ihk hkw hk e.1.toVal i.key (by rw [key_depth]; omega) (hks e hem)
        obtain ⟨b, h2⟩ := ihv hvw hv' e.2 i.val (by omega) (hvs e hem)
        obtain ⟨a', h3⟩ := size_total_codec sz D (fun t v _ h => hsz t v h) kc hkw e.1.toVal i.key (by rw [key_depth]; omega) (hks e hem)
        obtain ⟨b', h4⟩ := size_total_codec sz D (fun t v _ h => hsz t v h) kc hkw e.2 i.val (by omega) (by rw [hms]; exact hvs e hem)
        exact ⟨_, by simp only [h1, h2, h3, h4]; rfl⟩)
      rw [hn]
      exact ⟨_, rfl⟩

theorem encode_total {L : Layout} {env : Env} (hwf : WFEnv L env) (hm : ∀ t, ∀ f ∈ (env t).fields, f.codec.MapsShaped) :
    ∀ v t, FitsMsg L t v → ∃ n, encM env t v = .ok n := by
  intro v
  induction hd : v.depth using Nat.strongRecOn generalizing v with
  | ind d ih =>
    intro t hv
    rw [encM_eq]
    refine catAll_total _ _ fun f hf => ?_
    obtain ⟨vs, rfl, hfl⟩ := fitsMsg_iff.mp hv
    obtain ⟨w, hsl, hget, hfit⟩ := slotOf_fits hfl (hwf.slot t f hf)
    have := slotOf_depth hsl
    simp only [hsl]
    exact encode_total_codec (L := L) _ _ w.depth (fun t v h => size_total hwf v t h)
      (fun t' v' hlt hv' => ih v'.depth (by omega) v' rfl t' hv') f.codec (hwf.codec t f hf) (hm t f hf) w f.tag (by omega) hfit

end Pb
