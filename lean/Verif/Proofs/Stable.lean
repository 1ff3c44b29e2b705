import Verif.Spec.Stable
import Verif.Proofs.Back
/-
A second round trip changes nothing.
-/
namespace Pb
open Spec

theorem written_back {env : Env} {c : Codec} {v w : Val} (h : Back env c v w) (hw : Written c v) : Written c w := by
  induction c generalizing v w with
  | ptr z c ih =>
    cases h with
    | ptrNil => exact hw
    | ptrLost _ _ v hn => exact absurd hw hn
    | ptr _ _ v w _ hb => exact ih hb hw
  | msg t => cases h with
    | msgNil => exact hw
    | msg => trivial
  | slice z c _ => exact hw.elim
  | map => exact hw.elim
  | _ => cases h; exact hw

theorem canon_zero {env : Env} : ∀ c : Codec, c.IsElem → Canon env c c.shape.zero
  | .normal s, _ => .normal _ _
  | .required s, _ => .required _ _
  | .option s, _ => .option _ _
  | .bytes, _ => .bytes _
  | .ptr _ _, _ => .ptrNil _ _
  | .msg _, _ => .msgNil _

/-- Maps have a supported element type. -/
def ElemOK : Codec → Prop
  | .map i _ vc _ _ => i.vzero = vc.shape.zero ∧ vc.IsElem
  | .slice _ c => c.IsElem
  | c => c.IsElem

theorem elemOK_of_elem : ∀ {c : Codec}, c.IsElem → ElemOK c
  | .normal _, h | .required _, h | .option _, h | .bytes, h | .ptr _ _, h | .msg _, h => h

theorem elemOK_field {L : Layout} {env : Env} (hg : Good L env) {t : TypeId} {f : Field} (hf : f ∈ (env t).fields) :
    ElemOK f.codec := by
  have h1 := hg.supported t f hf
  have h2 := hg.wf.codec t f hf
  revert h1 h2
  generalize f.codec = c
  cases c with
  | slice z c => intro h1 _; exact h1
  | map i kc vc kd vd => intro h1 h2; exact ⟨h2.2.2.2.2.1, h1.2.2.2.2.2.1⟩
  | _ => intro h1 _; exact h1

mutual
/-- What comes back is canonical. -/
theorem canon_of_back {L : Layout} {env : Env} (hg : Good L env) {c : Codec} {v w : Val} :
    Back env c v w → ElemOK c → Canon env c w
  | .normal s v => fun _ => .normal _ _
  | .required s v => fun _ => .required _ _
  | .option s v => fun _ => .option _ _
  | .bytes v => fun _ => .bytes _
  | .ptrNil z c => fun _ => .ptrNil _ _
  | .ptrLost z c v h => fun _ => .ptrNil _ _
  | .ptr z c v w hw h => fun hc => .ptr _ _ _ (written_back h hw) (canon_of_back hg h (elemOK_of_elem hc))
  | .msgNil t => fun _ => .msgNil _
  | .msg t vs ws zs hz hl hb hu => fun _ => by
    refine .msg t ws zs hz (fun f hf w hw => ?_) hu
    have hlt := (List.getElem?_eq_some_iff.mp hw).1
    have hv : vs[f.offset]? = some vs[f.offset] := List.getElem?_eq_getElem (by omega)
    exact canon_of_back hg (hb f hf _ w hv hw) (elemOK_field hg hf)
  | .slice z c n es sp ws sp' h => fun hc => by
    obtain ⟨h1, h2⟩ := canonL_of_back hg h hc
    exact .slice _ _ _ _ h1 h2
  | .map i kc vc kd vd n m m' hne h => fun hc => by
    refine .map _ _ _ _ _ _ ?_ (canonM_of_back hg h hc.2)
    intro h0; subst h0
    exact hne (List.map_eq_nil_iff.mp (backM_keys h).symm)
  | .mapEmpty i kc vc kd vd n k hk => fun hc => by
    refine .map _ _ _ _ _ _ (by simp) fun e he => ?_
    simp only [List.mem_singleton] at he; subst he
    simp only [hc.1]
    exact canon_zero vc hc.2

theorem canonL_of_back {L : Layout} {env : Env} (hg : Good L env) {c : Codec} {es ws : List Val} :
    BackL env c es ws → c.IsElem → (∀ e ∈ ws, Written c e) ∧ ∀ e ∈ ws, Canon env c e
  | .nil c => fun _ => by simp
  | .drop c e es ws h hs => fun hc => canonL_of_back hg hs hc
  | .keep c e es w ws hw h hs => fun hc => by
    obtain ⟨h1, h2⟩ := canonL_of_back hg hs hc
    have h3 := written_back h hw
    have h4 := canon_of_back hg h (elemOK_of_elem hc)
    refine ⟨fun x hx => ?_, fun x hx => ?_⟩ <;> rcases List.mem_cons.mp hx with rfl | hx
    · exact h3
    · exact h1 x hx
    · exact h4
    · exact h2 x hx

theorem canonM_of_back {L : Layout} {env : Env} (hg : Good L env) {c : Codec} {m m' : List (Key × Val)} :
    BackM env c m m' → c.IsElem → ∀ e ∈ m', Canon env c e.2
  | .nil c => fun _ => by simp
  | .cons c k v w m m' h hs => fun hc e he => by
    have h1 := canon_of_back hg h (elemOK_of_elem hc)
    have h2 := canonM_of_back hg hs hc
    rcases List.mem_cons.mp he with rfl | he
    · exact h1
    · exact h2 e he
end

theorem noEmpty_of_canon {env : Env} {c : Codec} {v : Val} (h : Canon env c v) : NoEmptyMaps env c v := by
  induction h with
  | normal => exact .normal _ _
  | required => exact .required _ _
  | option => exact .option _ _
  | bytes => exact .bytes _
  | ptrNil => exact .ptrNil _ _
  | ptr _ _ _ _ _ ih => exact .ptr _ _ _ ih
  | msgNil => exact .msgNil _
  | msg t vs zs hz _ _ ih => exact .msg _ _ ih
  | slice _ _ _ _ _ _ ih => exact .slice _ _ _ _ _ ih
  | map _ _ _ _ _ _ hne _ ih => exact .map _ _ _ _ _ _ _ hne ih

/-- An unwritten value is written as nothing. -/
theorem encP_unwritten {L : Layout} {env : Env} : ∀ {c : Codec} {v : Val}, c.IsElem → ¬ Written c v → Fits L c.shape v →
    ∀ f, encP (sizeM env) (encM env) c v f = .ok [] ∧ codecSize (sizeM env) c v f = .ok 0
  | .normal s, v, _, hn, hv, f => by
    have : v = s.shape.zero := Classical.byContradiction fun h => hn h
    subst this
    cases s <;> exact ⟨rfl, rfl⟩
  | .required s, v, _, hn, _, f => absurd trivial hn
  | .option s, v, _, hn, hv, f => by
    simp only [Codec.shape] at hv
    cases hv with
    | none => cases s <;> exact ⟨rfl, rfl⟩
    | some => exact absurd rfl hn
  | .bytes, v, _, hn, hv, f => by
    simp only [Codec.shape] at hv
    cases hv with
    | bytes x =>
      cases x with
      | none => exact ⟨rfl, rfl⟩
      | some x => exact absurd (by simp [Written]) hn
  | .ptr z c, v, hc, hn, hv, f => by
    simp only [Codec.shape] at hv
    cases hv with
    | ptrNil => exact ⟨rfl, rfl⟩
    | ptr _ w hw => exact encP_unwritten (c := c) hc hn hw f
  | .msg t, v, _, hn, hv, f => by
    simp only [Codec.shape] at hv
    cases hv with
    | msgNil => exact ⟨rfl, rfl⟩
    | msg => exact absurd trivial hn

/-- map.go:80 measures what comes back as it measured the original. -/
theorem key_size_back {env : Env} {kc c : Codec} {v w : Val} (hk : kc.shape.isKey) (h : Back env c v w) (f : FTag) :
    codecSize (sizeM env) kc w f = codecSize (sizeM env) kc v f := by
  cases kc with
  | normal s => cases h <;> cases s <;> rfl
  | required s => cases h <;> cases s <;> rfl
  | _ => exact hk.elim

theorem catAll_pair {α β} {g : α → Except Fault Bytes} {h : β → Except Fault Bytes} {x : α} {y : β} {xs : List α} {ys : List β}
    (h1 : h y = g x) (h2 : catAll h ys = catAll g xs) : catAll h (y :: ys) = catAll g (x :: xs) := by
  simp only [catAll, h1, h2]

theorem sumAll_pair {α β} {g : α → Except Fault Nat} {h : β → Except Fault Nat} {x : α} {y : β} {xs : List α} {ys : List β}
    (h1 : h y = g x) (h2 : sumAll h ys = sumAll g xs) : sumAll h (y :: ys) = sumAll g (x :: xs) := by
  simp only [sumAll, h1, h2]

/-- Maps have scalar keys and supported element types. -/
def MapOK : Codec → Prop
  | .map _ kc vc _ _ => kc.shape.isKey ∧ vc.IsElem
  | .slice _ c => c.IsElem
  | c => c.IsElem

theorem mapOK_of_elem : ∀ {c : Codec}, c.IsElem → MapOK c
  | .normal _, h | .required _, h | .option _, h | .bytes, h | .ptr _ _, h | .msg _, h => h

theorem mapOK_field {L : Layout} {env : Env} (hg : Good L env) {t : TypeId} {f : Field} (hf : f ∈ (env t).fields) :
    MapOK f.codec := by
  have h1 := hg.supported t f hf
  have h2 := hg.wf.codec t f hf
  revert h1 h2
  generalize f.codec = c
  cases c with
  | slice z c => intro h1 _; exact h1
  | map i kc vc kd vd => intro h1 h2; exact ⟨h2.1, h1.2.2.2.2.2.1⟩
  | _ => intro h1 _; exact h1

mutual
/-- What comes back is written like the original, unless there are empty maps. -/
theorem enc_back {L : Layout} {env : Env} (hg : Good L env) {c : Codec} {v w : Val} :
    Back env c v w → MapOK c → Fits L c.shape v → NoEmptyMaps env c v → ∀ f,
      encP (sizeM env) (encM env) c w f = encP (sizeM env) (encM env) c v f ∧
      codecSize (sizeM env) c w f = codecSize (sizeM env) c v f
  | .normal s v => fun _ _ _ _ => ⟨rfl, rfl⟩
  | .required s v => fun _ _ _ _ => ⟨rfl, rfl⟩
  | .option s v => fun _ _ _ _ => ⟨rfl, rfl⟩
  | .bytes v => fun _ _ _ _ => ⟨rfl, rfl⟩
  | .ptrNil z c => fun _ _ _ _ => ⟨rfl, rfl⟩
  | .ptrLost z c v h => fun hc hv _ f => by
    simp only [Codec.shape] at hv
    cases hv with
    | ptr _ _ hv =>
      obtain ⟨h1, h2⟩ := encP_unwritten (env := env) (c := c) hc h hv f
      simp only [encP, codecSize, h1, h2, and_self]
  | .ptr z c v w hw h => fun hc hv hm f => by
    simp only [Codec.shape] at hv
    cases hv with
    | ptr _ _ hv =>
      cases hm with
      | ptr _ _ _ hm =>
        obtain ⟨h1, h2⟩ := enc_back hg h (mapOK_of_elem hc) hv hm f
        simp only [encP, codecSize, h1, h2, and_self]
  | .msgNil t => fun _ _ _ _ => ⟨rfl, rfl⟩
  | .msg t vs ws zs hz hl hb hu => fun _ hv hm f => by
    have hfl := fitsL_of_msg hv
    cases hm with
    | msg _ _ hm =>
      have key : ∀ f ∈ (env t).fields, ∃ v w, slotOf (.struct vs) f.offset = .ok v ∧ slotOf (.struct ws) f.offset = .ok w ∧
          encP (sizeM env) (encM env) f.codec w f.tag = encP (sizeM env) (encM env) f.codec v f.tag ∧
          codecSize (sizeM env) f.codec w f.tag = codecSize (sizeM env) f.codec v f.tag := by
        intro f hf
        obtain ⟨v, hs, hv, hfit⟩ := slotOf_fits hfl (hg.wf.slot t f hf)
        have hlt := (List.getElem?_eq_some_iff.mp hv).1
        have hw : ws[f.offset]? = some ws[f.offset] := List.getElem?_eq_getElem (by omega)
        refine ⟨v, ws[f.offset], hs, by simp only [slotOf, hw], ?_⟩
        exact enc_back hg (hb f hf v _ hv hw) (mapOK_field hg hf) hfit (hm f hf v hv) f.tag
      have e1 : sizeM env t (.struct ws) = sizeM env t (.struct vs) := by
        rw [sizeM_eq, sizeM_eq]
        refine sumAll_congr _ _ _ fun f hf => ?_
        obtain ⟨v, w, h1, h2, _, h4⟩ := key f hf
        simp only [h1, h2, h4]
      have e2 : encM env t (.struct ws) = encM env t (.struct vs) := by
        rw [encM_eq, encM_eq]
        refine catAll_congr _ _ _ fun f hf => ?_
        obtain ⟨v, w, h1, h2, h3, _⟩ := key f hf
        simp only [h1, h2, h3]
      simp only [encP, codecSize, e1, e2, and_self]
  | .slice z c n es sp ws sp' h => fun hc hv hm f => by
    simp only [Codec.shape] at hv
    cases hv with
    | slice _ _ _ _ _ hes _ =>
      cases hm with
      | slice _ _ _ _ _ hm =>
        obtain ⟨h1, h2⟩ := encL_back hg h hc hes hm f
        simp only [encP, codecSize, sumSizes_zero, h1, h2, and_self]
  | .map i kc vc kd vd n m m' hne h => fun hc hv hm f => by
    simp only [Codec.shape] at hv
    cases hv with
    | map _ _ _ _ _ _ _ hvs =>
      cases hm with
      | map _ _ _ _ _ _ _ _ hm =>
        obtain ⟨h1, h2⟩ := encM_back hg h hc.1 hc.2 hvs hm i
        rw [codecSize_map, codecSize_map]
        simp only [encP, h1, h2, and_self]
  | .mapEmpty i kc vc kd vd n k hk => fun _ _ hm => by
    generalize h0 : ([] : List (Key × Val)) = m at hm
    cases hm with
    | map _ _ _ _ _ _ _ hne _ => exact absurd h0.symm hne

theorem encL_back {L : Layout} {env : Env} (hg : Good L env) {c : Codec} {es ws : List Val} :
    BackL env c es ws → c.IsElem → (∀ e ∈ es, Fits L c.shape e) → (∀ e ∈ es, NoEmptyMaps env c e) → ∀ f,
      catAll (fun e => encP (sizeM env) (encM env) c e f) ws = catAll (fun e => encP (sizeM env) (encM env) c e f) es ∧
      sumAll (fun e => codecSize (sizeM env) c e f) ws = sumAll (fun e => codecSize (sizeM env) c e f) es
  | .nil c => fun _ _ _ _ => ⟨rfl, rfl⟩
  | .drop c e es ws h hs => fun hc hv hm f => by
    obtain ⟨h1, h2⟩ := encL_back hg hs hc (fun e he => hv e (by simp [he])) (fun e he => hm e (by simp [he])) f
    obtain ⟨h3, h4⟩ := encP_unwritten (env := env) hc h (hv e (by simp)) f
    simp only [catAll, sumAll, h1, h2, h3, h4]
    constructor
    · cases catAll (fun e => encP (sizeM env) (encM env) c e f) es <;> simp
    · cases sumAll (fun e => codecSize (sizeM env) c e f) es <;> simp
  | .keep c e es w ws hw h hs => fun hc hv hm f => by
    obtain ⟨h1, h2⟩ := encL_back hg hs hc (fun e he => hv e (by simp [he])) (fun e he => hm e (by simp [he])) f
    obtain ⟨h3, h4⟩ := enc_back hg h (mapOK_of_elem hc) (hv e (by simp)) (hm e (by simp)) f
    exact ⟨catAll_pair h3 h1, sumAll_pair h4 h2⟩

theorem encM_back {L : Layout} {env : Env} (hg : Good L env) {kc c : Codec} {m m' : List (Key × Val)} :
    BackM env c m m' → kc.shape.isKey → c.IsElem → (∀ e ∈ m, Fits L c.shape e.2) → (∀ e ∈ m, NoEmptyMaps env c e.2) →
      ∀ i : MapInfo,
      catAll (fun (e : Key × Val) => entryBytes i.wiretag (codecSize (sizeM env) kc e.1.toVal i.key)
        (codecSize (sizeM env) kc e.2 i.val) (encP (sizeM env) (encM env) kc e.1.toVal i.key)
        (encP (sizeM env) (encM env) c e.2 i.val)) m' =
      catAll (fun (e : Key × Val) => entryBytes i.wiretag (codecSize (sizeM env) kc e.1.toVal i.key)
        (codecSize (sizeM env) kc e.2 i.val) (encP (sizeM env) (encM env) kc e.1.toVal i.key)
        (encP (sizeM env) (encM env) c e.2 i.val)) m ∧
      sumAll (fun (e : Key × Val) => entrySize i.wiretag (codecSize (sizeM env) kc e.1.toVal i.key)
        (codecSize (sizeM env) c e.2 i.val)) m' =
      sumAll (fun (e : Key × Val) => entrySize i.wiretag (codecSize (sizeM env) kc e.1.toVal i.key)
        (codecSize (sizeM env) c e.2 i.val)) m
  | .nil c => fun _ _ _ _ _ => ⟨rfl, rfl⟩
  | .cons c k v w m m' h hs => fun hk hc hv hm i => by
    obtain ⟨h1, h2⟩ := encM_back hg hs hk hc (fun e he => hv e (by simp [he])) (fun e he => hm e (by simp [he])) i
    obtain ⟨h3, h4⟩ := enc_back hg h (mapOK_of_elem hc) (hv (k, v) (by simp)) (hm (k, v) (by simp)) i.val
    exact ⟨catAll_pair (by simp only [h3, key_size_back hk h]) h1, sumAll_pair (by simp only [h4]) h2⟩
end

/-- Marshal gives the same result for what comes back. -/
theorem marshal_back {L : Layout} {env : Env} (hg : Good L env) {t : TypeId} {vs ws : List Val}
    (h : Back env (.msg t) (.ptr (.struct vs)) (.ptr (.struct ws))) (hv : FitsMsg L t (.struct vs))
    (hm : NoEmptyMaps env (.msg t) (.ptr (.struct vs))) :
    marshal env (.msg t (.struct ws)) = marshal env (.msg t (.struct vs)) := by
  have hfl := fitsL_of_msg hv
  cases h with
  | msg _ _ _ zs hz hl hb hu =>
    cases hm with
    | msg _ _ hm =>
      have key : ∀ f ∈ (env t).fields, ∃ v w, slotOf (.struct vs) f.offset = .ok v ∧ slotOf (.struct ws) f.offset = .ok w ∧
          encP (sizeM env) (encM env) f.codec w f.tag = encP (sizeM env) (encM env) f.codec v f.tag ∧
          codecSize (sizeM env) f.codec w f.tag = codecSize (sizeM env) f.codec v f.tag := by
        intro f hf
        obtain ⟨v, hs, hv, hfit⟩ := slotOf_fits hfl (hg.wf.slot t f hf)
        have hlt := (List.getElem?_eq_some_iff.mp hv).1
        have hw : ws[f.offset]? = some ws[f.offset] := List.getElem?_eq_getElem (by omega)
        refine ⟨v, ws[f.offset], hs, by simp only [slotOf, hw], ?_⟩
        exact enc_back hg (hb f hf v _ hv hw) (mapOK_field hg hf) hfit (hm f hf v hv) f.tag
      have e1 : sizeM env t (.struct ws) = sizeM env t (.struct vs) := by
        rw [sizeM_eq, sizeM_eq]
        refine sumAll_congr _ _ _ fun f hf => ?_
        obtain ⟨v, w, h1, h2, _, h4⟩ := key f hf
        simp only [h1, h2, h4]
      have e2 : encM env t (.struct ws) = encM env t (.struct vs) := by
        rw [encM_eq, encM_eq]
        refine catAll_congr _ _ _ fun f hf => ?_
        obtain ⟨v, w, h1, h2, h3, _⟩ := key f hf
        simp only [h1, h2, h3]
      simp only [marshal_msg, e1, e2]

/-! ### `EncOK` for what comes back -/

mutual
theorem encOK_back {L : Layout} {env : Env} (hg : Good L env) {c : Codec} {v w : Val} :
    Back env c v w → MapOK c → Fits L c.shape v → NoEmptyMaps env c v → EncOK env c v → EncOK env c w
  | .normal s v => fun _ _ _ h => h
  | .required s v => fun _ _ _ h => h
  | .option s v => fun _ _ _ h => h
  | .bytes v => fun _ _ _ h => h
  | .ptrNil z c => fun _ _ _ h => h
  | .ptrLost z c v h => fun _ _ _ _ => .ptrNil _ _
  | .ptr z c v w hw h => fun hc hv hm ho => by
    simp only [Codec.shape] at hv
    cases hv with
    | ptr _ _ hv =>
      cases hm with
      | ptr _ _ _ hm =>
        cases ho with
        | ptr _ _ _ ho => exact .ptr _ _ _ (encOK_back hg h (mapOK_of_elem hc) hv hm ho)
  | .msgNil t => fun _ _ _ h => h
  | .msg t vs ws zs hz hl hb hu => fun _ hv hm ho => by
    have hfl := fitsL_of_msg hv
    cases hm with
    | msg _ _ hm =>
      cases ho with
      | msg _ _ ho =>
        refine .msg _ _ fun f hf w hw => ?_
        obtain ⟨v, _, hv, hfit⟩ := slotOf_fits hfl (hg.wf.slot t f hf)
        exact encOK_back hg (hb f hf v w hv hw) (mapOK_field hg hf) hfit (hm f hf v hv) (ho f hf v hv)
  | .slice z c n es sp ws sp' h => fun hc hv hm ho => by
    simp only [Codec.shape] at hv
    cases hv with
    | slice _ _ _ _ _ hes _ =>
      cases hm with
      | slice _ _ _ _ _ hm =>
        cases ho with
        | slice _ _ _ _ _ ho => exact .slice _ _ _ _ _ (encOKL_back hg h hc hes hm ho)
  | .map i kc vc kd vd n m m' hne h => fun hc hv hm ho => by
    simp only [Codec.shape] at hv
    cases hv with
    | map _ _ _ _ _ _ _ hvs =>
      cases hm with
      | map _ _ _ _ _ _ _ _ hm =>
        cases ho with
        | map _ _ _ _ _ _ _ ho1 ho2 ho3 =>
          obtain ⟨h1, h2, h3⟩ := encOKM_back hg h hc.1 hc.2 hvs hm i.val ho1 ho2 ho3
          exact .map _ _ _ _ _ _ _ h1 h2 h3
  | .mapEmpty i kc vc kd vd n k hk => fun _ _ hm => by
    generalize h0 : ([] : List (Key × Val)) = m at hm
    cases hm with
    | map _ _ _ _ _ _ _ hne _ => exact absurd h0.symm hne

theorem encOKL_back {L : Layout} {env : Env} (hg : Good L env) {c : Codec} {es ws : List Val} :
    BackL env c es ws → c.IsElem → (∀ e ∈ es, Fits L c.shape e) → (∀ e ∈ es, NoEmptyMaps env c e) →
      (∀ e ∈ es, EncOK env c e) → ∀ e ∈ ws, EncOK env c e
  | .nil c => fun _ _ _ h => h
  | .drop c e es ws h hs => fun hc hv hm ho =>
    encOKL_back hg hs hc (fun e he => hv e (by simp [he])) (fun e he => hm e (by simp [he])) (fun e he => ho e (by simp [he]))
  | .keep c e es w ws hw h hs => fun hc hv hm ho => by
    have h1 := encOKL_back hg hs hc (fun e he => hv e (by simp [he])) (fun e he => hm e (by simp [he]))
      (fun e he => ho e (by simp [he]))
    have h2 := encOK_back hg h (mapOK_of_elem hc) (hv e (by simp)) (hm e (by simp)) (ho e (by simp))
    intro x hx
    rcases List.mem_cons.mp hx with rfl | hx
    · exact h2
    · exact h1 x hx

theorem encOKM_back {L : Layout} {env : Env} (hg : Good L env) {kc c : Codec} {m m' : List (Key × Val)} :
    BackM env c m m' → kc.shape.isKey → c.IsElem → (∀ e ∈ m, Fits L c.shape e.2) → (∀ e ∈ m, NoEmptyMaps env c e.2) →
      ∀ f : FTag, (∀ e ∈ m, codecSize (sizeM env) kc e.2 f = codecSize (sizeM env) c e.2 f) →
      (∀ e ∈ m, EncOK env kc e.1.toVal) → (∀ e ∈ m, EncOK env c e.2) →
      (∀ e ∈ m', codecSize (sizeM env) kc e.2 f = codecSize (sizeM env) c e.2 f) ∧
      (∀ e ∈ m', EncOK env kc e.1.toVal) ∧ ∀ e ∈ m', EncOK env c e.2
  | .nil c => fun _ _ _ _ _ h1 h2 h3 => ⟨h1, h2, h3⟩
  | .cons c k v w m m' h hs => fun hk hc hv hm f h1 h2 h3 => by
    obtain ⟨g1, g2, g3⟩ := encOKM_back hg hs hk hc (fun e he => hv e (by simp [he])) (fun e he => hm e (by simp [he])) f
      (fun e he => h1 e (by simp [he])) (fun e he => h2 e (by simp [he])) (fun e he => h3 e (by simp [he]))
    have h4 := encOK_back hg h (mapOK_of_elem hc) (hv (k, v) (by simp)) (hm (k, v) (by simp)) (h3 (k, v) (by simp))
    have h5 : codecSize (sizeM env) kc w f = codecSize (sizeM env) c w f := by
      rw [key_size_back hk h, (enc_back hg h (mapOK_of_elem hc) (hv (k, v) (by simp)) (hm (k, v) (by simp)) f).2]
      exact h1 (k, v) (by simp)
    refine ⟨fun e he => ?_, fun e he => ?_, fun e he => ?_⟩ <;> rcases List.mem_cons.mp he with rfl | he
    · exact h5
    · exact g1 e he
    · exact h2 (k, v) (by simp)
    · exact g2 e he
    · exact h4
    · exact g3 e he
end

/-! ### decoding a new message gives canonical values -/

/-- Values that decoding builds from zero values. -/
inductive Built (env : Env) : Codec → Val → Prop
  | normal (s v) : Built env (.normal s) v
  | required (s v) : Built env (.required s) v
  | option (s v) : Built env (.option s) v
  | bytes (v) : Built env .bytes v
  | ptrNil (z c) : Built env (.ptr z c) .nilp
  | ptr (z c v) : Built env c v → Built env (.ptr z c) (.ptr v)
  | msgNil (t) : Built env (.msg t) .nilp
  | msg (t vs zs) : (env t).zero = .struct zs →
      (∀ f ∈ (env t).fields, ∀ v, vs[f.offset]? = some v → Built env f.codec v) →
      (∀ i : Nat, (∀ f ∈ (env t).fields, f.offset ≠ i) → vs[i]? = zs[i]?) → Built env (.msg t) (.ptr (.struct vs))
  | slice (z c es sp) : (∀ e ∈ es, Written c e) → (∀ e ∈ es, Built env c e) → (∀ e ∈ sp, e = z) → (es = [] → sp = []) →
      Built env (.slice z c) (.slice (decide (es = [])) es sp)
  | map (i kc vc kd vd n) (m : List (Key × Val)) : (m ≠ [] → n = false) → (∀ e ∈ m, Built env vc e.2) →
      Built env (.map i kc vc kd vd) (.map n m)

theorem canon_of_built {env : Env} {c : Codec} {v : Val} (h : Built env c v) (hm : NoEmptyMaps env c v)
    (hp : NoZeroPtrs env c v) : Canon env c v := by
  induction h with
  | normal => exact .normal _ _
  | required => exact .required _ _
  | option => exact .option _ _
  | bytes => exact .bytes _
  | ptrNil => exact .ptrNil _ _
  | ptr _ _ _ _ ih =>
    cases hm with
    | ptr _ _ _ hm => cases hp with
      | ptr _ _ _ hw hp => exact .ptr _ _ _ hw (ih hm hp)
  | msgNil => exact .msgNil _
  | msg t vs zs hz _ hu ih =>
    cases hm with
    | msg _ _ hm => cases hp with
      | msg _ _ hp => exact .msg _ _ zs hz (fun f hf v hv => ih f hf v hv (hm f hf v hv) (hp f hf v hv)) hu
  | slice _ _ _ _ hw _ _ _ ih =>
    cases hm with
    | slice _ _ _ _ _ hm => cases hp with
      | slice _ _ _ _ _ hp => exact .slice _ _ _ _ hw fun e he => ih e he (hm e he) (hp e he)
  | map _ _ _ _ _ _ _ hn _ ih =>
    cases hm with
    | map _ _ _ _ _ _ _ hne hm => cases hp with
      | map _ _ _ _ _ _ _ hp =>
        rw [hn hne]
        exact .map _ _ _ _ _ _ hne fun e he => ih e he (hm e he) (hp e he)

theorem built_zero {env : Env} : ∀ c : Codec, Built env c c.shape.zero
  | .normal s => .normal _ _
  | .required s => .required _ _
  | .option s => .option _ _
  | .bytes => .bytes _
  | .ptr _ _ => .ptrNil _ _
  | .msg _ => .msgNil _
  | .slice _ _ => .slice _ _ [] [] (fun _ h => nomatch h) (fun _ h => nomatch h) (fun _ h => nomatch h) (fun _ => rfl)
  | .map .. => .map _ _ _ _ _ _ _ (by simp) (by simp)

theorem built_reader {env : Env} {c d : Codec} (h : SameReader c d) : ∀ {v}, Built env d v → Built env c v := by
  induction h with
  | refl => exact id
  | normal => intro v _; exact .required _ _
  | ptr _ _ _ _ ih =>
    intro v hv
    cases hv with
    | ptrNil => exact .ptrNil _ _
    | ptr _ _ _ hv => exact .ptr _ _ _ (ih hv)

/-- A successful run keeps what every field's decode function keeps. -/
theorem run_keeps {idx : Nat → Option DField} (P : Nat → Val → Prop) (n : Nat)
    (hi : ∀ k f, idx k = some f → ∀ b v v' m, b.length < n → P f.offset v → f.dec b v = .ok (.ok v' m) → P f.offset v') :
    ∀ b vs vs', b.length ≤ n → (∀ (i : Nat) v, vs[i]? = some v → P i v) → run idx b vs = .ok (vs', none) →
      (∀ (i : Nat) v, vs'[i]? = some v → P i v) ∧ (∀ i : Nat, (∀ k f, idx k = some f → f.offset ≠ i) → vs'[i]? = vs[i]?) := by
  intro b
  induction hb : b.length using Nat.strongRecOn generalizing b with
  | ind k ih =>
    intro vs vs' hn hv h
    by_cases h0 : b = []
    · subst h0; rw [run_nil] at h; cases h; exact ⟨hv, fun _ _ => rfl⟩
    · rw [run_cons _ _ _ h0] at h
      cases hst : stepS idx b vs with
      | error e => simp [hst] at h
      | ok st =>
        cases st with
        | fail vs1 e => simp [hst] at h
        | next rest vs1 =>
          simp only [hst] at h
          have hlt := stepS_lt hst
          have hkey : (∀ (i : Nat) v, vs1[i]? = some v → P i v) ∧
              (∀ i : Nat, (∀ k f, idx k = some f → f.offset ≠ i) → vs1[i]? = vs[i]?) := by
            unfold stepS at hst
            rcases hd : decodeTag b with ⟨num, wt, m, e'⟩
            have hp := decodeTag_le hd
            cases e' with
            | some e' => simp [hd] at hst
            | none =>
              have hpos := decodeTag_pos hd
              simp only [hd] at hst
              cases hidx : idx num with
              | none =>
                simp only [hidx] at hst
                split at hst
                · simp at hst
                · simp at hst; obtain ⟨_, rfl⟩ := hst; exact ⟨hv, fun _ _ => rfl⟩
              | some f =>
                simp only [hidx] at hst
                split at hst
                · simp at hst
                · split at hst
                  · simp at hst
                  · rename_i d r ht
                    have hdl := takePayload_len ht
                    simp at hdl
                    cases hs : vs[f.offset]? with
                    | none => simp [slotOf, hs] at hst
                    | some v =>
                      simp only [slotOf, hs] at hst
                      rcases hdec : f.dec d v with e | r
                      · simp [hdec] at hst
                      · cases r with
                        | err v' e => simp [hdec] at hst
                        | ok v' m' =>
                          simp [hdec] at hst
                          obtain ⟨_, rfl⟩ := hst
                          have h1 := hi _ _ hidx d v v' m' (by omega) (hv _ _ hs) hdec
                          refine ⟨fun i x hx => ?_, fun i hne => ?_⟩
                          · by_cases hio : f.offset = i
                            · subst hio
                              rw [List.getElem?_set] at hx
                              simp at hx
                              rw [← hx.2]; exact h1
                            · rw [List.getElem?_set_ne hio] at hx
                              exact hv i x hx
                          · rw [List.getElem?_set_ne (hne _ _ hidx)]
          obtain ⟨h1, h2⟩ := ih rest.length (by omega) rest rfl vs1 vs' (by omega) hkey.1 h
          exact ⟨h1, fun i hne => by rw [h2 i hne, hkey.2 i hne]⟩

/-- Supported codecs, with plain elements in repeated fields. -/
def BuildOK : Codec → Prop
  | .slice z c => z = c.shape.zero ∧ c.Plain ∧ c.WF
  | .map i _ vc _ vd => vd.shape = vc.shape ∧ i.vzero = vc.shape.zero ∧ SameReader vc vd ∧ vd.WF ∧ vd.IsElem
  | c => c.WF ∧ c.IsElem

theorem plain_elem : ∀ {c : Codec}, c.Plain → c.IsElem
  | .required _, _ | .bytes, _ | .msg _, _ => trivial
  | .ptr _ c, h => plain_elem (c := c) h

theorem sameReader_elem {c d : Codec} (h : SameReader c d) (hc : c.IsElem) : d.IsElem := by
  induction h with
  | refl => exact hc
  | normal => trivial
  | ptr _ _ _ _ ih => exact ih hc

theorem buildOK_field {L : Layout} {env : Env} (hg : Good L env) (hp : PlainLists env) {t : TypeId} {f : Field}
    (hf : f ∈ (env t).fields) : BuildOK f.codec := by
  have h1 := hg.supported t f hf
  have h2 := hg.wf.codec t f hf
  have h3 := hp t f hf
  revert h1 h2 h3
  generalize f.codec = c
  cases c with
  | slice z c => intro h1 h2 h3; exact ⟨h2.1, h3 z c rfl, h2.2⟩
  | map i kc vc kd vd =>
    intro h1 h2 _
    obtain ⟨_, _, _, _, _, hv, _, hr⟩ := h1
    obtain ⟨_, _, a, _, b, _, _, _, d⟩ := h2
    exact ⟨a, b, hr, d, sameReader_elem hr hv⟩
  | _ => intro h1 h2 _; exact ⟨h2, h1⟩

/-- Single values. -/
theorem elem_builds {env : Env} (zeros : TypeId → Val) (rec : TypeId → Bytes → Val → Except Fault DRes)
    (hz : ∀ t, Built env (.msg t) (.ptr (zeros t))) (n : Nat)
    (hrec : ∀ t b v v' m, b.length + 1 < n → Built env (.msg t) (.ptr v) → rec t b v = .ok (.ok v' m) →
      Built env (.msg t) (.ptr v')) :
    ∀ c : Codec, c.WF → c.IsElem → ∀ b v v' m, b.length < n → Built env c v → codecDecode zeros rec c b v = .ok (.ok v' m) →
      Built env c v' ∧ (c.Plain → Written c v') := by
  intro c
  induction c with
  | normal s => intros; exact ⟨.normal _ _, fun h => h.elim⟩
  | required s => intros; exact ⟨.required _ _, fun _ => trivial⟩
  | option s => intros; exact ⟨.option _ _, fun h => h.elim⟩
  | bytes =>
    intro _ _ b v v' m _ _ h
    refine ⟨.bytes _, fun _ => ?_⟩
    simp only [codecDecode, decodeBytes, decodeVarlen_eq, bind, Except.bind, pure, Except.pure] at h
    cases v with
    | bytes o =>
      simp only at h
      rcases hd : decodeVarint b with ⟨l, k, e⟩
      simp only [hd] at h
      cases e with
      | some e => simp [DRes.mk] at h
      | none =>
        simp only at h
        split at h
        · simp [DRes.mk] at h
        · simp [DRes.mk] at h; rw [← h.1]; simp [Written]
    | _ => simp at h
  | ptr z c ih =>
    intro hwf hc b v v' m hl hv h
    obtain ⟨rfl, hwf⟩ := hwf
    cases hv with
    | ptrNil =>
      simp only [codecDecode, bind, Except.bind, pure, Except.pure] at h
      rcases hd : codecDecode zeros rec c b c.shape.zero with e | r
      · simp [hd] at h
      · cases r with
        | err w e => simp [hd, DRes.wrap] at h
        | ok w k =>
          simp [hd, DRes.wrap] at h
          obtain ⟨h1, h2⟩ := ih hwf hc b _ w k hl (built_zero c) hd
          rw [← h.1]
          exact ⟨.ptr _ _ _ h1, h2⟩
    | ptr _ _ v hv =>
      simp only [codecDecode, bind, Except.bind, pure, Except.pure] at h
      rcases hd : codecDecode zeros rec c b v with e | r
      · simp [hd] at h
      · cases r with
        | err w e => simp [hd, DRes.wrap] at h
        | ok w k =>
          simp [hd, DRes.wrap] at h
          obtain ⟨h1, h2⟩ := ih hwf hc b _ w k hl hv hd
          rw [← h.1]
          exact ⟨.ptr _ _ _ h1, h2⟩
  | msg t =>
    intro _ _ b v v' m hl hv h
    rw [codecDecode_msg] at h
    have ht : ∃ w, msgTarget (zeros t) v = .ok w ∧ Built env (.msg t) (.ptr w) := by
      cases hv with
      | msgNil => exact ⟨_, rfl, hz t⟩
      | msg _ vs zs h1 h2 h3 => exact ⟨_, rfl, .msg _ _ zs h1 h2 h3⟩
    obtain ⟨w, hw, hb⟩ := ht
    rw [hw] at h
    rcases hd : decodeVarint b with ⟨l, k, e⟩
    have hle := decodeVarint_le hd
    simp only [hd] at h
    cases e with
    | some e => simp at h
    | none =>
      have hp := decodeVarint_pos hd
      simp only at h
      rcases hr : rec t (b.drop k) w with e | r
      · simp [hr] at h
      · cases r with
        | err w e => simp [hr] at h
        | ok w' k' =>
          simp [hr] at h
          rw [← h.1]
          exact ⟨hrec t _ w w' k' (by simp; omega) hb hr, fun _ => trivial⟩
  | slice => intro _ hc; exact hc.elim
  | map => intro _ hc; exact hc.elim

/-- Any field. -/
theorem field_builds {env : Env} (zeros : TypeId → Val) (rec : TypeId → Bytes → Val → Except Fault DRes)
    (hz : ∀ t, Built env (.msg t) (.ptr (zeros t))) (hbd : ∀ t, Bounded (rec t)) (n : Nat)
    (hrec : ∀ t b v v' m, b.length + 1 < n → Built env (.msg t) (.ptr v) → rec t b v = .ok (.ok v' m) →
      Built env (.msg t) (.ptr v')) (c : Codec) (hc : BuildOK c) (b : Bytes) (v v' : Val) (m : Nat) (hl : b.length < n)
    (hv : Built env c v) (h : codecDecode zeros rec c b v = .ok (.ok v' m)) : Built env c v' := by
  have he := elem_builds zeros rec hz n hrec
  cases c with
  | slice z c =>
    obtain ⟨rfl, hp, hwf⟩ := hc
    cases hv with
    | slice _ _ es sp hw hb hs h0 =>
      have hg : ∃ k, growIfFull c.shape.zero es sp = List.replicate (k + 1) c.shape.zero := by
        rcases growIfFull_cases c.shape.zero es sp with ⟨_, k, hk⟩ | ⟨x, xs, h1, h2⟩
        · exact ⟨k, by rw [hk, List.replicate_succ]⟩
        · refine ⟨xs.length, ?_⟩
          rw [h2, ← h1, List.eq_replicate_iff]
          exact ⟨by rw [h1]; rfl, hs⟩
      obtain ⟨k, hg⟩ := hg
      rw [List.replicate_succ] at hg
      simp only [codecDecode, hg, bind, Except.bind, pure, Except.pure] at h
      rcases hd : codecDecode zeros rec c b c.shape.zero with e | r
      · simp [hd] at h
      · cases r with
        | err w e => simp [hd] at h
        | ok w k' =>
          simp only [hd, Except.ok.injEq, DRes.ok.injEq] at h
          obtain ⟨h1, h2⟩ := he c hwf (plain_elem hp) b _ w k' hl (built_zero c) hd
          rw [← h.1]
          have hn : (if sp = [] then false else decide (es = [])) = decide (es ++ [w] = []) := by
            by_cases h1 : es = []
            · simp [h0 h1]
            · simp [h1]
          rw [hn]
          refine .slice _ _ _ _ (fun e he => ?_) (fun e he => ?_) (fun e he => (List.mem_replicate.mp he).2) (by simp) <;>
            rcases List.mem_append.mp he with he | he
          · exact hw e he
          · simp at he; rw [he]; exact h2 hp
          · exact hb e he
          · simp at he; rw [he]; exact h1
  | map i kc vc kd vd =>
    obtain ⟨hsh, hvz, hr, hwf, hel⟩ := hc
    cases hv with
    | map _ _ _ _ _ n' mm hn hb =>
      rw [codecDecode_map _ _ _ _ _ _ _ (bounded_codec _ _ hbd _) (bounded_codec _ _ hbd _)] at h
      split at h
      · simp at h; rw [← h.1]; exact .map _ _ _ _ _ _ _ (fun _ => rfl) hb
      · rcases hd : decodeVarint b with ⟨l, k, e⟩
        have hle := decodeVarint_le hd
        simp only [hd] at h
        cases e with
        | some e => simp at h
        | none =>
          have hp := decodeVarint_pos hd
          simp only at h
          rcases hrun : run (entryIdx zeros rec i kd vd) (b.drop k) [i.kzero, i.vzero] with e | ⟨vs', _ | e⟩
          · simp [hrun] at h
          · simp only [hrun] at h
            have hk := run_keeps (fun j x => j = 1 → Built env vd x) n (by
              intro j f hf b v v' m hl hP hdec hoff
              unfold entryIdx at hf
              split at hf
              · simp at hf; subst hf
                exact (he vd hwf hel b v v' m hl (hP hoff) hdec).1
              · split at hf
                · simp at hf; subst hf; simp at hoff
                · simp at hf) (b.drop k) [i.kzero, i.vzero] vs' (by simp; omega) (by
              intro j x hx hj; subst hj
              simp at hx; rw [← hx, hvz, ← hsh]; exact built_zero vd) hrun
            match vs' with
            | [a, x] =>
              simp only at h
              cases hkey : a.toKey? with
              | none => simp [hkey] at h
              | some key =>
                simp [hkey] at h
                rw [← h.1]
                refine .map _ _ _ _ _ _ _ (fun _ => rfl) fun e he => ?_
                rcases mapAssign_mem he with he | he
                · exact hb e he
                · rw [he]; exact built_reader hr (hk.1 1 x rfl rfl)
            | [] => simp at h
            | [_] => simp at h
            | _ :: _ :: _ :: _ => simp at h
          · simp [hrun] at h
  | _ => exact (he _ hc.1 hc.2 b v v' m hl hv h).1

theorem built_msg_zero {L : Layout} {env : Env} (hg : Good L env) (t : TypeId) : Built env (.msg t) (.ptr (zerosOf env t)) := by
  unfold zerosOf
  rw [hg.wf.zero]
  refine .msg _ _ _ (hg.wf.zero t) (fun f hf v hv => ?_) fun _ _ => rfl
  rw [List.getElem?_map, hg.wf.slot t f hf] at hv
  simp at hv; rw [← hv]; exact built_zero _

theorem distinct_eq {L : Layout} {env : Env} (hg : Good L env) (t : TypeId) {f g : Field} (hf : f ∈ (env t).fields)
    (hgm : g ∈ (env t).fields) (h : f.offset = g.offset) : f = g := by
  have := hg.distinct t
  revert this hf hgm
  generalize (env t).fields = fs
  induction fs with
  | nil => intro hf; exact absurd hf (by simp)
  | cons x xs ih =>
    intro hf hgm hp
    rw [List.pairwise_cons] at hp
    rcases List.mem_cons.mp hf with rfl | hf' <;> rcases List.mem_cons.mp hgm with rfl | hg'
    · rfl
    · exact absurd h (hp.1 g hg').1
    · exact absurd h.symm (hp.1 f hf').1
    · exact ih hf' hg' hp.2

/-- The values of the fields of a message under construction. -/
def BuiltAt (env : Env) (t : TypeId) (i : Nat) (v : Val) : Prop := ∀ f ∈ (env t).fields, f.offset = i → Built env f.codec v

theorem runM_builds {L : Layout} {env : Env} (hg : Good L env) (hp : PlainLists env) (t : TypeId) (n : Nat)
    (hrec : ∀ t b v v' m, b.length + 1 < n → Built env (.msg t) (.ptr v) → decM env t b v = .ok (.ok v' m) →
      Built env (.msg t) (.ptr v')) (b : Bytes) (vs vs' : List Val) (hl : b.length ≤ n)
    (hv : Built env (.msg t) (.ptr (.struct vs))) (h : run (idxM env t) b vs = .ok (vs', none)) :
    Built env (.msg t) (.ptr (.struct vs')) := by
  cases hv with
  | msg _ _ zs hz hf hu =>
    obtain ⟨h1, h2⟩ := run_keeps (BuiltAt env t) n (by
      intro k g hk b v v' m hl hP hdec f hf' hoff
      unfold idxM at hk
      simp at hk
      obtain ⟨g', hg', rfl⟩ := hk
      have hm := (lookup_mem hg').1
      have : f = g' := distinct_eq hg t hf' hm hoff
      subst this
      exact field_builds _ _ (built_msg_zero hg) (bounded_decM env) n hrec f.codec (buildOK_field hg hp hm) b v v' m hl
        (hP f hm rfl) hdec) b vs vs' hl (fun i v hv f hf' hoff => by subst hoff; exact hf f hf' v hv) h
    refine .msg _ _ zs hz (fun f hf v hv => h1 _ v hv f hf rfl) fun i hi => ?_
    rw [h2 i, hu i hi]
    intro k g hk
    unfold idxM at hk
    simp at hk
    obtain ⟨g', hg', rfl⟩ := hk
    exact hi g' (lookup_mem hg').1

theorem decM_builds {L : Layout} {env : Env} (hg : Good L env) (hp : PlainLists env) :
    ∀ b t v v' m, Built env (.msg t) (.ptr v) → decM env t b v = .ok (.ok v' m) → Built env (.msg t) (.ptr v') := by
  intro b
  induction hb : b.length using Nat.strongRecOn generalizing b with
  | ind k ih =>
    intro t v v' m hv h
    cases v with
    | struct vs =>
      rw [decM_eq] at h
      rcases hr : run (idxM env t) b vs with e | ⟨vs', _ | e⟩
      · simp [hr, toDRes] at h
      · simp [hr, toDRes] at h
        rw [← h.1]
        exact runM_builds hg hp t k (fun t b v v' m hlt => ih b.length (by omega) b rfl t v v' m) b vs vs' (by omega) hv hr
      · simp [hr, toDRes] at h
    | _ => cases hv

/-- Everything Unmarshal makes of a new message is built. -/
theorem unmarshal_builds {L : Layout} {env : Env} (hg : Good L env) (hp : PlainLists env) {t : TypeId} {b : Bytes} {v : Val}
    (h : unmarshal env b (.msg t (env t).zero) = .ok ⟨.msg t v, none⟩) : Built env (.msg t) (.ptr v) := by
  have hz := built_msg_zero hg t
  simp only [zerosOf] at hz
  rw [hg.wf.zero] at h hz
  rw [unmarshal_eq] at h
  rcases hr : run (idxM env t) b ((L t).map Shape.zero) with e | ⟨vs', _ | e⟩ <;> simp [hr] at h
  rw [← h]
  exact runM_builds hg hp t b.length (fun t b v v' m _ => decM_builds hg hp b t v v' m) b _ _ (Nat.le_refl _) hz hr

end Pb
