import Verif.Model.Order
import Verif.Spec.Order
import Verif.Proofs.Size
/-
Size and encode under arbitrary map iteration orders.
-/
namespace Pb
open Spec

/-! ### Reorder -/

theorem reorderL_refl (vs : List Val) : ReorderL vs vs := by
  induction vs with
  | nil => exact .nil
  | cons v vs ih => exact .cons (.refl v) ih

theorem reorderM_refl (m : List (Key × Val)) : ReorderM m m := by
  induction m with
  | nil => exact .nil
  | cons e m ih => exact .cons (.refl e.2) ih

theorem reorder_ptr {v w : Val} (h : Reorder (.ptr v) w) : ∃ w', w = .ptr w' ∧ Reorder v w' := by
  cases h with
  | refl => exact ⟨v, rfl, .refl v⟩
  | ptr h => exact ⟨_, rfl, h⟩

theorem reorder_struct {vs : List Val} {w : Val} (h : Reorder (.struct vs) w) : ∃ ws, w = .struct ws ∧ ReorderL vs ws := by
  cases h with
  | refl => exact ⟨vs, rfl, reorderL_refl vs⟩
  | struct h => exact ⟨_, rfl, h⟩

theorem reorder_slice {n : Bool} {es sp : List Val} {w : Val} (h : Reorder (.slice n es sp) w) :
    ∃ es', w = .slice n es' sp ∧ ReorderL es es' := by
  cases h with
  | refl => exact ⟨es, rfl, reorderL_refl es⟩
  | slice h => exact ⟨_, rfl, h⟩

theorem reorder_map {n : Bool} {m : List (Key × Val)} {w : Val} (h : Reorder (.map n m) w) :
    ∃ m' m'', w = .map n m'' ∧ m.Perm m' ∧ ReorderM m' m'' := by
  cases h with
  | refl => exact ⟨m, m, rfl, .refl m, reorderM_refl m⟩
  | map hp hm => exact ⟨_, _, rfl, hp, hm⟩

/-- The shapes the scalar functions do not accept. -/
def Val.composite : Val → Prop
  | .ptr _ | .struct _ | .slice .. | .map .. => True
  | _ => False

theorem reorder_leaf {v w : Val} (h : Reorder v w) : v = w ∨ (v.composite ∧ w.composite) := by
  cases h <;> simp [Val.composite]

theorem reorderL_length {vs ws : List Val} (h : ReorderL vs ws) : ws.length = vs.length := by
  induction vs generalizing ws with
  | nil => cases h; rfl
  | cons v vs ih => cases h with | cons _ h => simp [ih h]

theorem reorderL_get {vs ws : List Val} (h : ReorderL vs ws) {i : Nat} {v : Val} (hv : vs[i]? = some v) :
    ∃ w, ws[i]? = some w ∧ Reorder v w := by
  induction vs generalizing ws i with
  | nil => simp at hv
  | cons x vs ih =>
    cases h with
    | cons hx h =>
      cases i with
      | zero => simp at hv; subst hv; exact ⟨_, rfl, hx⟩
      | succ i => simp at hv ⊢; exact ih h hv

theorem reorderL_set {vs ws : List Val} (h : ReorderL vs ws) {i : Nat} {v w : Val} (hv : vs[i]? = some v) (hw : Reorder v w) :
    ReorderL vs (ws.set i w) := by
  induction vs generalizing ws i with
  | nil => simp at hv
  | cons x vs ih =>
    cases h with
    | cons hx h =>
      cases i with
      | zero => simp at hv; subst hv; exact .cons hw h
      | succ i => simp at hv ⊢; exact .cons hx (ih h hv)

theorem depthM_perm {m m' : List (Key × Val)} (h : m.Perm m') : Val.depthM m = Val.depthM m' := by
  induction h with
  | nil => rfl
  | cons x _ ih => obtain ⟨k, v⟩ := x; simp [Val.depthM, ih]
  | swap x y l => obtain ⟨k, v⟩ := x; obtain ⟨k', v'⟩ := y; simp [Val.depthM]; omega
  | trans _ _ h1 h2 => exact h1.trans h2

mutual
theorem reorder_depth {v w : Val} (h : Reorder v w) : w.depth = v.depth := by
  cases h with
  | refl => rfl
  | ptr h => simp [Val.depth, reorder_depth h]
  | struct h => simp [Val.depth, reorderL_depth h]
  | slice h => simp [Val.depth, reorderL_depth h]
  | map hp h => simp [Val.depth, reorderM_depth h, depthM_perm hp]
theorem reorderL_depth {vs ws : List Val} (h : ReorderL vs ws) : Val.depthL ws = Val.depthL vs := by
  cases h with
  | nil => rfl
  | cons h hs => simp [Val.depthL, reorder_depth h, reorderL_depth hs]
theorem reorderM_depth {m m' : List (Key × Val)} (h : ReorderM m m') : Val.depthM m' = Val.depthM m := by
  cases h with
  | nil => rfl
  | cons h hs => simp [Val.depthM, reorder_depth h, reorderM_depth hs]
end

/-! ### leaf functions -/

theorem sizeNormal_reorder (s : Scalar) {v w : Val} (f : FTag) (h : Reorder v w) : sizeNormal s w f = sizeNormal s v f := by
  rcases reorder_leaf h with rfl | ⟨h1, h2⟩
  · rfl
  · cases v <;> simp only [Val.composite] at h1 <;> cases w <;> simp only [Val.composite] at h2 <;> cases s <;> rfl

theorem sizeRequired_reorder (s : Scalar) {v w : Val} (f : FTag) (h : Reorder v w) :
    sizeRequired s w f = sizeRequired s v f := by
  rcases reorder_leaf h with rfl | ⟨h1, h2⟩
  · rfl
  · cases v <;> simp only [Val.composite] at h1 <;> cases w <;> simp only [Val.composite] at h2 <;> cases s <;> rfl

theorem sizeOption_reorder (s : Scalar) {v w : Val} (f : FTag) (h : Reorder v w) : sizeOption s w f = sizeOption s v f := by
  rcases reorder_leaf h with rfl | ⟨h1, h2⟩
  · rfl
  · cases v <;> simp only [Val.composite] at h1 <;> cases w <;> simp only [Val.composite] at h2 <;> cases s <;> rfl

theorem sizeOfBytes_reorder {v w : Val} (f : FTag) (h : Reorder v w) : sizeOfBytes w f = sizeOfBytes v f := by
  rcases reorder_leaf h with rfl | ⟨h1, h2⟩
  · rfl
  · cases v <;> simp only [Val.composite] at h1 <;> cases w <;> simp only [Val.composite] at h2 <;> rfl

theorem encodeNormal_reorder (s : Scalar) (b : Bytes) {v w : Val} (f : FTag) (h : Reorder v w) :
    encodeNormal s b w f = encodeNormal s b v f := by
  rcases reorder_leaf h with rfl | ⟨h1, h2⟩
  · rfl
  · cases v <;> simp only [Val.composite] at h1 <;> cases w <;> simp only [Val.composite] at h2 <;> cases s <;> rfl

theorem encodeRequired_reorder (s : Scalar) (b : Bytes) {v w : Val} (f : FTag) (h : Reorder v w) :
    encodeRequired s b w f = encodeRequired s b v f := by
  rcases reorder_leaf h with rfl | ⟨h1, h2⟩
  · rfl
  · cases v <;> simp only [Val.composite] at h1 <;> cases w <;> simp only [Val.composite] at h2 <;> cases s <;> rfl

theorem encodeOption_reorder (s : Scalar) (b : Bytes) {v w : Val} (f : FTag) (h : Reorder v w) :
    encodeOption s b w f = encodeOption s b v f := by
  rcases reorder_leaf h with rfl | ⟨h1, h2⟩
  · rfl
  · cases v <;> simp only [Val.composite] at h1 <;> cases w <;> simp only [Val.composite] at h2 <;> cases s <;> rfl

theorem encodeBytes_reorder (b : Bytes) {v w : Val} (f : FTag) (h : Reorder v w) : encodeBytes b w f = encodeBytes b v f := by
  rcases reorder_leaf h with rfl | ⟨h1, h2⟩
  · rfl
  · cases v <;> simp only [Val.composite] at h1 <;> cases w <;> simp only [Val.composite] at h2 <;> rfl

/-! ### size does not depend on the order -/

/-- Two computations have the same results when neither faults. -/
def SameOk {α} (x y : Except Fault α) : Prop := ∀ n, x = .ok n ↔ y = .ok n

theorem sameOk_of_eq {α} {x y : Except Fault α} (h : x = y) : SameOk x y := fun _ => by rw [h]

theorem SameOk.trans {α} {x y z : Except Fault α} (h : SameOk x y) (h' : SameOk y z) : SameOk x z :=
  fun n => (h n).trans (h' n)

theorem SameOk.symm {α} {x y : Except Fault α} (h : SameOk x y) : SameOk y x := fun n => (h n).symm

/-- Both fault, or both have the same result. -/
theorem SameOk.cases {α} {x y : Except Fault α} (h : SameOk x y) :
    (∃ e e', x = .error e ∧ y = .error e') ∨ ∃ n, x = .ok n ∧ y = .ok n := by
  cases x with
  | ok n => exact .inr ⟨n, rfl, (h n).mp rfl⟩
  | error e =>
    cases y with
    | error e' => exact .inl ⟨e, e', rfl, rfl⟩
    | ok n => exact absurd ((h n).mpr rfl) (by simp)

theorem sumAll_cons_same {α β} {g : α → Except Fault Nat} {g' : β → Except Fault Nat} {x : α} {y : β} {xs : List α}
    {ys : List β} (h1 : SameOk (g x) (g' y)) (h2 : SameOk (sumAll g xs) (sumAll g' ys)) :
    SameOk (sumAll g (x :: xs)) (sumAll g' (y :: ys)) := by
  intro n
  rcases h1.cases with ⟨e, e', h1, h1'⟩ | ⟨a, h1, h1'⟩ <;> rcases h2.cases with ⟨e2, e2', h2, h2'⟩ | ⟨c, h2, h2'⟩ <;>
    simp [sumAll, h1, h1', h2, h2']

theorem sumAll_perm {α} (g : α → Except Fault Nat) {xs ys : List α} (h : xs.Perm ys) : SameOk (sumAll g xs) (sumAll g ys) := by
  induction h with
  | nil => exact sameOk_of_eq rfl
  | cons x _ ih => exact sumAll_cons_same (sameOk_of_eq rfl) ih
  | swap x y l =>
    intro n
    simp only [sumAll]
    cases g x <;> cases g y <;> cases sumAll g l <;> simp <;> omega
  | trans _ _ h1 h2 => exact h1.trans h2

theorem entrySize_same {w : U64} {a a' b b' : Except Fault Nat} (h1 : SameOk a a') (h2 : SameOk b b') :
    SameOk (entrySize w a b) (entrySize w a' b') := by
  intro n
  rcases h1.cases with ⟨e, e', h1, h1'⟩ | ⟨a, h1, h1'⟩ <;> rcases h2.cases with ⟨e2, e2', h2, h2'⟩ | ⟨c, h2, h2'⟩ <;>
    simp [entrySize, h1, h1', h2, h2']

theorem wrapSize_same {w : U64} {a a' : Except Fault Nat} (h1 : SameOk a a') : SameOk (wrapSize w a) (wrapSize w a') := by
  intro n
  rcases h1.cases with ⟨e, e', h1, h1'⟩ | ⟨a, h1, h1'⟩ <;> simp [wrapSize, h1, h1']

theorem sumAll_reorderL {g : Val → Except Fault Nat} (hg : ∀ v w, Reorder v w → SameOk (g v) (g w)) {vs ws : List Val}
    (h : ReorderL vs ws) : SameOk (sumAll g vs) (sumAll g ws) := by
  induction vs generalizing ws with
  | nil => cases h; exact sameOk_of_eq rfl
  | cons v vs ih => cases h with | cons h hs => exact sumAll_cons_same (hg _ _ h) (ih hs)

theorem sumAll_reorderM {g : Key × Val → Except Fault Nat} (hg : ∀ k v w, Reorder v w → SameOk (g (k, v)) (g (k, w)))
    {m m' : List (Key × Val)} (h : ReorderM m m') : SameOk (sumAll g m) (sumAll g m') := by
  induction m generalizing m' with
  | nil => cases h; exact sameOk_of_eq rfl
  | cons v vs ih => cases h with | cons h hs => exact sumAll_cons_same (hg _ _ _ h) (ih hs)

theorem codecSize_reorder {sz : TypeId → Val → Except Fault Nat} (hsz : ∀ t v w, Reorder v w → SameOk (sz t v) (sz t w)) :
    ∀ c v w f, Reorder v w → SameOk (codecSize sz c v f) (codecSize sz c w f) := by
  intro c
  induction c with
  | normal s => intro v w f h; exact sameOk_of_eq (sizeNormal_reorder s f h).symm
  | required s => intro v w f h; exact sameOk_of_eq (sizeRequired_reorder s f h).symm
  | option s => intro v w f h; exact sameOk_of_eq (sizeOption_reorder s f h).symm
  | bytes => intro v w f h; exact sameOk_of_eq (sizeOfBytes_reorder f h).symm
  | ptr z c ih =>
    intro v w f h
    cases h with
    | refl => exact sameOk_of_eq rfl
    | ptr h => exact ih _ _ f h
    | _ => exact sameOk_of_eq rfl
  | msg t =>
    intro v w f h
    cases h with
    | refl => exact sameOk_of_eq rfl
    | ptr h =>
      intro n
      simp only [codecSize, bind, Except.bind, pure, Except.pure]
      rcases (hsz t _ _ h).cases with ⟨e, e', h1, h1'⟩ | ⟨a, h1, h1'⟩ <;> simp [h1, h1']
    | _ => exact sameOk_of_eq rfl
  | slice z c ih =>
    intro v w f h
    cases h with
    | refl => exact sameOk_of_eq rfl
    | slice h =>
      simp only [codecSize, sumSizes_zero]
      exact sumAll_reorderL (fun v w h => ih v w f h) h
    | _ => exact sameOk_of_eq rfl
  | map i kc vc kd vd ihk ihv _ _ =>
    intro v w f h
    cases h with
    | refl => exact sameOk_of_eq rfl
    | map hp h =>
      rw [codecSize_map, codecSize_map]
      refine wrapSize_same ((sumAll_perm _ hp).trans (sumAll_reorderM (fun k v w h => ?_) h))
      exact entrySize_same (sameOk_of_eq rfl) (ihv _ _ _ h)
    | _ => exact sameOk_of_eq rfl

theorem slotOf_reorder {v w : Val} (h : Reorder v w) (i : Nat) :
    (∃ x y, slotOf v i = .ok x ∧ slotOf w i = .ok y ∧ Reorder x y) ∨
      (slotOf v i = .error .confused ∧ slotOf w i = .error .confused) := by
  have same : ∀ v, (∃ x y, slotOf v i = .ok x ∧ slotOf v i = .ok y ∧ Reorder x y) ∨
      (slotOf v i = .error .confused ∧ slotOf v i = .error .confused) := by
    intro v
    cases v with
    | struct vs =>
      simp only [slotOf]
      cases vs[i]? with
      | none => exact .inr ⟨rfl, rfl⟩
      | some x => exact .inl ⟨x, x, rfl, rfl, .refl x⟩
    | _ => exact .inr ⟨rfl, rfl⟩
  cases h with
  | refl => exact same _
  | @struct vs ws h =>
    cases hv : vs[i]? with
    | some x =>
      obtain ⟨y, hy, hr⟩ := reorderL_get h hv
      exact .inl ⟨x, y, by simp [slotOf, hv], by simp [slotOf, hy], hr⟩
    | none =>
      have : ws[i]? = none := by
        rw [List.getElem?_eq_none_iff] at hv ⊢; rw [reorderL_length h]; exact hv
      exact .inr ⟨by simp [slotOf, hv], by simp [slotOf, this]⟩
  | _ => exact .inr ⟨rfl, rfl⟩

theorem sizeMsg_reorder (env : Env) : ∀ d t v w, Reorder v w → SameOk (sizeMsg env d t v) (sizeMsg env d t w) := by
  intro d
  induction d with
  | zero => intro t v w _; exact sameOk_of_eq rfl
  | succ d ih =>
    intro t v w h
    simp only [sizeMsg, structSize, sumSizes_zero]
    induction (env t).fields with
    | nil => exact sameOk_of_eq rfl
    | cons f fs ihf =>
      refine sumAll_cons_same ?_ ihf
      rcases slotOf_reorder h f.offset with ⟨x, y, h1, h2, hr⟩ | ⟨h1, h2⟩ <;> rw [h1, h2]
      · exact codecSize_reorder ih _ _ _ _ hr
      · exact sameOk_of_eq rfl

/-! ### every outcome of Size is the size of some reordering -/

/-- Every outcome of `m` is that of `g` on a reordering. -/
def OrderSound {α} (v : Val) (m : ND α) (g : Val → Except Fault α) : Prop := ∀ r, m r → ∃ w, Reorder v w ∧ g w = r

theorem sound_lift {α} {v : Val} {g : Val → Except Fault α} : OrderSound v (ND.lift (g v)) g :=
  fun _ h => ⟨v, .refl v, h.symm⟩

theorem sumN_reorderL {gN : Val → ND Nat} {g : Val → Except Fault Nat} (hg : ∀ v, OrderSound v (gN v) g) (vs : List Val) :
    ∀ n r, sumSizesN gN n vs r → ∃ ws, ReorderL vs ws ∧ sumSizes g n ws = r := by
  induction vs with
  | nil => intro n r h; exact ⟨[], .nil, h.symm⟩
  | cons v vs ih =>
    intro n r h
    rcases h with ⟨e, h, rfl⟩ | ⟨a, h, h2⟩
    · obtain ⟨w, hr, he⟩ := hg v _ h
      exact ⟨w :: vs, .cons hr (reorderL_refl vs), by simp [sumSizes, he, bind, Except.bind]⟩
    · obtain ⟨w, hr, he⟩ := hg v _ h
      obtain ⟨ws, hrs, hes⟩ := ih _ _ h2
      exact ⟨w :: ws, .cons hr hrs, by simp [sumSizes, he, bind, Except.bind, hes]⟩

theorem sumN_reorderM {gN : Key × Val → ND Nat} {g : Key × Val → Except Fault Nat}
    (hg : ∀ k v, OrderSound v (gN (k, v)) (fun w => g (k, w))) (m : List (Key × Val)) :
    ∀ n r, sumSizesN gN n m r → ∃ m', ReorderM m m' ∧ sumSizes g n m' = r := by
  induction m with
  | nil => intro n r h; exact ⟨[], .nil, h.symm⟩
  | cons e vs ih =>
    obtain ⟨k, v⟩ := e
    intro n r h
    rcases h with ⟨e, h, rfl⟩ | ⟨a, h, h2⟩
    · obtain ⟨w, hr, he⟩ := hg k v _ h
      exact ⟨(k, w) :: vs, .cons hr (reorderM_refl vs), by simp [sumSizes, he, bind, Except.bind]⟩
    · obtain ⟨w, hr, he⟩ := hg k v _ h
      obtain ⟨ws, hrs, hes⟩ := ih _ _ h2
      exact ⟨(k, w) :: ws, .cons hr hrs, by simp [sumSizes, he, bind, Except.bind, hes]⟩

theorem reorder_key {k : Key} {w : Val} (h : Reorder k.toVal w) : w = k.toVal := by
  cases k <;> cases h <;> rfl

theorem codecSizeN_sound {szN : TypeId → Val → ND Nat} {sz : TypeId → Val → Except Fault Nat}
    (hsz : ∀ t v, OrderSound v (szN t v) (sz t)) :
    ∀ c v f, OrderSound v (codecSizeN szN c v f) (fun w => codecSize sz c w f) := by
  intro c
  induction c with
  | normal s => intro v f; exact sound_lift (g := fun w => sizeNormal s w f)
  | required s => intro v f; exact sound_lift (g := fun w => sizeRequired s w f)
  | option s => intro v f; exact sound_lift (g := fun w => sizeOption s w f)
  | bytes => intro v f; exact sound_lift (g := fun w => sizeOfBytes w f)
  | ptr z c ih =>
    intro v f r h
    cases v with
    | nilp => exact ⟨_, .refl _, h.symm⟩
    | ptr v => obtain ⟨w, hr, he⟩ := ih v f r h; exact ⟨_, .ptr hr, he⟩
    | _ => exact ⟨_, .refl _, h.symm⟩
  | msg t =>
    intro v f r h
    cases v with
    | nilp => exact ⟨_, .refl _, h.symm⟩
    | ptr v =>
      rcases h with ⟨e, h, rfl⟩ | ⟨a, h, h2⟩
      · obtain ⟨w, hr, he⟩ := hsz t v _ h
        exact ⟨_, .ptr hr, by simp [codecSize, he, bind, Except.bind]⟩
      · obtain ⟨w, hr, he⟩ := hsz t v _ h
        exact ⟨_, .ptr hr, by simp [codecSize, he, bind, Except.bind, pure, Except.pure]; exact h2.symm⟩
    | _ => exact ⟨_, .refl _, h.symm⟩
  | slice z c ih =>
    intro v f r h
    cases v with
    | slice n es sp =>
      obtain ⟨ws, hr, he⟩ := sumN_reorderL (fun v => ih v f) es 0 r h
      exact ⟨_, .slice hr, he⟩
    | _ => exact ⟨_, .refl _, h.symm⟩
  | map i kc vc kd vd ihk ihv _ _ =>
    intro v f r h
    cases v with
    | map n m =>
      rcases h with ⟨e, ⟨m', _, hm⟩, _⟩ | ⟨a, ⟨m', hp, hm⟩, h2⟩
      · simp at hm
      simp only [Except.ok.injEq] at hm; subst hm
      have key := sumN_reorderM (g := fun (e : Key × Val) => do
        let keySize ← codecSize sz kc e.1.toVal i.key
        let valSize ← codecSize sz vc e.2 i.val
        return sizeOfVarint i.wiretag + sizeOfVarint (BitVec.ofNat 64 (keySize + valSize)) + keySize + valSize)
        (gN := fun (e : Key × Val) => do
        let keySize ← codecSizeN szN kc e.1.toVal i.key
        let valSize ← codecSizeN szN vc e.2 i.val
        pure (sizeOfVarint i.wiretag + sizeOfVarint (BitVec.ofNat 64 (keySize + valSize)) + keySize + valSize))
        (fun k v r h => by
          rcases h with ⟨e, h, rfl⟩ | ⟨ks, h, h2⟩
          · obtain ⟨w, hr, he⟩ := ihk _ _ _ h
            rw [reorder_key hr] at he
            exact ⟨v, .refl v, by simp [he, bind, Except.bind]⟩
          · obtain ⟨w, hr, he⟩ := ihk _ _ _ h
            rw [reorder_key hr] at he
            rcases h2 with ⟨e, h, rfl⟩ | ⟨vs, h, h2⟩
            · obtain ⟨w, hr, he'⟩ := ihv _ _ _ h
              exact ⟨w, hr, by simp [he, he', bind, Except.bind]⟩
            · obtain ⟨w, hr, he'⟩ := ihv _ _ _ h
              exact ⟨w, hr, by simp [he, he', bind, Except.bind, pure, Except.pure]; exact h2.symm⟩)
        a 0
      rcases h2 with ⟨e, h, rfl⟩ | ⟨k, h, h2⟩
      · obtain ⟨m'', hr, he⟩ := key _ h
        refine ⟨_, .map hp hr, ?_⟩
        simp only [codecSize, bind, Except.bind] at he ⊢
        rw [he]
      · obtain ⟨m'', hr, he⟩ := key _ h
        refine ⟨_, .map hp hr, ?_⟩
        simp only [codecSize, bind, Except.bind] at he ⊢
        rw [he]
        simp only [pure, Except.pure]
        split <;> rename_i hk <;> simp only [hk, if_true, if_false] at h2 <;> exact h2.symm
    | _ => exact ⟨_, .refl _, h.symm⟩

theorem slots_sound {α : Type} {stepN : Field → Val → α → ND α} {step : Field → Val → α → Except Fault α}
    {loopN : List Field → Val → α → ND α} {loop : List Field → Val → α → Except Fault α}
    (hn : ∀ v a r, loopN [] v a r → r = .ok a) (hn' : ∀ v a, loop [] v a = .ok a)
    (hc : ∀ f fs v a r, loopN (f :: fs) v a r →
      (∃ e, slotOf v f.offset = .error e ∧ r = .error e) ∨
      (∃ x, slotOf v f.offset = .ok x ∧ ((∃ e, stepN f x a (.error e) ∧ r = .error e) ∨
        ∃ a', stepN f x a (.ok a') ∧ loopN fs v a' r)))
    (hc' : ∀ f fs v a, loop (f :: fs) v a = match slotOf v f.offset with
      | .error e => .error e
      | .ok x => match step f x a with
        | .error e => .error e
        | .ok a' => loop fs v a')
    (hs : ∀ f v a, OrderSound v (stepN f v a) (fun w => step f w a)) (fs : List Field)
    (hd : fs.Pairwise fun f g => f.offset ≠ g.offset) (vs : List Val) :
    ∀ a r, loopN fs (.struct vs) a r → ∃ ws, ReorderL vs ws ∧ loop fs (.struct ws) a = r ∧
      ∀ i, (∀ f ∈ fs, f.offset ≠ i) → ws[i]? = vs[i]? := by
  have locl : ∀ (fs : List Field) (ws : List Val) (i : Nat) (w : Val), (∀ f ∈ fs, f.offset ≠ i) → ∀ a,
      loop fs (.struct (ws.set i w)) a = loop fs (.struct ws) a := by
    intro fs ws i w hne
    induction fs with
    | nil => intro a; rw [hn', hn']
    | cons f fs ih =>
      intro a
      have h1 : slotOf (.struct (ws.set i w)) f.offset = slotOf (.struct ws) f.offset := by
        have := hne f (by simp)
        simp only [slotOf, List.getElem?_set]
        rw [if_neg (fun h => this h.symm)]
      rw [hc', hc', h1]
      cases slotOf (.struct ws) f.offset with
      | error e => rfl
      | ok x =>
        simp only
        cases step f x a with
        | error e => rfl
        | ok a' => exact ih (fun f hf => hne f (by simp [hf])) a'
  induction fs with
  | nil => intro a r h; exact ⟨vs, reorderL_refl vs, by rw [hn', hn _ _ _ h], fun i _ => rfl⟩
  | cons f fs ih =>
    intro a r h
    obtain ⟨hd1, hd2⟩ := List.pairwise_cons.mp hd
    rcases hc _ _ _ _ _ h with ⟨e, h1, rfl⟩ | ⟨x, h1, h2⟩
    · exact ⟨vs, reorderL_refl vs, by rw [hc', h1], fun i _ => rfl⟩
    have hx : vs[f.offset]? = some x := by
      simp only [slotOf] at h1
      split at h1
      · simp at h1; subst h1; assumption
      · simp at h1
    have hlt : f.offset < vs.length := by
      rcases Nat.lt_or_ge f.offset vs.length with h | h
      · exact h
      · rw [List.getElem?_eq_none h] at hx; simp at hx
    rcases h2 with ⟨e, h2, rfl⟩ | ⟨a', h2, h3⟩
    · obtain ⟨w, hr, he⟩ := hs _ _ _ _ h2
      refine ⟨vs.set f.offset w, reorderL_set (reorderL_refl vs) hx hr, ?_, ?_⟩
      · rw [hc']; simp [slotOf, hlt, he]
      · intro i hi
        rw [List.getElem?_set_ne (hi f (by simp))]
    · obtain ⟨w, hr, he⟩ := hs _ _ _ _ h2
      obtain ⟨ws, hrs, hl, heq⟩ := ih hd2 a' r h3
      have hlt' : f.offset < ws.length := by rw [reorderL_length hrs]; exact hlt
      refine ⟨ws.set f.offset w, reorderL_set hrs hx hr, ?_, ?_⟩
      · rw [hc']
        simp only [slotOf, List.getElem?_set, hlt', if_true, he]
        rw [locl fs ws f.offset w (fun g hg h => hd1 g hg h.symm)]
        exact hl
      · intro i hi
        rw [List.getElem?_set_ne (hi f (by simp))]
        exact heq i (fun g hg => hi g (by simp [hg]))

/-- Different fields of a struct are at different places. -/
def Apart (env : Env) : Prop := ∀ t, (env t).fields.Pairwise fun f g => f.offset ≠ g.offset

theorem sizeMsgN_sound {env : Env} (ha : Apart env) : ∀ d t v, OrderSound v (sizeMsgN env d t v) (sizeMsg env d t) := by
  intro d
  induction d with
  | zero => intro t v r h; exact ⟨v, .refl v, h.symm⟩
  | succ d ih =>
    intro t v r h
    cases v with
    | struct vs =>
      obtain ⟨ws, hr, he, _⟩ := slots_sound
        (stepN := fun f v a r => (∃ e, codecSizeN (sizeMsgN env d) f.codec v f.tag (.error e) ∧ r = .error e) ∨
          ∃ k, codecSizeN (sizeMsgN env d) f.codec v f.tag (.ok k) ∧ r = .ok (a + k))
        (step := fun f v a => match codecSize (sizeMsg env d) f.codec v f.tag with
          | .error e => .error e
          | .ok k => .ok (a + k))
        (loopN := fun fs v a => sumSizesN (fun (f : Field) => do
          let v ← ND.lift (slotOf v f.offset)
          codecSizeN (sizeMsgN env d) f.codec v f.tag) a fs)
        (loop := fun fs v a => sumSizes (fun (f : Field) => do
          let v ← slotOf v f.offset
          codecSize (sizeMsg env d) f.codec v f.tag) a fs)
        (fun v a r h => h) (fun v a => rfl)
        (by
          intro f fs v a r h
          rcases h with ⟨e, h, rfl⟩ | ⟨k, h, h2⟩
          · rcases h with ⟨e', h, h'⟩ | ⟨x, h, h'⟩
            · simp at h'; subst h'; exact .inl ⟨e, h.symm, rfl⟩
            · exact .inr ⟨x, h.symm, .inl ⟨e, .inl ⟨e, h', rfl⟩, rfl⟩⟩
          · rcases h with ⟨e', h, h'⟩ | ⟨x, h, h'⟩
            · simp at h'
            · exact .inr ⟨x, h.symm, .inr ⟨a + k, .inr ⟨k, h', rfl⟩, h2⟩⟩)
        (by
          intro f fs v a
          simp only [sumSizes, bind, Except.bind]
          cases slotOf v f.offset with
          | error e => rfl
          | ok x =>
            simp only
            cases codecSize (sizeMsg env d) f.codec x f.tag <;> rfl)
        (by
          intro f v a r h
          rcases h with ⟨e, h, rfl⟩ | ⟨k, h, rfl⟩
          · obtain ⟨w, hr, he⟩ := codecSizeN_sound ih _ _ _ _ h
            exact ⟨w, hr, by simp [he]⟩
          · obtain ⟨w, hr, he⟩ := codecSizeN_sound ih _ _ _ _ h
            exact ⟨w, hr, by simp [he]⟩)
        (env t).fields (ha t) vs 0 r h
      exact ⟨_, .struct hr, he⟩
    | _ =>
      refine ⟨_, .refl _, ?_⟩
      simp only [sizeMsg, structSize]
      simp only [sizeMsgN, structSizeN] at h
      cases hf : (env t).fields with
      | nil => rw [hf] at h; exact h.symm
      | cons f fs =>
        rw [hf] at h
        rcases h with ⟨e, h, rfl⟩ | ⟨k, h, h2⟩
        · rcases h with ⟨e', h, h'⟩ | ⟨x, h, h'⟩
          · simp at h'; subst h'; simp [slotOf, ND.lift] at h; subst h; rfl
          · simp [slotOf, ND.lift] at h
        · rcases h with ⟨e', h, h'⟩ | ⟨x, h, h'⟩
          · simp at h'
          · simp [slotOf, ND.lift] at h

/-! ### every outcome of Marshal is that of some reordering -/

theorem appendN_reorderL {gN : Bytes → Val → ND Bytes} {g : Bytes → Val → Except Fault Bytes}
    (hg : ∀ b v, OrderSound v (gN b v) (g b)) (vs : List Val) :
    ∀ b r, appendAllN gN b vs r → ∃ ws, ReorderL vs ws ∧ appendAll g b ws = r := by
  induction vs with
  | nil => intro n r h; exact ⟨[], .nil, h.symm⟩
  | cons v vs ih =>
    intro n r h
    rcases h with ⟨e, h, rfl⟩ | ⟨a, h, h2⟩
    · obtain ⟨w, hr, he⟩ := hg n v _ h
      exact ⟨w :: vs, .cons hr (reorderL_refl vs), by simp [appendAll, he, bind, Except.bind]⟩
    · obtain ⟨w, hr, he⟩ := hg n v _ h
      obtain ⟨ws, hrs, hes⟩ := ih _ _ h2
      exact ⟨w :: ws, .cons hr hrs, by simp [appendAll, he, bind, Except.bind, hes]⟩

theorem appendN_reorderM {gN : Bytes → Key × Val → ND Bytes} {g : Bytes → Key × Val → Except Fault Bytes}
    (hg : ∀ b k v, OrderSound v (gN b (k, v)) (fun w => g b (k, w))) (m : List (Key × Val)) :
    ∀ b r, appendAllN gN b m r → ∃ m', ReorderM m m' ∧ appendAll g b m' = r := by
  induction m with
  | nil => intro n r h; exact ⟨[], .nil, h.symm⟩
  | cons e vs ih =>
    obtain ⟨k, v⟩ := e
    intro n r h
    rcases h with ⟨e, h, rfl⟩ | ⟨a, h, h2⟩
    · obtain ⟨w, hr, he⟩ := hg n k v _ h
      exact ⟨(k, w) :: vs, .cons hr (reorderM_refl vs), by simp [appendAll, he, bind, Except.bind]⟩
    · obtain ⟨w, hr, he⟩ := hg n k v _ h
      obtain ⟨ws, hrs, hes⟩ := ih _ _ h2
      exact ⟨(k, w) :: ws, .cons hr hrs, by simp [appendAll, he, bind, Except.bind, hes]⟩

theorem codecEncodeN_sound {szN : TypeId → Val → ND Nat} {sz : TypeId → Val → Except Fault Nat}
    {recN : TypeId → Bytes → Val → ND Bytes} {rec : TypeId → Bytes → Val → Except Fault Bytes}
    (hsz : ∀ t v, OrderSound v (szN t v) (sz t)) (hso : ∀ t v w, Reorder v w → SameOk (sz t v) (sz t w))
    (hrec : ∀ t b v, OrderSound v (recN t b v) (rec t b)) :
    ∀ c b v f, OrderSound v (codecEncodeN szN recN c b v f) (fun w => codecEncode sz rec c b w f) := by
  intro c
  induction c with
  | normal s => intro b v f; exact sound_lift (g := fun w => encodeNormal s b w f)
  | required s => intro b v f; exact sound_lift (g := fun w => encodeRequired s b w f)
  | option s => intro b v f; exact sound_lift (g := fun w => encodeOption s b w f)
  | bytes => intro b v f; exact sound_lift (g := fun w => encodeBytes b w f)
  | ptr z c ih =>
    intro b v f r h
    cases v with
    | nilp => exact ⟨_, .refl _, h.symm⟩
    | ptr v => obtain ⟨w, hr, he⟩ := ih b v f r h; exact ⟨_, .ptr hr, he⟩
    | _ => exact ⟨_, .refl _, h.symm⟩
  | msg t =>
    intro b v f r h
    cases v with
    | nilp => exact ⟨_, .refl _, h.symm⟩
    | ptr v =>
      rcases h with ⟨e, h, rfl⟩ | ⟨a, h, h2⟩
      · obtain ⟨w, hr, he⟩ := hsz t v _ h
        exact ⟨_, .ptr hr, by simp [codecEncode, he, bind, Except.bind]⟩
      · obtain ⟨w, hr, he⟩ := hsz t v _ h
        obtain ⟨w', hr', he'⟩ := hrec t _ v _ h2
        have := (hso t _ _ hr' a).mp ((hso t _ _ hr a).mpr he)
        exact ⟨_, .ptr hr', by simp [codecEncode, this, bind, Except.bind, he']⟩
    | _ => exact ⟨_, .refl _, h.symm⟩
  | slice z c ih =>
    intro b v f r h
    cases v with
    | slice n es sp =>
      obtain ⟨ws, hr, he⟩ := appendN_reorderL (fun b v => ih b v f) es b r h
      exact ⟨_, .slice hr, he⟩
    | _ => exact ⟨_, .refl _, h.symm⟩
  | map i kc vc kd vd ihk ihv _ _ =>
    intro b v f r h
    cases v with
    | map n m =>
      rcases h with ⟨e, ⟨m', _, hm⟩, _⟩ | ⟨a, ⟨m', hp, hm⟩, h2⟩
      · simp at hm
      simp only [Except.ok.injEq] at hm; subst hm
      have key := appendN_reorderM (g := fun b (e : Key × Val) => do
        let keySize ← codecSize sz kc e.1.toVal i.key
        let valSize ← codecSize sz kc e.2 i.val
        let b ← codecEncode sz rec kc (appendVarint (b ++ appendVarint [] i.wiretag) (BitVec.ofNat 64 (keySize + valSize)))
          e.1.toVal i.key
        codecEncode sz rec vc b e.2 i.val)
        (gN := fun b (e : Key × Val) => do
        let keySize ← codecSizeN szN kc e.1.toVal i.key
        let valSize ← codecSizeN szN kc e.2 i.val
        let b ← codecEncodeN szN recN kc (appendVarint (b ++ appendVarint [] i.wiretag) (BitVec.ofNat 64 (keySize + valSize)))
          e.1.toVal i.key
        codecEncodeN szN recN vc b e.2 i.val)
        (fun b k v r h => by
          rcases h with ⟨e, h, rfl⟩ | ⟨ks, h, h2⟩ <;> obtain ⟨w, hr, he⟩ := codecSizeN_sound hsz _ _ _ _ h <;>
            rw [reorder_key hr] at he
          · exact ⟨v, .refl v, by simp [he, bind, Except.bind]⟩
          rcases h2 with ⟨e, h, rfl⟩ | ⟨vs, h, h2⟩ <;> obtain ⟨w, hr, he'⟩ := codecSizeN_sound hsz _ _ _ _ h
          · exact ⟨w, hr, by simp [he, he', bind, Except.bind]⟩
          have hsame := codecSize_reorder hso kc v w i.val hr vs
          rcases h2 with ⟨e, h, rfl⟩ | ⟨kb, h, h2⟩ <;> obtain ⟨w', hr', he''⟩ := ihk _ _ _ _ h <;>
            rw [reorder_key hr'] at he''
          · exact ⟨w, hr, by simp [he, he', he'', bind, Except.bind]⟩
          obtain ⟨w2, hr2, he2⟩ := ihv _ _ _ _ h2
          have := (codecSize_reorder hso kc v w2 i.val hr2 vs).mp (hsame.mpr he')
          exact ⟨w2, hr2, by simp [he, this, he'', bind, Except.bind, he2]⟩)
        a b
      rcases h2 with ⟨e, h, rfl⟩ | ⟨k, h, h2⟩
      · obtain ⟨m'', hr, he⟩ := key _ h
        refine ⟨_, .map hp hr, ?_⟩
        simp only [codecEncode, bind, Except.bind] at he ⊢
        rw [he]
      · obtain ⟨m'', hr, he⟩ := key _ h
        refine ⟨_, .map hp hr, ?_⟩
        simp only [codecEncode, bind, Except.bind] at he ⊢
        rw [he]
        simp only [pure, Except.pure]
        split <;> rename_i hk <;> simp only [hk, if_true, if_false] at h2 <;> exact h2.symm
    | _ => exact ⟨_, .refl _, h.symm⟩

theorem encodeMsgN_sound {env : Env} (ha : Apart env) :
    ∀ d t b v, OrderSound v (encodeMsgN env d t b v) (encodeMsg env d t b) := by
  intro d
  induction d with
  | zero => intro t b v r h; exact ⟨v, .refl v, h.symm⟩
  | succ d ih =>
    intro t b v r h
    have hcod := codecEncodeN_sound (sizeMsgN_sound ha d) (sizeMsg_reorder env d) ih
    cases v with
    | struct vs =>
      obtain ⟨ws, hr, he, _⟩ := slots_sound
        (stepN := fun f v b => codecEncodeN (sizeMsgN env d) (encodeMsgN env d) f.codec b v f.tag)
        (step := fun f v b => codecEncode (sizeMsg env d) (encodeMsg env d) f.codec b v f.tag)
        (loopN := fun fs v b => appendAllN (fun b (f : Field) => do
          let v ← ND.lift (slotOf v f.offset)
          codecEncodeN (sizeMsgN env d) (encodeMsgN env d) f.codec b v f.tag) b fs)
        (loop := fun fs v b => appendAll (fun b (f : Field) => do
          let v ← slotOf v f.offset
          codecEncode (sizeMsg env d) (encodeMsg env d) f.codec b v f.tag) b fs)
        (fun v a r h => h) (fun v a => rfl)
        (by
          intro f fs v a r h
          rcases h with ⟨e, h, rfl⟩ | ⟨k, h, h2⟩
          · rcases h with ⟨e', h, h'⟩ | ⟨x, h, h'⟩
            · simp at h'; subst h'; exact .inl ⟨e, h.symm, rfl⟩
            · exact .inr ⟨x, h.symm, .inl ⟨e, h', rfl⟩⟩
          · rcases h with ⟨e', h, h'⟩ | ⟨x, h, h'⟩
            · simp at h'
            · exact .inr ⟨x, h.symm, .inr ⟨k, h', h2⟩⟩)
        (by
          intro f fs v a
          simp only [appendAll, bind, Except.bind]
          cases slotOf v f.offset with
          | error e => rfl
          | ok x =>
            simp only
            cases codecEncode (sizeMsg env d) (encodeMsg env d) f.codec a x f.tag <;> rfl)
        (fun f v a => hcod _ _ _ _)
        (env t).fields (ha t) vs b r h
      exact ⟨_, .struct hr, he⟩
    | _ =>
      refine ⟨_, .refl _, ?_⟩
      simp only [encodeMsg, structEncode]
      simp only [encodeMsgN, structEncodeN] at h
      cases hf : (env t).fields with
      | nil => rw [hf] at h; exact h.symm
      | cons f fs =>
        rw [hf] at h
        rcases h with ⟨e, h, rfl⟩ | ⟨k, h, h2⟩
        · rcases h with ⟨e', h, h'⟩ | ⟨x, h, h'⟩
          · simp at h'; subst h'; simp [slotOf, ND.lift] at h; subst h; rfl
          · simp [slotOf, ND.lift] at h
        · rcases h with ⟨e', h, h'⟩ | ⟨x, h, h'⟩
          · simp at h'
          · simp [slotOf, ND.lift] at h

/-! ### every reordering is possible -/

theorem bindN {α β : Type} {m : ND α} {f : α → ND β} {x : Except Fault α} {g : α → Except Fault β} (h : m x)
    (h' : ∀ a, x = .ok a → f a (g a)) : (m >>= f) (x >>= g) := by
  cases x with
  | error e => exact .inl ⟨e, h, rfl⟩
  | ok a => exact .inr ⟨a, h, h' a rfl⟩

/-- The outcome of `g` on any reordering is an outcome of `m`. -/
def Complete {α} (v : Val) (m : ND α) (g : Val → Except Fault α) : Prop := ∀ w, Reorder v w → m (g w)

theorem sumN_completeL {gN : Val → ND Nat} {g : Val → Except Fault Nat} (h : ∀ v, Complete v (gN v) g) {vs ws : List Val}
    (hr : ReorderL vs ws) : ∀ n, sumSizesN gN n vs (sumSizes g n ws) := by
  induction vs generalizing ws with
  | nil => intro n; cases hr; exact rfl
  | cons x xs ih => intro n; cases hr with | cons hx hr => exact bindN (h x _ hx) (fun a _ => ih hr _)

theorem sumN_completeM {gN : Key × Val → ND Nat} {g : Key × Val → Except Fault Nat}
    (h : ∀ k v, Complete v (gN (k, v)) (fun w => g (k, w))) {m m' : List (Key × Val)} (hr : ReorderM m m') :
    ∀ n, sumSizesN gN n m (sumSizes g n m') := by
  induction m generalizing m' with
  | nil => intro n; cases hr; exact rfl
  | cons x xs ih => intro n; cases hr with | cons hx hr => exact bindN (h _ _ _ hx) (fun a _ => ih hr _)

theorem appendN_completeL {gN : Bytes → Val → ND Bytes} {g : Bytes → Val → Except Fault Bytes}
    (h : ∀ b v, Complete v (gN b v) (g b)) {vs ws : List Val} (hr : ReorderL vs ws) :
    ∀ b, appendAllN gN b vs (appendAll g b ws) := by
  induction vs generalizing ws with
  | nil => intro n; cases hr; exact rfl
  | cons x xs ih => intro n; cases hr with | cons hx hr => exact bindN (h _ x _ hx) (fun a _ => ih hr _)

theorem appendN_completeM {gN : Bytes → Key × Val → ND Bytes} {g : Bytes → Key × Val → Except Fault Bytes}
    (h : ∀ b k v, Complete v (gN b (k, v)) (fun w => g b (k, w))) {m m' : List (Key × Val)} (hr : ReorderM m m') :
    ∀ b, appendAllN gN b m (appendAll g b m') := by
  induction m generalizing m' with
  | nil => intro n; cases hr; exact rfl
  | cons x xs ih => intro n; cases hr with | cons hx hr => exact bindN (h _ _ _ _ hx) (fun a _ => ih hr _)

theorem codecSizeN_complete {szN : TypeId → Val → ND Nat} {sz : TypeId → Val → Except Fault Nat}
    (h : ∀ t v, Complete v (szN t v) (sz t)) :
    ∀ c v f, Complete v (codecSizeN szN c v f) (fun w => codecSize sz c w f) := by
  intro c
  induction c with
  | normal s => intro v f w hr; exact sizeNormal_reorder s f hr
  | required s => intro v f w hr; exact sizeRequired_reorder s f hr
  | option s => intro v f w hr; exact sizeOption_reorder s f hr
  | bytes => intro v f w hr; exact sizeOfBytes_reorder f hr
  | ptr z c ih =>
    intro v f w hr
    cases v with
    | ptr v => obtain ⟨w, rfl, hr'⟩ := reorder_ptr hr; exact ih v f w hr'
    | _ => cases hr <;> exact rfl
  | msg t =>
    intro v f w hr
    cases v with
    | ptr v => obtain ⟨w, rfl, hr'⟩ := reorder_ptr hr; exact bindN (h t v w hr') (fun a _ => rfl)
    | _ => cases hr <;> exact rfl
  | slice z c ih =>
    intro v f w hr
    cases v with
    | slice n es sp =>
      obtain ⟨w, rfl, hr'⟩ := reorder_slice hr
      exact sumN_completeL (fun e => ih e f) hr' 0
    | _ => cases hr <;> exact rfl
  | map i kc vc kd vd ihk ihv _ _ =>
    intro v f w hr
    cases v with
    | map n m =>
      obtain ⟨m', m'', rfl, hp, hrm⟩ := reorder_map hr
      refine .inr ⟨m', ⟨m', hp, rfl⟩, bindN (sumN_completeM (fun k v w hr => ?_) hrm 0) (fun a _ => ?_)⟩
      · exact bindN (ihk _ _ _ (.refl _)) (fun a _ => bindN (ihv _ _ _ hr) (fun a _ => rfl))
      · split <;> exact rfl
    | _ => cases hr <;> exact rfl

theorem slotN {α : Type} {p q : Val} (hr : Reorder p q) (o : Nat) {gN : Val → ND α} {g : Val → Except Fault α}
    (h : ∀ v, Complete v (gN v) g) : (ND.lift (slotOf p o) >>= gN) (slotOf q o >>= g) := by
  rcases slotOf_reorder hr o with ⟨x, y, h1, h2, hr⟩ | ⟨h1, h2⟩
  · rw [h1, h2]; exact .inr ⟨x, rfl, h x y hr⟩
  · rw [h1, h2]; exact .inl ⟨_, rfl, rfl⟩

theorem sumN_fields {p q : Val} (hr : Reorder p q) {gN : Field → Val → ND Nat} {g : Field → Val → Except Fault Nat}
    (h : ∀ f v, Complete v (gN f v) (g f)) : ∀ fs n,
      sumSizesN (fun (f : Field) => do let v ← ND.lift (slotOf p f.offset); gN f v) n fs
        (sumSizes (fun (f : Field) => do let v ← slotOf q f.offset; g f v) n fs) := by
  intro fs
  induction fs with
  | nil => intro n; exact rfl
  | cons f fs ih =>
    intro n
    exact bindN (slotN hr f.offset (h f)) (fun a _ => ih _)

theorem appendN_fields {p q : Val} (hr : Reorder p q) {gN : Field → Bytes → Val → ND Bytes}
    {g : Field → Bytes → Val → Except Fault Bytes} (h : ∀ f b v, Complete v (gN f b v) (g f b)) : ∀ fs b,
      appendAllN (fun b (f : Field) => do let v ← ND.lift (slotOf p f.offset); gN f b v) b fs
        (appendAll (fun b (f : Field) => do let v ← slotOf q f.offset; g f b v) b fs) := by
  intro fs
  induction fs with
  | nil => intro n; exact rfl
  | cons f fs ih =>
    intro n
    exact bindN (slotN hr f.offset (h f n)) (fun a _ => ih _)

theorem sizeMsgN_complete (env : Env) : ∀ d t v, Complete v (sizeMsgN env d t v) (sizeMsg env d t) := by
  intro d
  induction d with
  | zero => intro t v w _; exact rfl
  | succ d ih => intro t v w hr; exact sumN_fields hr (fun f v => codecSizeN_complete ih f.codec v f.tag) _ 0

theorem codecEncodeN_complete {szN : TypeId → Val → ND Nat} {sz : TypeId → Val → Except Fault Nat}
    (h : ∀ t v, Complete v (szN t v) (sz t)) {recN : TypeId → Bytes → Val → ND Bytes}
    {rec : TypeId → Bytes → Val → Except Fault Bytes} (hrec : ∀ t b v, Complete v (recN t b v) (rec t b)) :
    ∀ c b v f, Complete v (codecEncodeN szN recN c b v f) (fun w => codecEncode sz rec c b w f) := by
  intro c
  induction c with
  | normal s => intro b v f w hr; exact encodeNormal_reorder s b f hr
  | required s => intro b v f w hr; exact encodeRequired_reorder s b f hr
  | option s => intro b v f w hr; exact encodeOption_reorder s b f hr
  | bytes => intro b v f w hr; exact encodeBytes_reorder b f hr
  | ptr z c ih =>
    intro b v f w hr
    cases v with
    | ptr v => obtain ⟨w, rfl, hr'⟩ := reorder_ptr hr; exact ih b v f w hr'
    | _ => cases hr <;> exact rfl
  | msg t =>
    intro b v f w hr
    cases v with
    | ptr v => obtain ⟨w, rfl, hr'⟩ := reorder_ptr hr; exact bindN (h t v w hr') (fun a _ => hrec _ _ _ _ hr')
    | _ => cases hr <;> exact rfl
  | slice z c ih =>
    intro b v f w hr
    cases v with
    | slice n es sp =>
      obtain ⟨w, rfl, hr'⟩ := reorder_slice hr
      exact appendN_completeL (fun b e => ih b e f) hr' b
    | _ => cases hr <;> exact rfl
  | map i kc vc kd vd ihk ihv _ _ =>
    intro b v f w hr
    cases v with
    | map n m =>
      obtain ⟨m', m'', rfl, hp, hrm⟩ := reorder_map hr
      refine .inr ⟨m', ⟨m', hp, rfl⟩, bindN (appendN_completeM (fun b k v w hr => ?_) hrm b) (fun a _ => ?_)⟩
      · exact bindN (codecSizeN_complete h _ _ _ _ (.refl _)) (fun a _ => bindN (codecSizeN_complete h _ _ _ _ hr)
          (fun a _ => bindN (ihk _ _ _ _ (.refl _)) (fun a _ => ihv _ _ _ _ hr)))
      · split <;> exact rfl
    | _ => cases hr <;> exact rfl

theorem encodeMsgN_complete (env : Env) : ∀ d t b v, Complete v (encodeMsgN env d t b v) (encodeMsg env d t b) := by
  intro d
  induction d with
  | zero => intro t b v w _; exact rfl
  | succ d ih =>
    intro t b v w hr
    exact appendN_fields hr (fun f b v => codecEncodeN_complete (sizeMsgN_complete env d) ih f.codec b v f.tag) _ b

end Pb
