import Verif.Proofs.GraphRead
import Verif.Proofs.Total
/-
Size and Marshal in typed memory are those of the tree of values (helper lemmas for `Props/Graph.lean`).
-/
namespace Pb.Flat

variable {lay : Lay} {T : Types} {m : Mem} {env : Env}

theorem sumSizes_eq {α β} {f : α → Except Fault Nat} {g : β → Except Fault Nat} : ∀ {xs : List α} {ys : List β} (k : Nat),
    xs.length = ys.length → (∀ (i : Nat) x y, xs[i]? = some x → ys[i]? = some y → f x = g y) → sumSizes f k xs = sumSizes g k ys
  | [], [], _, _, _ => rfl
  | x :: xs, y :: ys, k, hl, h => by
    have h0 := h 0 x y rfl rfl
    have ih : ∀ k, sumSizes f k xs = sumSizes g k ys := fun k =>
      sumSizes_eq k (by simpa using hl) fun i x y hx hy => h (i + 1) x y (by simpa using hx) (by simpa using hy)
    simp only [sumSizes, h0, ih]
  | [], _ :: _, _, hl, _ => by simp at hl
  | _ :: _, [], _, hl, _ => by simp at hl

theorem appendAll_eq {α β} {f : Bytes → α → Except Fault Bytes} {g : Bytes → β → Except Fault Bytes} : ∀ {xs : List α} {ys : List β}
    (k : Bytes), xs.length = ys.length → (∀ (i : Nat) b x y, xs[i]? = some x → ys[i]? = some y → f b x = g b y) →
    appendAll f k xs = appendAll g k ys
  | [], [], _, _, _ => rfl
  | x :: xs, y :: ys, k, hl, h => by
    have h0 := h 0 k x y rfl rfl
    have ih : ∀ k, appendAll f k xs = appendAll g k ys := fun k =>
      appendAll_eq k (by simpa using hl) fun i b x y hx hy => h (i + 1) b x y (by simpa using hx) (by simpa using hy)
    simp only [appendAll, h0, ih]
  | [], _ :: _, _, hl, _ => by simp at hl
  | _ :: _, [], _, hl, _ => by simp at hl

theorem shows_scalar {s a v} (hk : s.isKey) (h : Shows lay env m s a v) : loadVal m a s = .ok v := by
  cases h with
  | scalar _ _ _ _ h => exact h
  | _ => exact hk.elim

theorem sizeRequiredF_eq {s a v f} (h : loadVal m a s.shape = .ok v) : sizeRequiredF m s a f = sizeRequired s v f := by
  cases s <;> first | rfl | (simp only [sizeRequiredF, h, bind, Except.bind])

theorem codecSizeF_eq {rec : TypeId → Val → Except Fault Nat} {recF : TypeId → Addr → Except Fault Nat}
    (hrec : ∀ t p v, Unfolds lay env m t p v → recF t p = rec t v) : ∀ (c : Codec) a v f, c.WF → Shows lay env m c.shape a v →
    codecSizeF m recF c a f = codecSize rec c v f
  | .normal s, a, v, f, _, h => by
    simp only [codecSizeF, sizeNormalF, shows_scalar (scalar_isKey s) h, bind, Except.bind, codecSize]
  | .required s, a, v, f, _, h => by
    simp only [codecSizeF, sizeRequiredF_eq (shows_scalar (scalar_isKey s) h), codecSize]
  | .option s, a, v, f, _, h => by
    cases h with
    | scalar _ _ _ hk _ => exact hk.elim
    | none _ _ h1 => simp [codecSizeF, h1, bind, Except.bind, codecSize, sizeOption, pure, Except.pure]
    | some _ _ v h1 h2 =>
      simp [codecSizeF, h1, bind, Except.bind, codecSize, sizeOption, sizeRequiredF_eq (shows_scalar (scalar_isKey s) h2)]
  | .bytes, a, v, f, _, h => by
    cases h with
    | scalar _ _ _ hk _ => exact hk.elim
    | bytes _ x h1 => simp only [codecSizeF, h1, bind, Except.bind, codecSize]
  | .ptr z c, a, v, f, hw, h => by
    cases h with
    | scalar _ _ _ hk _ => exact hk.elim
    | ptrNil _ _ h1 => simp only [codecSizeF, h1, bind, Except.bind, codecSize]; rfl
    | ptr _ _ p v h1 h2 => simp only [codecSizeF, h1, bind, Except.bind, codecSize, codecSizeF_eq hrec c p v f hw.2 h2]
  | .msg t, a, v, f, hw, h => by
    cases h with
    | scalar _ _ _ hk _ => exact hk.elim
    | msgNil _ _ h1 => simp only [codecSizeF, h1, bind, Except.bind, codecSize]; rfl
    | msg _ _ p vs h1 h2 h3 => simp only [codecSizeF, h1, bind, Except.bind, codecSize, hrec t p _ ⟨vs, rfl, h2, h3⟩]
  | .slice z c, a, v, f, hw, h => by
    cases h with
    | scalar _ _ _ hk _ => exact hk.elim
    | sliceNil _ _ h1 h2 => simp only [codecSizeF, h1, h2, bind, Except.bind, codecSize]; rfl
    | slice _ _ p es h1 h2 h3 =>
      simp only [codecSizeF, h1, h2, bind, Except.bind, codecSize]
      refine sumSizes_eq _ (by simp) fun i x y hx hy => ?_
      obtain ⟨hi, rfl⟩ := List.getElem?_eq_some_iff.mp hx
      simp only [List.getElem_range, index, alignedSize_eq]
      exact codecSizeF_eq hrec c _ y f hw.2 (h3 i y hy)
  | .map i kc vc kd vd, a, v, f, hw, h => by
    cases h with
    | scalar _ _ _ hk _ => exact hk.elim
    | mapNil _ _ _ h1 => simp only [codecSizeF, h1, bind, Except.bind, codecSize]; rfl
    | map _ _ _ b es kvs h1 h2 h3 h4 h5 =>
      simp only [codecSizeF, h1, bind, Except.bind, codecSize, mapEntries, h2, if_true]
      rw [sumSizes_eq 0 h3 fun j e x he hx => ?_]
      rw [codecSizeF_eq hrec kc _ _ i.key hw.2.2.2.2.2.1 (.scalar _ _ _ hw.1 (h4 j e x he hx)),
        codecSizeF_eq hrec vc _ _ i.val hw.2.2.2.2.2.2.1 (h5 j e x he hx)]

theorem slotOf_get {vs : List Val} {i : Nat} {v} (h : vs[i]? = some v) : slotOf (.struct vs) i = .ok v := by
  simp [slotOf, h]

theorem unfolds_field (hwf : WFEnv lay.shapes env) {t a v} (h : Unfolds lay env m t a v) {f} (hf : f ∈ (env t).fields) :
    ∃ x, slotOf v f.offset = .ok x ∧ Shows lay env m f.codec.shape (a.add (lay.off t f.offset)) x := by
  obtain ⟨vs, rfl, h1, h2⟩ := h
  obtain ⟨o, ho⟩ := shapes_get (hwf.slot t f hf)
  have hlt := (List.getElem?_eq_some_iff.mp ho).1
  have hg : vs[f.offset]? = some (vs[f.offset]'(by omega)) := List.getElem?_eq_getElem (by omega)
  exact ⟨_, slotOf_get hg, h2 f hf _ hg⟩

theorem sizeMsgF_eq (hwf : WFEnv lay.shapes env) : ∀ d t a v, Unfolds lay env m t a v → sizeMsgF lay env m d t a = sizeMsg env d t v
  | 0, _, _, _, _ => rfl
  | d + 1, t, a, v, h => by
    simp only [sizeMsgF, sizeMsg, structSizeF, structSize]
    refine sumSizes_eq _ rfl fun i f g hf hg => ?_
    rw [hf] at hg
    cases hg
    have hfm := List.mem_of_getElem? hf
    obtain ⟨x, h1, h2⟩ := unfolds_field hwf h hfm
    simp only [h1, bind, Except.bind]
    exact codecSizeF_eq (fun t p v hv => sizeMsgF_eq hwf d t p v hv) f.codec _ x f.tag (hwf.codec t f hfm) h2

theorem codecEncodeF_eq {sz : TypeId → Val → Except Fault Nat} {szF : TypeId → Addr → Except Fault Nat}
    {rec : TypeId → Bytes → Val → Except Fault Bytes} {recF : TypeId → Bytes → Addr → Except Fault Bytes}
    (hsz : ∀ t p v, Unfolds lay env m t p v → szF t p = sz t v)
    (hrec : ∀ t b p v, Unfolds lay env m t p v → recF t b p = rec t b v) : ∀ (c : Codec) b a v f, c.WF → c.MapsShaped →
    Shows lay env m c.shape a v → codecEncodeF m szF recF c b a f = codecEncode sz rec c b v f
  | .normal s, b, a, v, f, _, _, h => by
    simp only [codecEncodeF, shows_scalar (scalar_isKey s) h, bind, Except.bind, codecEncode]
  | .required s, b, a, v, f, _, _, h => by
    simp only [codecEncodeF, shows_scalar (scalar_isKey s) h, bind, Except.bind, codecEncode]
  | .option s, b, a, v, f, _, _, h => by
    cases h with
    | scalar _ _ _ hk _ => exact hk.elim
    | none _ _ h1 => simp [codecEncodeF, h1, bind, Except.bind, codecEncode, encodeOption, pure, Except.pure]
    | some _ _ v h1 h2 =>
      simp [codecEncodeF, h1, bind, Except.bind, codecEncode, encodeOption, shows_scalar (scalar_isKey s) h2]
  | .bytes, b, a, v, f, _, _, h => by
    cases h with
    | scalar _ _ _ hk _ => exact hk.elim
    | bytes _ x h1 => simp only [codecEncodeF, h1, bind, Except.bind, codecEncode]
  | .ptr z c, b, a, v, f, hw, hm, h => by
    cases h with
    | scalar _ _ _ hk _ => exact hk.elim
    | ptrNil _ _ h1 => simp only [codecEncodeF, h1, bind, Except.bind, codecEncode]; rfl
    | ptr _ _ p v h1 h2 => simp only [codecEncodeF, h1, bind, Except.bind, codecEncode, codecEncodeF_eq hsz hrec c b p v f hw.2 hm h2]
  | .msg t, b, a, v, f, hw, _, h => by
    cases h with
    | scalar _ _ _ hk _ => exact hk.elim
    | msgNil _ _ h1 => simp only [codecEncodeF, h1, bind, Except.bind, codecEncode]; rfl
    | msg _ _ p vs h1 h2 h3 =>
      simp only [codecEncodeF, h1, bind, Except.bind, codecEncode, hsz t p _ ⟨vs, rfl, h2, h3⟩, hrec t _ p _ ⟨vs, rfl, h2, h3⟩]
  | .slice z c, b, a, v, f, hw, hm, h => by
    cases h with
    | scalar _ _ _ hk _ => exact hk.elim
    | sliceNil _ _ h1 h2 => simp only [codecEncodeF, h1, h2, bind, Except.bind, codecEncode]; rfl
    | slice _ _ p es h1 h2 h3 =>
      simp only [codecEncodeF, h1, h2, bind, Except.bind, codecEncode]
      refine appendAll_eq _ (by simp) fun i b x y hx hy => ?_
      obtain ⟨hi, rfl⟩ := List.getElem?_eq_some_iff.mp hx
      simp only [List.getElem_range, index, alignedSize_eq]
      exact codecEncodeF_eq hsz hrec c b _ y f hw.2 hm (h3 i y hy)
  | .map i kc vc kd vd, b, a, v, f, hw, hm, h => by
    cases h with
    | scalar _ _ _ hk _ => exact hk.elim
    | mapNil _ _ _ h1 => simp only [codecEncodeF, h1, bind, Except.bind, codecEncode]; rfl
    | map _ _ _ p es kvs h1 h2 h3 h4 h5 =>
      simp only [codecEncodeF, h1, bind, Except.bind, codecEncode, mapEntries, h2, if_true]
      have hk : kc.MapsShaped := by
        have := hw.1
        cases kc <;> simp [Codec.shape, Shape.isKey] at this <;> trivial
      have hv : vc.MapsShaped := by
        have := hw.1
        rw [hm] at this
        cases vc <;> simp [Codec.shape, Shape.isKey] at this <;> trivial
      rw [appendAll_eq b h3 fun j b e x he hx => ?_]
      have hm' : kc.shape = vc.shape := hm
      have hvs := h5 j e x he hx
      rw [codecSizeF_eq hsz kc _ _ i.key hw.2.2.2.2.2.1 (.scalar _ _ _ hw.1 (h4 j e x he hx)),
        codecSizeF_eq hsz kc _ x.2 i.val hw.2.2.2.2.2.1 (by rw [hm']; exact hvs)]
      simp only [codecEncodeF_eq hsz hrec kc _ _ _ i.key hw.2.2.2.2.2.1 hk (.scalar _ _ _ hw.1 (h4 j e x he hx)),
        codecEncodeF_eq hsz hrec vc _ _ _ i.val hw.2.2.2.2.2.2.1 hv hvs]

theorem encodeMsgF_eq (hwf : WFEnv lay.shapes env) (hm : ∀ t, ∀ f ∈ (env t).fields, f.codec.MapsShaped) : ∀ d t b a v,
    Unfolds lay env m t a v → encodeMsgF lay env m d t b a = encodeMsg env d t b v
  | 0, _, _, _, _, _ => rfl
  | d + 1, t, b, a, v, h => by
    simp only [encodeMsgF, encodeMsg, structEncodeF, structEncode]
    refine appendAll_eq _ rfl fun i b f g hf hg => ?_
    rw [hf] at hg
    cases hg
    have hfm := List.mem_of_getElem? hf
    obtain ⟨x, h1, h2⟩ := unfolds_field hwf h hfm
    simp only [h1, bind, Except.bind]
    exact codecEncodeF_eq (fun t p v hv => sizeMsgF_eq hwf d t p v hv) (fun t b p v hv => encodeMsgF_eq hwf hm d t b p v hv)
      f.codec b _ x f.tag (hwf.codec t f hfm) (hm t f hfm) h2

/-! ### Messages that are not trees -/

/-- A result that is a number, or stands for recursion deeper than the bound. -/
def OkOrDeep {α} (r : Except Fault α) : Prop := (∃ x, r = .ok x) ∨ r = .error .depth

theorem sumSizes_deep {α} {f : α → Except Fault Nat} : ∀ {xs : List α} (k : Nat), (∀ x ∈ xs, OkOrDeep (f x)) →
    ((∃ n, sumSizes f k xs = .ok n) ∧ ∀ x ∈ xs, ∃ n, f x = .ok n) ∨ sumSizes f k xs = .error .depth
  | [], k, _ => .inl ⟨⟨k, rfl⟩, by simp⟩
  | x :: xs, k, h => by
    rcases h x (by simp) with ⟨n, e⟩ | e
    · simp only [sumSizes, e, bind, Except.bind]
      rcases sumSizes_deep (xs := xs) (k + n) fun y hy => h y (by simp [hy]) with ⟨h1, h2⟩ | h1
      · exact .inl ⟨h1, fun y hy => (List.mem_cons.mp hy).elim (fun e' => ⟨n, by rw [e', e]⟩) (h2 y)⟩
      · exact .inr h1
    · exact .inr (by simp only [sumSizes, e, bind, Except.bind])

theorem codecSizeF_scalar {recF : TypeId → Addr → Except Fault Nat} {c : Codec} {a v} {L : Layout} (hk : c.shape.isKey)
    (h : loadVal m a c.shape = .ok v) (hv : Fits L c.shape v) (f : FTag) : ∃ n, codecSizeF m recF c a f = .ok n := by
  cases c with
  | normal s =>
    have h' : loadVal m a s.shape = .ok v := h
    exact ⟨_, by simp only [codecSizeF, sizeNormalF, h', bind, Except.bind]; exact sizeNormal_eq f hv⟩
  | required s =>
    have h' : loadVal m a s.shape = .ok v := h
    exact ⟨_, by simp only [codecSizeF, sizeRequiredF_eq h']; exact sizeRequired_eq f hv⟩
  | _ => exact hk.elim

theorem codecSizeF_deep {recF : TypeId → Addr → Except Fault Nat} (h : Graph lay T m) : ∀ (c : Codec) a f, c.WF →
    ReadAt T a c.shape → (∀ t p, Leads m c.shape a t p → OkOrDeep (recF t p)) →
    ((∃ n, codecSizeF m recF c a f = .ok n) ∧ ∀ t p, Leads m c.shape a t p → ∃ n, recF t p = .ok n) ∨
      codecSizeF m recF c a f = .error .depth
  | .normal s, a, f, _, hs, _ => by
    obtain ⟨x, h1, cs⟩ := graph_loadVal h hs (scalar_isKey s)
    refine .inl ⟨?_, fun t p hl => (leads_key (scalar_isKey s) hl).elim⟩
    exact codecSizeF_scalar (c := .normal s) (scalar_isKey s) h1 (fits_key (L := lay.shapes) cs) f
  | .required s, a, f, _, hs, _ => by
    obtain ⟨x, h1, cs⟩ := graph_loadVal h hs (scalar_isKey s)
    refine .inl ⟨?_, fun t p hl => (leads_key (scalar_isKey s) hl).elim⟩
    exact codecSizeF_scalar (c := .required s) (scalar_isKey s) h1 (fits_key (L := lay.shapes) cs) f
  | .option s, a, f, _, hs, _ => by
    obtain ⟨x, h1, y, h2, cs, h3⟩ := read_opt h hs (scalar_isKey s)
    refine .inl ⟨?_, fun t p hl => by cases hl⟩
    simp only [codecSizeF, h1, sizeRequiredF_eq h2, bind, Except.bind]
    cases x with
    | true => exact ⟨_, sizeRequired_eq f (fits_key (L := lay.shapes) h3)⟩
    | false => exact ⟨0, rfl⟩
  | .bytes, a, f, _, hs, _ => by
    obtain ⟨x, hx⟩ := read_bytes h hs
    refine .inl ⟨?_, fun t p hl => by cases hl⟩
    simp only [codecSizeF, hx, bind, Except.bind]
    cases x with
    | none => exact ⟨_, rfl⟩
    | some s => cases s <;> exact ⟨_, rfl⟩
  | .ptr z c, a, f, hw, hs, hl => by
    rcases read_ptr h hs with e | ⟨p, e, hp⟩
    · refine .inl ⟨⟨0, by simp only [codecSizeF, e, bind, Except.bind]; rfl⟩, fun t q hq => ?_⟩
      cases hq with | ptr _ _ _ _ _ h1 _ => rw [h1] at e; cases e
    · simp only [codecSizeF, e, bind, Except.bind]
      refine (codecSizeF_deep h c p f hw.2 (.inl hp) fun t q hq => hl t q (.ptr _ _ _ _ _ e hq)).imp (fun ⟨h1, h2⟩ => ⟨h1, ?_⟩) id
      intro t q hq
      cases hq with | ptr _ _ _ _ _ h1 h3 => rw [h1] at e; cases e; exact h2 t q h3
  | .msg t, a, f, hw, hs, hl => by
    rcases read_msg h hs with e | ⟨p, e, hp⟩
    · refine .inl ⟨⟨0, by simp only [codecSizeF, e, bind, Except.bind]; rfl⟩, fun t q hq => ?_⟩
      cases hq with | msg _ _ _ h1 => rw [h1] at e; cases e
    · simp only [codecSizeF, e, bind, Except.bind]
      rcases hl t p (.msg _ _ _ e) with ⟨n, hn⟩ | hn <;> rw [hn]
      · refine .inl ⟨⟨_, rfl⟩, fun t' q hq => ?_⟩
        cases hq with | msg _ _ _ h1 => rw [h1] at e; cases e; exact ⟨n, hn⟩
      · exact .inr rfl
  | .slice z c, a, f, hw, hs, hl => by
    rcases read_slice h hs with ⟨e1, e2⟩ | ⟨p, n, e1, e2, hp⟩
    · refine .inl ⟨⟨0, by simp only [codecSizeF, e1, e2, bind, Except.bind]; rfl⟩, fun t q hq => ?_⟩
      cases hq with | slice _ _ _ _ _ _ _ h1 _ _ _ => rw [h1] at e1; cases e1
    · simp only [codecSizeF, e1, e2, bind, Except.bind, index, alignedSize_eq]
      have key : ∀ i ∈ List.range n, _ := fun i hi =>
        codecSizeF_deep h c (p.add (i * c.shape.size)) f hw.2 (.inl (hp i (List.mem_range.mp hi)))
          fun t q hq => hl t q (.slice _ _ _ _ _ _ _ e1 e2 (List.mem_range.mp hi) hq)
      refine (sumSizes_deep 0 fun i hi => (key i hi).imp And.left id).imp (fun ⟨h1, h2⟩ => ⟨h1, ?_⟩) id
      intro t q hq
      cases hq with
      | slice _ _ _ _ i _ _ k1 k2 k3 k4 =>
        rw [k1] at e1
        rw [k2] at e2
        cases e1
        cases e2
        obtain ⟨r, hr⟩ := h2 i (List.mem_range.mpr k3)
        rcases key i (List.mem_range.mpr k3) with ⟨_, h3⟩ | h3
        · exact h3 t q k4
        · rw [hr] at h3; cases h3
  | .map i kc vc kd vd, a, f, hw, hs, hl => by
    rcases read_map h hs with e | ⟨b, es, ks, e1, e2, e3, e4⟩
    · refine .inl ⟨⟨_, by simp only [codecSizeF, e, bind, Except.bind]; rfl⟩, fun t q hq => ?_⟩
      cases hq with | map _ _ _ _ _ _ _ _ h1 _ _ _ => rw [h1] at e; cases e
    · have heq : codecSizeF m recF (.map i kc vc kd vd) a f = Except.bind (sumSizes (fun (e : Nat × Nat) =>
          Except.bind (codecSizeF m recF kc ⟨e.1, 0⟩ i.key) fun keySize =>
          Except.bind (codecSizeF m recF vc ⟨e.2, 0⟩ i.val) fun valSize =>
          .ok (sizeOfVarint i.wiretag + sizeOfVarint (BitVec.ofNat 64 (keySize + valSize)) + keySize + valSize)) 0 es)
          (fun n => if n = 0 then .ok (sizeOfVarint i.wiretag + 1) else .ok n) := by
        simp only [codecSizeF, e1, bind, Except.bind, mapEntries, e2, if_true]
        rfl
      rw [heq]
      have hkey : ∀ e ∈ es, ∃ n, codecSizeF m recF kc ⟨e.1, 0⟩ i.key = .ok n := by
        intro e he
        obtain ⟨⟨x, h1⟩, h2⟩ := entriesAt_get e3 e he
        obtain ⟨y, h3, h4⟩ := graph_loadVal h (a := ⟨e.1, 0⟩) (.inr (.inr ⟨x, h1, rfl⟩)) hw.1
        exact codecSizeF_scalar hw.1 h3 (fits_key (L := lay.shapes) h4) i.key
      have key : ∀ e ∈ es, _ := fun e he =>
        codecSizeF_deep h vc ⟨e.2, 0⟩ i.val hw.2.2.2.2.2.2.1 (.inr (.inl ⟨(entriesAt_get e3 e he).2, rfl⟩))
          fun t q hq => hl t q (.map _ _ _ _ _ _ _ _ e1 e2 he hq)
      have fin : ∀ F : Nat × Nat → Except Fault Nat, (∀ e ∈ es, OkOrDeep (F e)) →
          (∀ e ∈ es, ∀ n, F e = .ok n → ∃ k, codecSizeF m recF vc ⟨e.2, 0⟩ i.val = .ok k) → ∀ G : Nat → Except Fault Nat,
          (∀ n, ∃ k, G n = .ok k) →
          ((∃ n, Except.bind (sumSizes F 0 es) G = .ok n) ∧
            ∀ t p, Leads m (.map kc.shape vc.shape) a t p → ∃ n, recF t p = .ok n) ∨
          Except.bind (sumSizes F 0 es) G = .error .depth := by
        intro F hF hF2 G hG
        rcases sumSizes_deep 0 hF with ⟨⟨n, h1⟩, h2⟩ | h1
        · rw [h1]
          refine .inl ⟨hG n, fun t q hq => ?_⟩
          cases hq with
          | map _ _ _ _ es' e' _ _ k1 k2 k3 k4 =>
            rw [k1] at e1
            cases e1
            rw [k2] at e2
            cases e2
            obtain ⟨r, hr⟩ := h2 e' k3
            obtain ⟨k, hk⟩ := hF2 e' k3 r hr
            rcases key e' k3 with ⟨_, h3⟩ | h3
            · exact h3 t q k4
            · rw [hk] at h3; cases h3
        · exact .inr (by rw [h1]; rfl)
      refine fin _ ?_ ?_ _ ?_
      · intro e he
        obtain ⟨n, hn⟩ := hkey e he
        simp only [hn, Except.bind]
        rcases key e he with ⟨⟨n', hn'⟩, _⟩ | hn' <;> simp only [hn']
        · exact .inl ⟨_, rfl⟩
        · exact .inr rfl
      · intro e he n h3
        obtain ⟨k, hk⟩ := hkey e he
        simp only [hk, Except.bind] at h3
        rcases key e he with ⟨h4, _⟩ | h4
        · exact h4
        · rw [h4] at h3; cases h3
      · intro n
        split <;> exact ⟨_, rfl⟩

/-- Size returns only if there is no infinite path of messages. -/
theorem sizeMsgF_deep (hwf : WFEnv lay.shapes env) (h : Graph lay T m) : ∀ d t a, MsgAt lay T a t →
    ((∃ n, sizeMsgF lay env m d t a = .ok n) ∧ Finite lay env m t a) ∨ sizeMsgF lay env m d t a = .error .depth
  | 0, _, _, _ => .inr rfl
  | d + 1, t, a, ha => by
    have key : ∀ f ∈ (env t).fields, _ := fun f hf =>
      codecSizeF_deep (recF := sizeMsgF lay env m d) h f.codec (a.add (lay.off t f.offset)) f.tag (hwf.codec t f hf)
        (.inl (field_slot hwf ha hf)) fun t' p hp =>
          (sizeMsgF_deep hwf h d t' p (leads_msgAt h hp (.inl (field_slot hwf ha hf)))).imp And.left id
    simp only [sizeMsgF, structSizeF]
    refine (sumSizes_deep 0 fun f hf => (key f hf).imp And.left id).imp (fun ⟨h1, h2⟩ => ⟨h1, ?_⟩) id
    refine ⟨_, fun ⟨t', p⟩ ⟨f, hf, hp⟩ => ?_⟩
    obtain ⟨r, hr⟩ := h2 f hf
    rcases key f hf with ⟨_, h3⟩ | h3
    · obtain ⟨n, hn⟩ := h3 t' p hp
      rcases sizeMsgF_deep hwf h d t' p (leads_msgAt h hp (.inl (field_slot hwf ha hf))) with h4 | h4
      · exact h4.2
      · rw [hn] at h4; cases h4
    · rw [hr] at h3; cases h3

end Pb.Flat
