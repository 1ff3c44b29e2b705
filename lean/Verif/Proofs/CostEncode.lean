import Verif.Proofs.CostDecode
/-
Lemmas for C65: the steps of Size and Marshal.
-/
namespace Pb
open Spec

/-! ### Size -/

theorem sumSizesK_le {α : Type} {sz : α → Except Fault (Nat × Nat)} (μ : α → Nat) :
    ∀ (l : List α) (n k : Nat), (∀ x ∈ l, Returns (sz x) fun r => r.2 ≤ μ x) →
      Returns (sumSizesK sz n k l) fun r => r.2 ≤ k + l.length + (l.map μ).sum
  | [], n, k, _ => returns_ok (by simp)
  | x :: l, n, k, h => by
    unfold sumSizesK
    refine returns_bind (h x (by simp)) fun r hr => ?_
    intro a ha
    have := sumSizesK_le μ l (n + r.1) (k + 1 + r.2) (fun y hy => h y (by simp [hy])) a ha
    simp only [List.length_cons, List.map_cons, List.sum_cons]
    omega

theorem visitsL_sum (W : Nat) (vs : List Val) : Val.visitsL W vs = (vs.map (Val.visits W)).sum := by
  induction vs with
  | nil => rfl
  | cons v vs ih => simp [Val.visitsL, ih]

theorem visitsM_sum (W : Nat) (m : List (Key × Val)) : Val.visitsM W m = (m.map fun e => e.2.visits W).sum := by
  induction m with
  | nil => rfl
  | cons e m ih => obtain ⟨k, v⟩ := e; simp [Val.visitsM, ih]

theorem visitsL_set (W : Nat) : ∀ (vs : List Val) (o : Nat) (v : Val), vs[o]? = some v →
    Val.visitsL W vs = v.visits W + Val.visitsL W (vs.set o .nilp)
  | [], o, v, h => by simp at h
  | x :: vs, 0, v, h => by
    simp at h; subst h
    simp [Val.visitsL, Val.visits]
  | x :: vs, o + 1, v, h => by
    have := visitsL_set W vs o v (by simpa using h)
    simp only [List.set_cons_succ, Val.visitsL]; omega

/-- What a field costs, if its slot is there. -/
def slotVisits (W : Nat) (vs : List Val) (f : Field) : Nat :=
  match vs[f.offset]? with
  | some v => v.visits W
  | none => 0

/-- Fields have slots of their own. -/
theorem fields_visits (W : Nat) : ∀ (fs : List Field) (vs : List Val), (fs.Pairwise fun f g => f.offset ≠ g.offset) →
    (fs.map (slotVisits W vs)).sum ≤ Val.visitsL W vs
  | [], vs, _ => by simp
  | f :: fs, vs, h => by
    rw [List.pairwise_cons] at h
    have ih := fields_visits W fs (vs.set f.offset .nilp) h.2
    have heq : (fs.map (slotVisits W vs)) = fs.map (slotVisits W (vs.set f.offset .nilp)) := by
      apply List.map_congr_left
      intro g hg
      have := h.1 g hg
      unfold slotVisits
      rw [List.getElem?_set_ne this]
    simp only [List.map_cons, List.sum_cons, heq]
    cases ho : vs[f.offset]? with
    | none =>
      have : slotVisits W vs f = 0 := by simp [slotVisits, ho]
      have hset : vs.set f.offset .nilp = vs := by
        rw [List.set_eq_of_length_le]
        simpa using ho
      rw [hset] at ih ⊢
      omega
    | some v =>
      have : slotVisits W vs f = v.visits W := by simp [slotVisits, ho]
      have := visitsL_set W vs f.offset v ho
      omega

theorem key_steps (rec : TypeId → Val → Except Fault (Nat × Nat)) {c : Codec} (h : c.shape.isKey) (v : Val) (f : FTag) :
    Returns (codecSizeK rec c v f) fun r => r.2 = 0 := by
  cases c with
  | normal s => unfold codecSizeK; exact returns_lift fun _ _ => returns_ok rfl
  | required s => unfold codecSizeK; exact returns_lift fun _ _ => returns_ok rfl
  | _ => simp [Codec.shape, Shape.isKey] at h

theorem codecSize_visits (W : Nat) {rec : TypeId → Val → Except Fault (Nat × Nat)}
    (hrec : ∀ t v, Returns (rec t v) fun r => r.2 ≤ v.visits W) :
    ∀ c : Codec, c.WF → ∀ v f, Returns (codecSizeK rec c v f) fun r => r.2 ≤ v.visits W := by
  intro c
  induction c with
  | normal s | required s | option s | bytes =>
    intro _ v f
    unfold codecSizeK
    exact returns_lift fun _ _ => returns_ok (Nat.zero_le _)
  | ptr zero c ih =>
    intro hwf v f
    unfold codecSizeK
    cases v with
    | nilp => exact returns_ok (Nat.zero_le _)
    | ptr v => exact ih hwf.2 v f
    | _ => exact returns_error
  | msg t =>
    intro _ v f
    unfold codecSizeK
    cases v with
    | nilp => exact returns_ok (Nat.zero_le _)
    | ptr v => exact returns_bind (hrec t v) fun r hr => returns_ok hr
    | _ => exact returns_error
  | slice zero c ih =>
    intro hwf v f
    unfold codecSizeK
    cases v with
    | slice n es sp =>
      intro a ha
      have := sumSizesK_le (Val.visits W) es 0 0 (fun x _ => ih hwf.2 x f) a ha
      simp only [Val.visits, visitsL_sum]
      omega
    | _ => exact returns_error
  | map i kc vc kd vd _ ihv _ _ =>
    intro hwf v f
    obtain ⟨hkey, _, _, _, _, _, hvw, _, _⟩ := hwf
    unfold codecSizeK
    cases v with
    | map n m =>
      refine returns_bind (sumSizesK_le (fun e => e.2.visits W) m 0 0 (fun e _ => ?_)) fun r hr => ?_
      · refine returns_bind (key_steps rec hkey _ _) fun r1 h1 => ?_
        refine returns_bind (ihv hvw e.2 i.val) fun r2 h2 => returns_ok ?_
        simp only; omega
      · simp only
        split <;> refine returns_ok ?_ <;> simp only [Val.visits, visitsM_sum] <;> omega
    | _ => exact returns_error

theorem sizeMsg_visits {env : Env} (hwf : ∀ t, ∀ f ∈ (env t).fields, f.codec.WF)
    (hdis : ∀ t, (env t).fields.Pairwise fun f g => f.offset ≠ g.offset) (W : Nat) (hW : ∀ t, (env t).fields.length ≤ W) :
    ∀ d t v, Returns (sizeMsgK env d t v) fun r => r.2 ≤ v.visits W := by
  intro d
  induction d with
  | zero => exact fun _ _ => returns_error
  | succ d ih =>
    intro t v
    unfold sizeMsgK structSizeK
    by_cases hv : ∃ vs, v = .struct vs
    · obtain ⟨vs, rfl⟩ := hv
      intro a ha
      have := sumSizesK_le (slotVisits W vs) (env t).fields 0 0 (fun f hf => by
        refine returns_lift fun x hx => ?_
        intro r hr
        have h1 := codecSize_visits W ih f.codec (hwf t f hf) x f.tag r hr
        have h2 := slotOf_inv hx
        simpa [slotVisits, h2] using h1) a ha
      have h1 := fields_visits W (env t).fields vs (hdis t)
      have h2 := hW t
      simp only [Val.visits]
      omega
    · have hs : ∀ o, slotOf v o = .error .confused := by
        intro o
        cases v with
        | struct vs => exact absurd ⟨vs, rfl⟩ hv
        | _ => rfl
      intro a ha
      have := sumSizesK_le (fun _ => 0) (env t).fields 0 0 (fun f hf => by
        rw [hs]; exact returns_error) a ha
      cases hf : (env t).fields with
      | nil => simp [hf] at this; omega
      | cons f fs => simp only [hf, sumSizesK, hs] at ha; cases ha

/-! ### Marshal against Size -/

theorem appendAllK_le {α : Type} {sz : α → Except Fault (Nat × Nat)} {enc : Bytes → α → Except Fault (Bytes × Nat)} (D : Nat)
    (hD : 1 ≤ D) : ∀ (l : List α) (n k : Nat) (b : Bytes) (j : Nat),
      (∀ x ∈ l, ∀ s, sz x = .ok s → ∀ b, Returns (enc b x) fun r => r.2 ≤ D * s.2) →
      ∀ s, sumSizesK sz n k l = .ok s → Returns (appendAllK enc b j l) fun r => r.2 + D * k ≤ j + D * s.2
  | [], n, k, b, j, _, s, hs => by
    simp only [sumSizesK, Except.ok.injEq] at hs
    subst hs
    exact returns_ok (by simp)
  | x :: l, n, k, b, j, h, s, hs => by
    unfold appendAllK
    unfold sumSizesK at hs
    rcases hx : sz x with e | ⟨s1, c1⟩
    · rw [hx] at hs; cases hs
    · rw [hx] at hs
      refine returns_bind (h x (by simp) _ hx b) fun r hr => ?_
      intro a ha
      have := appendAllK_le D hD l (n + s1) (k + 1 + c1) r.1 (j + 1 + r.2) (fun y hy => h y (by simp [hy])) s hs a ha
      simp only [Nat.mul_add, Nat.mul_one] at this hr ⊢
      omega

theorem nesting_mem_L {v : Val} : ∀ {vs : List Val}, v ∈ vs → v.nesting ≤ Val.nestingL vs
  | w :: vs, h => by
    simp only [Val.nestingL]
    rcases List.mem_cons.mp h with rfl | h
    · omega
    · have := nesting_mem_L h; omega

theorem nesting_mem_M {k : Key} {v : Val} : ∀ {m : List (Key × Val)}, (k, v) ∈ m → v.nesting ≤ Val.nestingM m
  | (_, w) :: m, h => by
    simp only [Val.nestingM]
    rcases List.mem_cons.mp h with h | h
    · cases h; omega
    · have := nesting_mem_M h; omega

theorem key_steps_enc {sz : TypeId → Val → Except Fault (Nat × Nat)} {rec : TypeId → Bytes → Val → Except Fault (Bytes × Nat)}
    {c : Codec} (h : c.shape.isKey) (b : Bytes) (v : Val) (f : FTag) :
    Returns (codecEncodeK sz rec c b v f) fun r => r.2 = 0 := by
  cases c with
  | normal s => unfold codecEncodeK; exact returns_lift fun _ _ => returns_ok rfl
  | required s => unfold codecEncodeK; exact returns_lift fun _ _ => returns_ok rfl
  | _ => simp [Codec.shape, Shape.isKey] at h

/-- The nested call of `info.size` costs once more what was measured before. -/
theorem codecEncode_steps {sz : TypeId → Val → Except Fault (Nat × Nat)}
    {rec : TypeId → Bytes → Val → Except Fault (Bytes × Nat)} (D : Nat)
    (hrec : ∀ t v s, sz t v = .ok s → v.nesting ≤ D → ∀ b, Returns (rec t b v) fun r => r.2 ≤ D * s.2) :
    ∀ c : Codec, c.WF → ∀ v f s, v.nesting ≤ D → codecSizeK sz c v f = .ok s → ∀ b,
      Returns (codecEncodeK sz rec c b v f) fun r => r.2 ≤ (D + 1) * s.2 := by
  intro c
  induction c with
  | normal _ | required _ | option _ | bytes =>
    intro _ v f s _ _ b
    unfold codecEncodeK
    exact returns_lift fun _ _ => returns_ok (Nat.zero_le _)
  | ptr zero c ih =>
    intro hwf v f s hn hs b
    unfold codecEncodeK
    cases v with
    | nilp => exact returns_ok (Nat.zero_le _)
    | ptr v => exact ih hwf.2 v f s hn hs b
    | _ => exact returns_error
  | msg t =>
    intro _ v f s hn hs b
    unfold codecEncodeK
    cases v with
    | nilp => exact returns_ok (Nat.zero_le _)
    | ptr v =>
      simp only [codecSizeK] at hs
      rcases hx : sz t v with e | ⟨n, k⟩
      · rw [hx] at hs; cases hs
      · rw [hx] at hs
        have hsk : s.2 = k := by cases hs; rfl
        simp only [hx]
        refine returns_lift fun r hr => ?_
        cases hr
        refine returns_bind (hrec t v _ hx hn _) fun r hr => returns_ok ?_
        simp only at hr ⊢
        rw [hsk, Nat.add_mul]
        omega
    | _ => exact returns_error
  | slice zero c ih =>
    intro hwf v f s hn hs b
    unfold codecEncodeK
    cases v with
    | slice n es sp =>
      intro a ha
      simp only [Val.nesting] at hn
      have := appendAllK_le (D + 1) (by omega) es 0 0 b 0 (fun x hx s hs b => by
        have := nesting_mem_L hx
        exact ih hwf.2 x f s (by omega) hs b) s hs a ha
      simpa using this
    | _ => exact returns_error
  | map i kc vc kd vd _ ihv _ _ =>
    intro hwf v f s hn hs b
    obtain ⟨hkey, _, _, _, _, _, hvw, _, _⟩ := hwf
    unfold codecEncodeK
    cases v with
    | map n m =>
      unfold codecSizeK at hs
      simp only [Val.nesting] at hn
      rcases hx : sumSizesK (fun (e : Key × Val) => do
        let (keySize, k1) ← codecSizeK sz kc e.1.toVal i.key
        let (valSize, k2) ← codecSizeK sz vc e.2 i.val
        return (sizeOfVarint i.wiretag + sizeOfVarint (BitVec.ofNat 64 (keySize + valSize)) + keySize + valSize, k1 + k2)) 0 0 m with e | s'
      · simp only [hx] at hs; cases hs
      · have hsk : s.2 = s'.2 := by
          simp only [hx] at hs
          simp only [bind, Except.bind, pure, Except.pure] at hs
          split at hs <;> cases hs <;> rfl
        refine returns_bind (fun a ha => appendAllK_le (D + 1) (by omega) m 0 0 b 0 (fun e he s hs b => ?_) s' hx a ha) fun r hr => ?_
        · have hne := nesting_mem_M (k := e.1) (v := e.2) he
          rcases h1 : codecSizeK sz kc e.1.toVal i.key with e1 | ⟨n1, k1⟩
          · rw [h1] at hs; cases hs
          rcases h2 : codecSizeK sz vc e.2 i.val with e2 | ⟨n2, k2⟩
          · rw [h1, h2] at hs; cases hs
          have hs2 : s.2 = k1 + k2 := by rw [h1, h2] at hs; cases hs; rfl
          refine returns_lift fun r1 hr1 => ?_
          have z1 := key_steps sz hkey _ _ r1 (h1.trans hr1)
          cases hr1
          refine returns_bind (key_steps sz hkey _ _) fun r2 z2 => ?_
          refine returns_bind (key_steps_enc hkey _ _ _) fun r3 z3 => ?_
          refine returns_bind (ihv hvw e.2 i.val _ (by omega) h2 _) fun r4 z4 => returns_ok ?_
          simp only at z1 z2 z3 z4 ⊢
          rw [hs2, Nat.mul_add]
          omega
        · have hr' : r.2 ≤ (D + 1) * s.2 := by rw [hsk]; simpa using hr
          simp only
          split
          · exact returns_ok hr'
          · exact returns_ok hr'
    | _ => exact returns_error

theorem encodeMsg_steps {env : Env} (hwf : ∀ t, ∀ f ∈ (env t).fields, f.codec.WF) :
    ∀ d t v s, sizeMsgK env d t v = .ok s → ∀ b, Returns (encodeMsgK env d t b v) fun r => r.2 ≤ v.nesting * s.2 := by
  intro d
  induction d with
  | zero => intro t v s h; cases h
  | succ d ih =>
    intro t v s hs b
    unfold encodeMsgK structEncodeK
    cases v with
    | struct vs =>
      intro a ha
      simp only [Val.nesting]
      have := appendAllK_le (1 + Val.nestingL vs) (by omega) (env t).fields 0 0 b 0 (fun f hf s hs b => by
        rcases hx : slotOf (.struct vs) f.offset with e | x
        · rw [hx] at hs; cases hs
        · rw [hx] at hs
          refine returns_lift fun y hy => ?_
          cases hy
          have hmem : x ∈ vs := List.mem_of_getElem? (slotOf_inv hx)
          have hn := nesting_mem_L hmem
          rw [Nat.add_comm]
          refine codecEncode_steps (Val.nestingL vs) ?_ f.codec (hwf t f hf) x f.tag s hn hs b
          intro t v s hs hn b r hr
          exact Nat.le_trans (ih t v s hs b r hr) (Nat.mul_le_mul_right _ hn)) s hs a ha
      simpa using this
    | _ =>
      intro a ha
      simp only [sizeMsgK, structSizeK] at hs
      cases hf : (env t).fields with
      | nil => simp only [hf, appendAllK, Except.ok.injEq] at ha; rw [← ha]; simp
      | cons f fs => simp only [hf, sumSizesK] at hs; cases hs

mutual
/-- What there is to look at, from the number of messages and elements. -/
theorem visits_le (W : Nat) : ∀ v : Val, v.visits W ≤ W * v.messages + v.elements
  | .opt _ v => by simpa only [Val.visits, Val.messages, Val.elements] using visits_le W v
  | .ptr v => by simpa only [Val.visits, Val.messages, Val.elements] using visits_le W v
  | .struct fs => by
    have := visits_leL W fs
    simp only [Val.visits, Val.messages, Val.elements, Nat.mul_add, Nat.mul_one]
    omega
  | .slice _ es sp => by
    have := visits_leL W es
    simp only [Val.visits, Val.messages, Val.elements, Nat.mul_add]
    omega
  | .map _ m => by
    have := visits_leM W m
    simp only [Val.visits, Val.messages, Val.elements]
    omega
  | .b8 _ | .w32 _ | .w64 _ | .str _ | .bytes _ | .nilp | .opaque _ => by simp [Val.visits]
theorem visits_leL (W : Nat) : ∀ vs : List Val, Val.visitsL W vs ≤ W * Val.messagesL vs + Val.elementsL vs
  | [] => by simp [Val.visitsL]
  | v :: vs => by
    have := visits_le W v
    have := visits_leL W vs
    simp only [Val.visitsL, Val.messagesL, Val.elementsL, Nat.mul_add]
    omega
theorem visits_leM (W : Nat) : ∀ m : List (Key × Val), Val.visitsM W m ≤ W * Val.messagesM m + Val.elementsM m
  | [] => by simp [Val.visitsM]
  | (_, v) :: vs => by
    have := visits_le W v
    have := visits_leM W vs
    simp only [Val.visitsM, Val.messagesM, Val.elementsM, Nat.mul_add]
    omega
end

mutual
theorem nesting_le : ∀ v : Val, v.nesting ≤ v.messages
  | .opt _ v => by simpa only [Val.nesting, Val.messages] using nesting_le v
  | .ptr v => by simpa only [Val.nesting, Val.messages] using nesting_le v
  | .struct fs => by
    have := nesting_leL fs
    simp only [Val.nesting, Val.messages]
    omega
  | .slice _ es sp => by
    have := nesting_leL es
    simp only [Val.nesting, Val.messages]
    omega
  | .map _ m => by simpa only [Val.nesting, Val.messages] using nesting_leM m
  | .b8 _ | .w32 _ | .w64 _ | .str _ | .bytes _ | .nilp | .opaque _ => by simp [Val.nesting]
theorem nesting_leL : ∀ vs : List Val, Val.nestingL vs ≤ Val.messagesL vs
  | [] => by simp [Val.nestingL]
  | v :: vs => by
    have := nesting_le v
    have := nesting_leL vs
    simp only [Val.nestingL, Val.messagesL]
    omega
theorem nesting_leM : ∀ m : List (Key × Val), Val.nestingM m ≤ Val.messagesM m
  | [] => by simp [Val.nestingM]
  | (_, v) :: vs => by
    have := nesting_le v
    have := nesting_leM vs
    simp only [Val.nestingM, Val.messagesM]
    omega
end

end Pb
