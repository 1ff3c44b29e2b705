import Verif.Proofs.GraphMap
/-
Size and Marshal in typed memory (helper lemmas for `Props/Graph.lean`).
-/
namespace Pb.Flat

variable {lay : Lay} {T : Types} {m : Mem}

/-! ### Loads -/

theorem read_ptr (h : Graph lay T m) {a s} (hs : ReadAt T a (.ptr s)) :
    loadPtr m a = .ok none ∨ ∃ p, loadPtr m a = .ok (some p) ∧ SlotAt T p s := by
  obtain ⟨cs, h1, h2, h3, h4⟩ := h.read hs
  simp only [Shape.align] at h3
  rcases h4 with h4 | ⟨p, h4, hp⟩
  · exact .inl (loadPtr_at (y := []) h1 h2 (by simpa using h4) h3)
  · exact .inr ⟨p, loadPtr_at (y := []) h1 h2 (by simpa using h4) h3, hp⟩

theorem read_msg (h : Graph lay T m) {a t} (hs : ReadAt T a (.msg t)) :
    loadPtr m a = .ok none ∨ ∃ p, loadPtr m a = .ok (some p) ∧ MsgAt lay T p t := by
  obtain ⟨cs, h1, h2, h3, h4⟩ := h.read hs
  simp only [Shape.align] at h3
  rcases h4 with h4 | ⟨p, h4, hp⟩
  · exact .inl (loadPtr_at (y := []) h1 h2 (by simpa using h4) h3)
  · exact .inr ⟨p, loadPtr_at (y := []) h1 h2 (by simpa using h4) h3, hp⟩

theorem header_at {a : Addr} {N : Nat} {cs : List Cell} {d n cap} (h1 : m[a.blk]? = some (.mem cs)) (h2 : a.off + N ≤ cs.length)
    (h3 : a.off % 8 = 0) (h4 : (cs.drop a.off).take N = sliceCells d n cap) :
    loadPtr m a = .ok d ∧ loadInt m (a.add 8) = .ok n :=
  ⟨loadPtr_at h1 h2 h4 h3, loadInt_slot (x := ptrCells d) h1 h2 h4 (by simp) (by omega)⟩

theorem read_slice (h : Graph lay T m) {a s} (hs : ReadAt T a (.slice s)) :
    (loadPtr m a = .ok none ∧ loadInt m (a.add 8) = .ok 0) ∨
    ∃ p n, loadPtr m a = .ok (some p) ∧ loadInt m (a.add 8) = .ok n ∧ ∀ i < n, SlotAt T (p.add (i * s.size)) s := by
  obtain ⟨cs, h1, h2, h3, h4⟩ := h.read hs
  simp only [Shape.align] at h3
  rcases h4 with h4 | ⟨p, n, cap, h4, h5, hp⟩
  · exact .inl (header_at h1 h2 h3 h4)
  · obtain ⟨e1, e2⟩ := header_at h1 h2 h3 h4
    exact .inr ⟨p, n, e1, e2, fun i hi => hp.slot (by omega)⟩

theorem read_map (h : Graph lay T m) {a k v} (hs : ReadAt T a (.map k v)) :
    loadPtr m a = .ok none ∨
    ∃ b es ks, loadPtr m a = .ok (some ⟨b, 0⟩) ∧ m[b]? = some (.map es) ∧ EntriesAt T k v es ks ∧ ks.Nodup := by
  obtain ⟨cs, h1, h2, h3, h4⟩ := h.read hs
  simp only [Shape.align] at h3
  rcases h4 with h4 | ⟨b, h4, hb⟩
  · exact .inl (loadPtr_at (y := []) h1 h2 (by simpa using h4) h3)
  · obtain ⟨es, e1, ks, e2, e3⟩ := h.map hb
    exact .inr ⟨b, es, ks, loadPtr_at (y := []) h1 h2 (by simpa using h4) h3, e1, e2, e3⟩

/-- The bytes in an array of bytes. -/
theorem array_bytes (h : Graph lay T m) {p : Addr} {n : Nat} (hp : ArrayAt T p .b8 n) :
    ∃ s, loadData m p n = .ok s := by
  obtain ⟨N, sl, g1, g2, g3, g4⟩ := hp
  obtain ⟨cs, k1, k2, k3, k4⟩ := h.mem g1
  simp only [Shape.size, Nat.mul_one] at g3 g4
  have key : ∀ k ≤ n, ∃ s, asBytes ((cs.drop p.off).take k) = some s := by
    have one : ∀ i < n, ∃ x, cs[p.off + i]? = some (.byte x) := by
      intro i hi
      obtain ⟨x, hx⟩ := k4 _ (g4 i hi)
      have := congrArg (fun l : List Cell => l[0]?) hx
      simp [Shape.size, List.getElem?_take, List.getElem?_drop] at this
      exact ⟨x, this⟩
    intro k hk
    have : ∀ j ≤ n, ∀ i, i + j ≤ n → ∃ s, asBytes ((cs.drop (p.off + i)).take j) = some s := by
      intro j
      induction j with
      | zero => intro _ i _; exact ⟨[], by simp [asBytes]⟩
      | succ j ih =>
        intro hj i hi
        obtain ⟨x, hx⟩ := one i (by omega)
        obtain ⟨s, hs⟩ := ih (by omega) (i + 1) (by omega)
        have hlt := (List.getElem?_eq_some_iff.mp hx).1
        have hgx := (List.getElem?_eq_some_iff.mp hx).2
        refine ⟨x :: s, ?_⟩
        rw [List.drop_eq_getElem_cons hlt, hgx, List.take_succ_cons]
        simp only [asBytes]
        rw [show p.off + i + 1 = p.off + (i + 1) by omega, hs]
        rfl
    simpa using this k hk 0 (by omega)
  obtain ⟨s, hs⟩ := key n (Nat.le_refl _)
  refine ⟨s, ?_⟩
  have : load m p n 1 = .ok ((cs.drop p.off).take n) := by
    simp [load, k1, Nat.mod_one]; omega
  simp only [loadData, k1, this, bind, Except.bind, hs, typed]

theorem read_bytes (h : Graph lay T m) {a} (hs : ReadAt T a .bytes) : ∃ x, loadBytes m a = .ok x := by
  obtain ⟨cs, h1, h2, h3, h4⟩ := h.read hs
  simp only [Shape.align] at h3
  rcases h4 with h4 | ⟨p, n, cap, h4, h5, hp⟩
  · obtain ⟨e1, e2⟩ := header_at h1 h2 h3 h4
    exact ⟨none, by simp [loadBytes, e1, e2, bind, Except.bind, pure, Except.pure]⟩
  · obtain ⟨e1, e2⟩ := header_at h1 h2 h3 h4
    have hp' : ArrayAt T p .b8 n := by
      obtain ⟨N, sl, g1, g2, g3, g4⟩ := hp
      simp only [Shape.size, Nat.mul_one] at g3
      exact ⟨N, sl, g1, g2, by simp only [Shape.size]; omega, fun i hi => g4 i (by omega)⟩
    obtain ⟨s, hs⟩ := array_bytes h hp'
    exact ⟨some s, by simp [loadBytes, e1, e2, hs, bind, Except.bind, pure, Except.pure]⟩

theorem read_opt (h : Graph lay T m) {a s} (hs : ReadAt T a (.opt s)) (hk : s.isKey) :
    ∃ x, loadBool m a = .ok x ∧ ∃ y : Key, loadVal m (a.add (optOff s)) s = .ok y.toVal ∧ ∃ cs, KeyCells T s y cs := by
  obtain ⟨cs, h1, h2, h3, k1, ⟨x, k2⟩, k3⟩ := h.read hs
  have hw := opt_size_le s
  have hoff : 1 ≤ optOff s := by rw [optOff_eq]; exact align_pos _
  have hb := load_slot (k := 0) (n := 1) (al := 1) h1 h2 rfl (by omega) (by omega)
  rw [add_zero, List.drop_zero, k2] at hb
  refine ⟨x != 0#8, by simp [loadBool, hb, bind, Except.bind, asBytes, typed, pure, Except.pure, bne], ?_⟩
  rw [List.drop_take, List.take_take, List.drop_drop, Nat.min_eq_left (by omega)] at k3
  obtain ⟨y, e1, e2⟩ := loadVal_sound h (a := a.add (optOff s)) hk h1 (by simp only [Addr.add]; omega)
    (add_mod_align h3 (by rw [optOff_eq]; simp)) k3
  exact ⟨y, e1, _, e2⟩

/-! ### Where pointers lead -/

theorem entriesAt_get {k v es ks} (h : EntriesAt T k v es ks) : ∀ e ∈ es, (∃ x, T[e.1]? = some (.key k x)) ∧ T[e.2]? = some (.elem v) := by
  induction h with
  | nil => simp
  | cons e x es ks h1 h2 _ ih =>
    intro e' he
    rcases List.mem_cons.mp he with rfl | he
    · exact ⟨⟨x, h1⟩, h2⟩
    · exact ih e' he

theorem leads_msgAt (h : Graph lay T m) {s a t p} (hl : Leads m s a t p) : ReadAt T a s → MsgAt lay T p t := by
  induction hl with
  | msg t a p h1 =>
    intro hs
    rcases read_msg h hs with e | ⟨q, e, hq⟩ <;> rw [h1] at e <;> cases e
    exact hq
  | ptr s a p t q h1 _ ih =>
    intro hs
    rcases read_ptr h hs with e | ⟨q, e, hq⟩ <;> rw [h1] at e <;> cases e
    exact ih (.inl hq)
  | slice s a p n i t q h1 h2 hi _ ih =>
    intro hs
    rcases read_slice h hs with ⟨e, _⟩ | ⟨q, n', e, e', hq⟩ <;> rw [h1] at e <;> cases e
    rw [h2] at e'
    cases e'
    exact ih (.inl (hq i hi))
  | map k v a b es e t q h1 h2 he _ ih =>
    intro hs
    rcases read_map h hs with e' | ⟨b', es', ks, e', e2, e3, _⟩ <;> rw [h1] at e' <;> cases e'
    rw [h2] at e2
    cases e2
    exact ih (.inr (.inl ⟨(entriesAt_get e3 e he).2, rfl⟩))

/-- Scalars do not lead anywhere. -/
theorem leads_key {s a t p} (hk : s.isKey) (h : Leads m s a t p) : False := by
  cases h <;> exact hk

/-! ### The tree of values -/

/-- A function on all indices, as a list. -/
theorem list_of_forall {α} (P : Nat → α → Prop) : ∀ n : Nat, (∀ i < n, ∃ x, P i x) →
    ∃ xs : List α, xs.length = n ∧ ∀ (i : Nat) x, xs[i]? = some x → P i x
  | 0, _ => ⟨[], rfl, by simp⟩
  | n + 1, h => by
    obtain ⟨xs, h1, h2⟩ := list_of_forall P n fun i hi => h i (by omega)
    obtain ⟨x, hx⟩ := h n (by omega)
    refine ⟨xs ++ [x], by simp [h1], fun i y hy => ?_⟩
    by_cases hi : i < n
    · rw [List.getElem?_append_left (by omega)] at hy
      exact h2 i y hy
    · rw [List.getElem?_append_right (by omega)] at hy
      have : i - xs.length = 0 := by
        cases e : i - xs.length with
        | zero => rfl
        | succ k => rw [e] at hy; simp at hy
      rw [this] at hy
      simp at hy
      subst hy
      rw [show i = n by omega]
      exact hx

theorem fits_key {L : Layout} {s : Shape} {x : Key} {cs} (h : KeyCells T s x cs) : Fits L s x.toVal := by
  cases s <;> cases x <;> first | exact h.elim | constructor

/-- Every map has a list of keys and values. -/
theorem entries_exist {k v : Shape} {Q : Nat → Val → Prop} {es ks} (h : EntriesAt T k v es ks) :
    (∀ e ∈ es, ∃ x, Q e.2 x) → ∃ kvs : List (Key × Val), es.length = kvs.length ∧ kvs.map (·.1) = ks ∧
      (∀ (i : Nat) e x, es[i]? = some e → kvs[i]? = some x → T[e.1]? = some (.key k x.1) ∧ Q e.2 x.2) := by
  induction h with
  | nil => intro _; exact ⟨[], rfl, rfl, by simp⟩
  | cons e x es ks h1 h2 _ ih =>
    intro hq
    obtain ⟨kvs, g1, g2, g3⟩ := ih fun e he => hq e (by simp [he])
    obtain ⟨y, hy⟩ := hq e (by simp)
    refine ⟨(x, y) :: kvs, by simp [g1], by simp [g2], ?_⟩
    intro i e' x' he hx
    cases i with
    | zero => simp at he hx; subst he hx; exact ⟨h1, hy⟩
    | succ i => simp at he hx; exact g3 i e' x' he hx

theorem scalar_isKey (s : Scalar) : s.shape.isKey := by cases s <;> trivial

/-- If all messages that a value leads to unfold to trees, so does the value. -/
theorem shows_exist {env : Env} (h : Graph lay T m) : ∀ (c : Codec) a, c.WF → ReadAt T a c.shape →
    (∀ t p, Leads m c.shape a t p → ∃ v, Unfolds lay env m t p v ∧ FitsMsg lay.shapes t v) →
    ∃ v, Shows lay env m c.shape a v ∧ Fits lay.shapes c.shape v
  | .normal s, a, _, hs, _ => by
    obtain ⟨x, h1, h2⟩ := graph_loadVal h hs (scalar_isKey s)
    exact ⟨_, .scalar _ _ _ (scalar_isKey s) h1, fits_key h2⟩
  | .required s, a, _, hs, _ => by
    obtain ⟨x, h1, h2⟩ := graph_loadVal h hs (scalar_isKey s)
    exact ⟨_, .scalar _ _ _ (scalar_isKey s) h1, fits_key h2⟩
  | .option s, a, _, hs, _ => by
    obtain ⟨x, h1, y, h2, cs, h3⟩ := read_opt h hs (scalar_isKey s)
    cases x with
    | true => exact ⟨_, .some _ _ _ h1 (.scalar _ _ _ (scalar_isKey s) h2), .some _ _ (fits_key h3)⟩
    | false => exact ⟨_, .none _ _ h1, .none _⟩
  | .bytes, a, _, hs, _ => by
    obtain ⟨x, hx⟩ := read_bytes h hs
    exact ⟨_, .bytes _ _ hx, .bytes _⟩
  | .ptr z c, a, hw, hs, hl => by
    rcases read_ptr h hs with e | ⟨p, e, hp⟩
    · exact ⟨_, .ptrNil _ _ e, .ptrNil _⟩
    · obtain ⟨v, h1, h2⟩ := shows_exist h c p hw.2 (.inl hp) fun t q hq => hl t q (.ptr _ _ _ _ _ e hq)
      exact ⟨_, .ptr _ _ _ _ e h1, .ptr _ _ h2⟩
  | .msg t, a, hw, hs, hl => by
    rcases read_msg h hs with e | ⟨p, e, hp⟩
    · exact ⟨_, .msgNil _ _ e, .msgNil _⟩
    · obtain ⟨v, ⟨vs, rfl, h1, h2⟩, h3⟩ := hl t p (.msg _ _ _ e)
      exact ⟨_, .msg _ _ _ _ e h1 h2, h3⟩
  | .slice z c, a, hw, hs, hl => by
    rcases read_slice h hs with ⟨e1, e2⟩ | ⟨p, n, e1, e2, hp⟩
    · exact ⟨_, .sliceNil _ _ e1 e2, .slice _ _ _ _ (by simp) (by simp) (by simp)⟩
    · obtain ⟨vs, g1, g2⟩ := list_of_forall (fun i v => Shows lay env m c.shape (p.add (i * c.shape.size)) v ∧
          Fits lay.shapes c.shape v) n fun i hi =>
        shows_exist h c (p.add (i * c.shape.size)) hw.2 (.inl (hp i hi)) fun t q hq => hl t q (.slice _ _ _ _ _ _ _ e1 e2 hi hq)
      refine ⟨_, .slice _ _ _ vs e1 (by rw [g1]; exact e2) fun i v hv => (g2 i v hv).1, .slice _ _ _ _ (by simp) ?_ (by simp)⟩
      intro v hv
      obtain ⟨i, hi⟩ := List.getElem?_of_mem hv
      exact (g2 i v hi).2
  | .map i kc vc kd vd, a, hw, hs, hl => by
    rcases read_map h hs with e | ⟨b, es, ks, e1, e2, e3, e4⟩
    · exact ⟨_, .mapNil _ _ _ e, .map _ _ _ _ (by simp) (by simp) (by simp) (by simp)⟩
    · obtain ⟨kvs, g1, g2, g3⟩ := entries_exist (Q := fun b v => Shows lay env m vc.shape ⟨b, 0⟩ v ∧ Fits lay.shapes vc.shape v) e3
        fun e he => shows_exist h vc ⟨e.2, 0⟩ hw.2.2.2.2.2.2.1 (.inr (.inl ⟨(entriesAt_get e3 e he).2, rfl⟩))
          fun t q hq => hl t q (.map _ _ _ _ _ _ _ _ e1 e2 he hq)
      have hget : ∀ x ∈ kvs, ∃ e : Nat × Nat, T[e.1]? = some (.key kc.shape x.1) ∧ Fits lay.shapes vc.shape x.2 := by
        intro x hx
        obtain ⟨i, hi⟩ := List.getElem?_of_mem hx
        have hlt := (List.getElem?_eq_some_iff.mp hi).1
        exact ⟨es[i]'(by omega), (g3 i _ x (List.getElem?_eq_getElem (by omega)) hi).imp id And.right⟩
      refine ⟨_, .map _ _ _ _ es kvs e1 e2 g1 ?_ ?_, .map _ _ _ _ (by simp) (by rw [g2]; exact e4) ?_ fun x hx => (hget x hx).elim fun _ h => h.2⟩
      · intro i e x he hx
        exact graph_loadKey h (g3 i e x he hx).1 hw.1
      · intro i e x he hx
        exact (g3 i e x he hx).2.1
      · intro x hx
        obtain ⟨e, h1, _⟩ := hget x hx
        obtain ⟨cs, _, h2⟩ := h.key h1
        exact fits_key h2

theorem field_slot {env : Env} (hwf : WFEnv lay.shapes env) {a t} (ha : MsgAt lay T a t) {f} (hf : f ∈ (env t).fields) :
    SlotAt T (a.add (lay.off t f.offset)) f.codec.shape := by
  obtain ⟨o, ho⟩ := shapes_get (hwf.slot t f hf)
  rw [off_of ho]
  exact Graph.msgSlot ha (List.mem_of_getElem? ho)

/-- A message from which no infinite path leads away unfolds to a tree. -/
theorem unfolds_of_finite {env : Env} (hwf : WFEnv lay.shapes env) (h : Graph lay T m) {x : TypeId × Addr}
    (hx : Acc (Below lay env m) x) : MsgAt lay T x.2 x.1 → ∃ v, Unfolds lay env m x.1 x.2 v ∧ FitsMsg lay.shapes x.1 v := by
  induction hx with
  | intro x _ ih =>
    intro ha
    obtain ⟨t, a⟩ := x
    have hfield : ∀ f ∈ (env t).fields, ∃ v, Shows lay env m f.codec.shape (a.add (lay.off t f.offset)) v ∧
        Fits lay.shapes f.codec.shape v := fun f hf =>
      shows_exist h f.codec _ (hwf.codec t f hf) (.inl (field_slot hwf ha hf)) fun t' p hp =>
        ih (t', p) ⟨f, hf, hp⟩ (leads_msgAt h hp (.inl (field_slot hwf ha hf)))
    obtain ⟨vs, g1, g2⟩ := list_of_forall (fun i v => ∀ s, (lay.shapes t)[i]? = some s → Fits lay.shapes s v ∧
        ∀ f ∈ (env t).fields, f.offset = i → Shows lay env m f.codec.shape (a.add (lay.off t f.offset)) v) (lay.slots t).length
      (fun i hi => by
        by_cases hf : ∃ f ∈ (env t).fields, f.offset = i
        · obtain ⟨f, hf, rfl⟩ := hf
          obtain ⟨v, h1, h2⟩ := hfield f hf
          have hfs := hwf.slot t f hf
          refine ⟨v, fun s hs => ?_⟩
          rw [hfs] at hs
          cases hs
          refine ⟨h2, fun g hg e => ?_⟩
          have hgs := hwf.slot t g hg
          rw [e, hfs] at hgs
          injection hgs with hgs
          rw [← hgs, e]
          exact h1
        · refine ⟨((lay.shapes t)[i]?.getD .opaque).zero, fun s hs => ?_⟩
          rw [hs]
          exact ⟨fits_zero _ _, fun g hg e => absurd ⟨g, hg, e⟩ hf⟩)
    refine ⟨.struct vs, ⟨vs, rfl, g1, fun f hf v hv => ?_⟩, .msg _ _ (by simp [Lay.shapes, g1]) fun i s v hs hv => (g2 i v hv s hs).1⟩
    exact (g2 _ v hv _ (hwf.slot t f hf)).2 f hf rfl

end Pb.Flat
