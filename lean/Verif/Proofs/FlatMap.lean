import Verif.Proofs.FlatSlice
/-
Maps on raw memory (helper lemmas for `Props/Flat.lean`).
-/
namespace Pb.Flat

variable {lay : Lay} {m m' : Mem}

/-! ### The scratch entry -/

/-- The fields of `struct { Key K; Elem V }`. -/
def entrySlots (k v : Shape) : List (Nat × Shape) := [(0, k), (valueOffset k v, v)]

theorem entry_apart (k v : Shape) : (entrySlots k v).Pairwise fun a b => a.1 + a.2.size ≤ b.1 := by
  simp [entrySlots, valueOffset, le_alignUp]

theorem entry_within (k v : Shape) : ∀ p ∈ entrySlots k v, p.1 + p.2.size ≤ entrySize k v := by
  have h1 := le_alignUp (max k.align v.align) (valueOffset k v + v.size)
  have h2 := le_alignUp v.align k.size
  simp only [entrySlots, List.mem_cons, List.not_mem_nil, or_false, forall_eq_or_imp, forall_eq, entrySize]
  unfold valueOffset at *
  omega

theorem entry_aligned (k v : Shape) : ∀ p ∈ entrySlots k v, p.1 % p.2.align = 0 := by
  simp only [entrySlots, List.mem_cons, List.not_mem_nil, or_false, forall_eq_or_imp, forall_eq, valueOffset]
  exact ⟨Nat.zero_mod _, alignUp_mod (align_pos _) _⟩

theorem repF_two {k v : Shape} {o1 o2 cs vs B} (h : RepF lay m [(o1, k), (o2, v)] cs vs B) : ∃ x y Bk Bv, vs = [x, y] ∧
    B = Bk ++ Bv ∧ o1 + k.size ≤ cs.length ∧ o2 + v.size ≤ cs.length ∧ Rep lay m k ((cs.drop o1).take k.size) x Bk ∧
    Rep lay m v ((cs.drop o2).take v.size) y Bv := by
  cases h with
  | cons _ _ _ _ x _ Bk _ h1 h2 h3 =>
    cases h3 with
    | cons _ _ _ _ y _ Bv _ h4 h5 h6 =>
      cases h6
      exact ⟨x, y, Bk, Bv, rfl, by simp, h1, h4, h2, h5⟩

/-! ### Keys -/

theorem rep_key {k : Shape} {cs x B} (hk : k.isKey) (h : Rep lay m k cs x B) :
    B = [] ∧ asShape k x = .ok x ∧ ∃ key, x.toKey? = some key ∧ key.toVal = x := by
  cases h with
  | b8 x => exact ⟨rfl, rfl, .b8 x, rfl, rfl⟩
  | w32 x => exact ⟨rfl, rfl, .w32 x, rfl, rfl⟩
  | w64 x => exact ⟨rfl, rfl, .w64 x, rfl, rfl⟩
  | strNil => exact ⟨rfl, rfl, .str [], rfl, rfl⟩
  | str d bs s => exact ⟨rfl, rfl, .str s, rfl, rfl⟩
  | _ => exact hk.elim

theorem toKey_toVal (k : Key) : k.toVal.toKey? = some k := by cases k <;> rfl

theorem loadVal_key {k : Shape} {a x B} (hk : k.isKey) (h : Slot lay m a k x B) : loadVal m a k = .ok x := by
  have h' := h
  obtain ⟨cs, _, _, _, hr⟩ := h'
  exact loadVal_of (fun e => by rw [e] at hk; exact hk) h (rep_key hk hr).2.1

/-! ### Assignment -/

theorem repM_append {k v es es' kvs kvs' B B'} (h : RepM lay m k v es kvs B) (h' : RepM lay m k v es' kvs' B') :
    RepM lay m k v (es ++ es') (kvs ++ kvs') (B ++ B') := by
  induction es generalizing kvs B with
  | nil => cases h; exact h'
  | cons e es ih =>
    cases h with
    | cons _ _ kb vb kcs vcs key x _ kvs B1 B2 h1 h2 h3 h4 h5 =>
      have := RepM.cons k v kb vb kcs vcs key x _ _ B1 _ h1 h2 h3 h4 (ih h5)
      simpa using this

/-- Looking for a key: either it is not there, or its value is found and can be replaced. -/
theorem repM_find {k v : Shape} {es kvs B key} (hk : k.isKey) (h : RepM lay m k v es kvs B) (hn : B.Nodup) :
    (findKey m k key es = .ok none ∧ ∀ x, mapAssign kvs key x = kvs ++ [(key, x)]) ∨
    ∃ vb vcs, findKey m k key es = .ok (some vb) ∧ m[vb]? = some (.mem vcs) ∧ vcs.length = v.size ∧ vb ∈ B ∧
      ∀ {m' vcs' x' Bx'}, (∀ (x : Nat) s, m[x]? = some (.ro s) → m'[x]? = some (.ro s)) →
        m'[vb]? = some (.mem vcs') → Rep lay m' v vcs' x' Bx' → (∀ y ∈ B, y ≠ vb → m'[y]? = m[y]?) → Bx'.Nodup →
        (∀ y ∈ Bx', y ∉ B) →
        ∃ B', RepM lay m' k v es (mapAssign kvs key x') B' ∧ B'.Nodup ∧ ∀ y ∈ B', y ∈ B ∨ y ∈ Bx' := by
  induction es generalizing kvs B with
  | nil => cases h; exact .inl ⟨rfl, fun _ => rfl⟩
  | cons e es ih =>
    cases h with
    | cons _ _ kb vb kcs vcs key' x _ kvs B1 B2 h1 h2 h3 h4 h5 =>
      have hl : loadVal m ⟨kb, 0⟩ k = .ok key'.toVal := loadVal_key hk (slot_of_rep h1 h2)
      simp only [List.nodup_cons, List.mem_cons, List.mem_append, not_or] at hn
      obtain ⟨⟨n1, n2, n3⟩, ⟨n4, n5⟩, n6⟩ := hn
      obtain ⟨n7, n8, n9⟩ := List.nodup_append.mp n6
      by_cases he : key' = key
      · subst he
        refine .inr ⟨vb, vcs, ?_, h3, rep_length h4, by simp, ?_⟩
        · simp only [findKey, hl, bind, Except.bind, toKey_toVal]; simp; rfl
        intro m' vcs' x' Bx' hro hm hr hsame hnx hdis
        refine ⟨kb :: vb :: (Bx' ++ B2), ?_, ?_, ?_⟩
        · simp only [mapAssign, if_true]
          refine .cons k v kb vb kcs vcs' key' x' es kvs Bx' B2 ?_ (rep_frame hro h2 (by simp)) hm hr ?_
          · rw [hsame kb (by simp) n1]; exact h1
          · exact repM_frame hro h5 fun y hy => hsame y (by simp [hy]) fun e => n5 (e ▸ hy)
        · simp only [List.nodup_cons, List.mem_cons, List.mem_append, not_or]
          refine ⟨⟨n1, fun hx => hdis _ hx (by simp), n3⟩, ⟨fun hx => hdis _ hx (by simp), n5⟩, ?_⟩
          refine List.nodup_append.mpr ⟨hnx, n8, fun y hy z hz e => ?_⟩
          subst e
          exact hdis y hy (by simp [hz])
        · intro y hy
          simp at hy ⊢
          rcases hy with h | h | h | h <;> simp [h]
      · have hf : ∀ r, findKey m k key es = .ok r → findKey m k key ((kb, vb) :: es) = .ok r := by
          intro r hr
          simp only [findKey, hl, bind, Except.bind, toKey_toVal, he, if_false, hr]
        rcases ih h5 n8 with ⟨g1, g2⟩ | ⟨vb', vcs', g1, g2, g3, g4, g5⟩
        · refine .inl ⟨hf _ g1, fun x => ?_⟩
          simp [mapAssign, he, g2 x]
        · refine .inr ⟨vb', vcs', hf _ g1, g2, g3, by simp [g4], ?_⟩
          have v1 : vb' ≠ kb := fun e => n3 (e ▸ g4)
          have v2 : vb' ≠ vb := fun e => n5 (e ▸ g4)
          intro m' vcs' x' Bx' hro hm hr hsame hnx hdis
          obtain ⟨B', f1, f2, f3⟩ := g5 hro hm hr (fun y hy => hsame y (by simp [hy])) hnx
            (fun y hy hb => hdis y hy (by simp [hb]))
          refine ⟨kb :: vb :: (B1 ++ B'), ?_, ?_, ?_⟩
          · simp only [mapAssign, he, if_false]
            refine .cons k v kb vb kcs vcs key' x es _ B1 B' ?_ (rep_frame hro h2 (by simp)) ?_ ?_ f1
            · rw [hsame kb (by simp) v1.symm]; exact h1
            · rw [hsame vb (by simp) v2.symm]; exact h3
            · exact rep_frame hro h4 fun y hy => hsame y (by simp [hy]) fun e => n9 y hy vb' g4 e
          · have out : ∀ y, y ∉ B2 → y ∈ kb :: vb :: (B1 ++ B2) → y ∉ B' := by
              intro y h1 h2 h3
              rcases f3 y h3 with h | h
              · exact h1 h
              · exact hdis y h h2
            simp only [List.nodup_cons, List.mem_cons, List.mem_append, not_or]
            refine ⟨⟨n1, n2, out kb n3 (by simp)⟩, ⟨n4, out vb n5 (by simp)⟩, ?_⟩
            refine List.nodup_append.mpr ⟨n7, f2, fun y hy z hz e => ?_⟩
            subst e
            exact out y (fun h => n9 y hy y h rfl) (by simp [hy]) hz
          · intro y hy
            simp at hy ⊢
            rcases hy with h | h | h | h
            · simp [h]
            · simp [h]
            · simp [h]
            · rcases f3 y h with h | h <;> simp [h]

/-- What `mapassign` does. -/
theorem mapAssign_ok {k v : Shape} {p es kvs B ka x Bk key} (hk : k.isKey) (hp : m[p]? = some (.map es))
    (h : RepM lay m k v es kvs B) (hn : (p :: B).Nodup) (hs : Slot lay m ka k x Bk) (hx : x.toKey? = some key) :
    ∃ vb m4 vcs, mapAssignF m k v (some ⟨p, 0⟩) ka = .ok (⟨vb, 0⟩, m4) ∧ m4[vb]? = some (.mem vcs) ∧ vcs.length = v.size ∧
      vb ≠ p ∧ (vb ∈ B ∨ m.length ≤ vb) ∧ m.length ≤ m4.length ∧ (∀ y, y < m.length → y ≠ p → m4[y]? = m[y]?) ∧
      ∀ {m' vcs' x' Bx'}, (∀ (x : Nat) s, m[x]? = some (.ro s) → m'[x]? = some (.ro s)) →
        m'[vb]? = some (.mem vcs') → Rep lay m' v vcs' x' Bx' →
        (∀ y, y = p ∨ y ∈ B ∨ m.length ≤ y → y < m4.length → y ≠ vb → m'[y]? = m4[y]?) → Bx'.Nodup →
        (∀ y ∈ Bx', y ∉ B ∧ y ≠ p ∧ y < m.length) →
        ∃ es' B', m'[p]? = some (.map es') ∧ RepM lay m' k v es' (mapAssign kvs key x') B' ∧ (p :: B').Nodup ∧
          ∀ y ∈ B', y ∈ B ∨ y ∈ Bx' ∨ m.length ≤ y := by
  have hltp := lt_of_get hp
  have hltB := repM_lt h
  obtain ⟨hnp, hnB⟩ := List.nodup_cons.mp hn
  have hload := loadVal_key hk hs
  obtain ⟨kc0, j1, j2, j3, j4⟩ := hs
  obtain ⟨rfl, _, key', j5, j6⟩ := rep_key hk j4
  rw [hx] at j5
  cases j5
  have hkcs : load m ka k.size k.align = .ok ((kc0.drop ka.off).take k.size) := by
    have := load_slot (k := 0) (n := k.size) (al := k.align) j1 j2 rfl (by omega) (by simpa using j3)
    rw [add_zero, List.drop_zero, List.take_take, Nat.min_self] at this
    exact this
  generalize hkc : (kc0.drop ka.off).take k.size = kcs at hkcs j4
  rcases repM_find (key := key) hk h hnB with ⟨g1, g2⟩ | ⟨vb, vcs, g1, g2, g3, g4, g5⟩
  · refine ⟨m.length + 1, (m ++ [Obj.mem kcs, Obj.mem (zeroCells v.size)]).set p (.map (es ++ [(m.length, m.length + 1)])),
      zeroCells v.size, ?_, ?_, by simp, by omega, .inr (by omega), by simp, ?_, ?_⟩
    · simp only [mapAssignF, mapEntries, hp, if_true, hload, hx, g1, hkcs, bind, Except.bind]; rfl
    · rw [List.getElem?_set_ne (by omega), List.getElem?_append_right (by omega)]
      simp
    · intro y hy hyp
      rw [List.getElem?_set_ne (Ne.symm hyp), List.getElem?_append_left hy]
    · intro m' vcs' x' Bx' hro hm hr hsame hnx hdis
      refine ⟨es ++ [(m.length, m.length + 1)], B ++ (m.length :: (m.length + 1) :: (Bx' ++ [])), ?_, ?_, ?_, ?_⟩
      · rw [hsame p (.inl rfl) (by simp; omega) (by omega), List.getElem?_set_self (by simp; omega)]
      · rw [g2 x']
        refine repM_append (repM_frame hro h fun y hy => ?_) ?_
        · have := hltB y hy
          rw [hsame y (.inr (.inl hy)) (by simp; omega) (by omega),
            List.getElem?_set_ne (fun (e : p = y) => hnp (e ▸ hy)), List.getElem?_append_left this]
        · refine .cons k v _ _ kcs vcs' key x' [] [] Bx' [] ?_ ?_ hm hr (.nil k v)
          · rw [hsame m.length (.inr (.inr (Nat.le_refl _))) (by simp) (by omega), List.getElem?_set_ne (by omega),
              List.getElem?_append_right (by omega)]
            simp
          · rw [j6]; exact rep_frame hro j4 (by simp)
      · simp only [List.append_nil, List.nodup_cons, List.mem_append, List.mem_cons, not_or]
        refine ⟨⟨hnp, by omega, by omega, fun hy => (hdis _ hy).2.1 rfl⟩, ?_⟩
        refine List.nodup_append.mpr ⟨hnB, ?_, ?_⟩
        · simp only [List.nodup_cons, List.mem_cons, not_or]
          refine ⟨⟨by omega, fun hy => ?_⟩, fun hy => ?_, hnx⟩
          · have := (hdis _ hy).2.2; omega
          · have := (hdis _ hy).2.2; omega
        · intro y hy z hz e
          subst e
          have := hltB y hy
          simp only [List.mem_cons] at hz
          rcases hz with h | h | h
          · omega
          · omega
          · exact (hdis y h).1 hy
      · intro y hy
        simp at hy
        rcases hy with h | h | h | h
        · exact .inl h
        · exact .inr (.inr (by omega))
        · exact .inr (.inr (by omega))
        · exact .inr (.inl h)
  · refine ⟨vb, m, vcs, ?_, g2, g3, fun e => hnp (e ▸ g4), .inl g4, Nat.le_refl _, fun _ _ _ => rfl, ?_⟩
    · simp only [mapAssignF, mapEntries, hp, if_true, hload, hx, g1, bind, Except.bind]; rfl
    · intro m' vcs' x' Bx' hro hm hr hsame hnx hdis
      obtain ⟨B', f1, f2, f3⟩ := g5 hro hm hr (fun y hy => hsame y (.inr (.inl hy)) (hltB y hy)) hnx
        (fun y hy => (hdis y hy).1)
      refine ⟨es, B', ?_, f1, List.nodup_cons.mpr ⟨fun hy => ?_, f2⟩, ?_⟩
      · rw [hsame p (.inl rfl) hltp (fun e => hnp (e ▸ g4))]; exact hp
      · rcases f3 _ hy with h | h
        · exact hnp h
        · exact (hdis _ h).2.1 rfl
      · intro y hy
        rcases f3 _ hy with h | h
        · exact .inl h
        · exact .inr (.inl h)

/-! ### The map pointer -/

/-- The pointer to a map that is not nil. -/
theorem slot_map_some {a : Addr} {k v : Shape} {cs p es kvs B} (hm : m[a.blk]? = some (.mem cs)) (hl : a.off + 8 ≤ cs.length)
    (ha : a.off % 8 = 0) (hc : (cs.drop a.off).take 8 = ptrCells (some ⟨p, 0⟩)) (hp : m[p]? = some (.map es))
    (h : RepM lay m k v es kvs B) : Slot lay m a (.map k v) (.map false kvs) (p :: B) :=
  ⟨cs, hm, hl, ha, by
    show Rep lay m (.map k v) ((cs.drop a.off).take 8) _ _
    rw [hc]; exact .map k v p es kvs B hp h⟩

/-- The map at `a`: the header, the entries. -/
structure MapAt (lay : Lay) (m : Mem) (a : Addr) (k v : Shape) (p : Nat) (es : List (Nat × Nat)) (kvs : List (Key × Val))
    (B : List Nat) (cs : List Cell) : Prop where
  hm : m[a.blk]? = some (.mem cs)
  hl : a.off + 8 ≤ cs.length
  ha : a.off % 8 = 0
  hc : (cs.drop a.off).take 8 = ptrCells (some ⟨p, 0⟩)
  hp : m[p]? = some (.map es)
  rep : RepM lay m k v es kvs B
  nd : (a.blk :: p :: B).Nodup

theorem MapAt.load {a k v p es kvs B cs} (h : MapAt lay m a k v p es kvs B cs) : loadPtr m a = .ok (some ⟨p, 0⟩) :=
  loadPtr_at (y := []) h.hm h.hl (by rw [h.hc, List.append_nil]) h.ha

theorem MapAt.slot {a k v p es kvs B cs} (h : MapAt lay m a k v p es kvs B cs) :
    Slot lay m a (.map k v) (.map false kvs) (p :: B) := slot_map_some h.hm h.hl h.ha h.hc h.hp h.rep

theorem MapAt.frame {a k v p es kvs B cs b P C} (h : MapAt lay m a k v p es kvs B cs) (hu : Upd m m' b P C)
    (hb : b ∉ a.blk :: p :: B) (hC : ∀ x ∈ C, x ∉ a.blk :: p :: B) : MapAt lay m' a k v p es kvs B cs := by
  have hltB := repM_lt h.rep
  have keep : ∀ x ∈ a.blk :: p :: B, x < m.length → m'[x]? = m[x]? := fun x hx hlt =>
    hu.same x hlt (fun e => hb (e ▸ hx)) fun hc => hC x hc hx
  refine ⟨?_, h.hl, h.ha, h.hc, ?_, ?_, h.nd⟩
  · rw [keep _ (by simp) (lt_of_get h.hm)]; exact h.hm
  · rw [keep _ (by simp) (lt_of_get h.hp)]; exact h.hp
  · exact repM_frame hu.ro h.rep fun x hx => keep x (by simp [hx]) (hltB x hx)

theorem map_init {a k v x B} (h : Slot lay m a (.map k v) x B) (hn : (a.blk :: B).Nodup) :
    ∃ isNil kvs m1 p es B1 cs, x = .map isNil kvs ∧
      makeMapF m a = .ok m1 ∧
      MapAt lay m1 a k v p es kvs B1 cs ∧ Upd m m1 a.blk (region a.off 8) B ∧ ∀ y ∈ p :: B1, y ∈ B ∨ m.length ≤ y := by
  have ha8 := slot_aligned8 h rfl
  have hlta := slot_lt h
  obtain ⟨cs, hm, hl, ha, hr⟩ := h
  generalize hc : (cs.drop a.off).take (Shape.size (.map k v)) = c at hr
  cases hr with
  | mapNil =>
    have hp : loadPtr m a = .ok none := loadPtr_at (y := []) hm hl (by rw [hc, List.append_nil]) ha8
    have hm0 : (m ++ [Obj.map []])[a.blk]? = some (.mem cs) := by rw [List.getElem?_append_left hlta]; exact hm
    obtain ⟨m1, g1, g2, g3, g4⟩ := store_ok (new := ptrCells (some ⟨m.length, 0⟩)) (al := 8) hm0
      (by simpa [Shape.size] using hl) ha8
    have hl8 : a.off + 8 ≤ cs.length := hl
    refine ⟨true, [], m1, m.length, [], [], _, rfl, ?_, ⟨g2, ?_, ha8, ?_, ?_, .nil k v, ?_⟩, ?_, by simp⟩
    · simp only [makeMapF, hp, bind, Except.bind, alloc]; exact g1
    · rw [splice_length (by simpa using hl8)]; exact hl8
    · have := splice_same (cs := cs) (new := ptrCells (some ⟨m.length, 0⟩)) (o := a.off) (by simpa using hl8)
      simpa using this
    · exact g4.get (alloc_get m _) (by omega) (by simp)
    · simp; omega
    · refine (alloc_upd m _ _ _).trans (by simpa using g4) (by simp)
  | map _ _ b es kvs B1 h1 h2 =>
    have hp : loadPtr m a = .ok (some ⟨b, 0⟩) := loadPtr_at (y := []) hm hl (by rw [hc, List.append_nil]) ha8
    refine ⟨false, kvs, m, b, es, B1, cs, rfl, ?_, ⟨hm, hl, ha8, hc, h1, h2, hn⟩, Upd.refl _ _ _ _, fun y hy => .inl hy⟩
    simp only [makeMapF, hp, bind, Except.bind]; rfl

/-- Changes of allocations that were not there before. -/
theorem Upd.new {m1 m2 m3 : Mem} {a s : Nat} {P Q B C} (h1 : Upd m1 m2 a P B) (h2 : Upd m2 m3 s Q C) (hs : m1.length ≤ s)
    (hC : ∀ x ∈ C, m1.length ≤ x) : Upd m1 m3 a P B := by
  refine ⟨Nat.le_trans h1.len h2.len, ?_, fun x s h => h2.ro x s (h1.ro x s h), ?_⟩
  · intro x hx hb hB
    rw [h2.same x (Nat.lt_of_lt_of_le hx h1.len) (by omega) (fun h => by have := hC x h; omega), h1.same x hx hb hB]
  · intro cs hc
    have hlt := lt_of_get hc
    obtain ⟨c2, e1, e2, e3⟩ := h1.here cs hc
    exact ⟨c2, h2.get e1 (by omega) (fun h => by have := hC a h; omega), e2, e3⟩

theorem sim_map {i : MapInfo} {kc vc kd vd : Codec} {zeros rec recF msgSize} {grow : Nat → Nat → Nat}
    (hk : kc.shape.isKey) (hks : kd.shape = kc.shape) (hvs : vd.shape = vc.shape) (hkz : i.kzero = kc.shape.zero)
    (hvz : i.vzero = vc.shape.zero)
    (hkd : Sim lay kd.shape (codecDecode zeros rec kd) (codecDecodeF grow msgSize recF kd))
    (hvd : Sim lay vd.shape (codecDecode zeros rec vd) (codecDecodeF grow msgSize recF vd)) :
    Sim lay (.map kc.shape vc.shape) (codecDecode zeros rec (.map i kc vc kd vd))
      (codecDecodeF grow msgSize recF (.map i kc vc kd vd)) := by
  rw [hks] at hkd
  rw [hvs] at hvd
  intro b m a v B r h hn hr
  obtain ⟨isNil, kvs, m1, p, es, B1, cs, rfl, h1, hmap, hu, hsub⟩ := map_init h hn
  simp only [codecDecode, bind, Except.bind] at hr
  simp only [codecDecodeF, alloc, bind, Except.bind, h1]
  suffices hmain : ∃ m', (_ : Except Fault Res) = .ok ⟨m', outOf r⟩ ∧
      After lay m1 m' a (.map kc.shape vc.shape) (valOf r) (p :: B1) by
    obtain ⟨m', g1, g2⟩ := hmain
    exact ⟨m', g1, After.trans hu hsub g2⟩
  have hlta := lt_of_get hmap.hm
  have hltp := lt_of_get hmap.hp
  have hltB := repM_lt hmap.rep
  by_cases hb : b = []
  · rw [if_pos hb] at hr ⊢
    cases hr
    exact ⟨m1, rfl, After.refl hmap.slot hmap.nd⟩
  rw [if_neg hb] at hr ⊢
  -- the scratch entry
  have hu2 : Upd m1 (m1 ++ [Obj.mem (zeroCells (entrySize kc.shape vc.shape))]) a.blk (region a.off 8) (p :: B1) :=
    (alloc_upd m1 _ _ _).weaken (fun _ h => h) (by simp)
  have hfresh : ∀ x ∈ a.blk :: p :: B1, x < m1.length := by
    intro x hx
    simp only [List.mem_cons] at hx
    rcases hx with rfl | rfl | hx
    · exact hlta
    · exact hltp
    · exact hltB x hx
  have hS : m1.length ∉ a.blk :: p :: B1 := fun hx => Nat.lt_irrefl _ (hfresh _ hx)
  have hmap2 := hmap.frame (alloc_upd m1 (Obj.mem (zeroCells (entrySize kc.shape vc.shape))) m1.length fun _ => True) hS (by simp)
  rcases hv : decodeVarint b with ⟨x, nl, err⟩
  rw [hv] at hr
  simp only at hr ⊢
  cases err with
  | some e =>
    cases hr
    exact ⟨_, rfl, p :: B1, hmap2.slot, hmap2.nd, hu2, fun _ h => .inl h⟩
  | none =>
  simp only at hr ⊢
  rcases hg : goFrom b nl with e | tl <;> rw [hg] at hr
  · cases hr
  simp only at hr ⊢
  rw [hkz, hvz] at hr
  generalize hent : ([_, _] : List DField) = entry at hr
  generalize hentF : ([_, _] : List DFieldF) = entryF
  have hsim : FieldsSim lay (entrySlots kc.shape vc.shape) entry entryF := by
    rw [← hent, ← hentF]
    exact .cons _ _ kc.shape _ _ rfl rfl rfl hkd (.cons _ _ vc.shape _ _ rfl rfl rfl hvd .nil)
  have hst : StructAt lay (m1 ++ [Obj.mem (zeroCells (entrySize kc.shape vc.shape))]) (entrySlots kc.shape vc.shape)
      (entrySize kc.shape vc.shape) m1.length [kc.shape.zero, vc.shape.zero] [] :=
    ⟨_, alloc_get m1 _, by simp, repF_zero lay _ _ (entrySlots kc.shape vc.shape) (entry_within _ _)⟩
  rcases hd : structDecode entry tl (.struct [kc.shape.zero, vc.shape.zero]) with e | q <;> rw [hd] at hr
  · cases hr
  obtain ⟨m3, vs', B3, f1, f2, f3, f4, f5, f6⟩ := structDecode_sim (entry_apart _ _) (entry_aligned _ _) hsim hst (by simp) hd
  rw [f1]
  have hB3 : ∀ x ∈ B3, m1.length < x := by
    intro x hx
    rcases f6 x hx with h | h
    · cases h
    · simp at h; omega
  have hmap3 := hmap2.frame f5 hS (by simp)
  have hu3 : Upd m1 m3 a.blk (region a.off 8) (p :: B1) := hu2.new f5 (Nat.le_refl _) (by simp)
  obtain ⟨scs, s1, s2, s3⟩ := f3
  cases q with
  | err w e =>
    cases hr
    simp only [outOf]
    obtain ⟨m4, g1, g2, g3, g4⟩ := store_ok (a := ⟨m1.length, 0⟩) (new := zeroCells (entrySize kc.shape vc.shape)) (al := 1) s1
      (by simp [s2]) (by simp)
    rw [g1]
    refine ⟨m4, rfl, p :: B1, (hmap3.frame g4 hS (by simp)).slot, hmap3.nd, ?_, fun _ h => .inl h⟩
    exact hu3.new g4 (Nat.le_refl _) (by simp)
  | ok w n =>
    simp only [valOf] at f2
    subst f2
    obtain ⟨xk, xv, Bk, Bv, rfl, rfl, t1, t2, t3, t4⟩ := repF_two s3
    simp only at hr
    obtain ⟨rfl, _, key, t5, t6⟩ := rep_key hk t3
    rw [t5] at hr
    simp only at hr
    cases hr
    simp only [outOf, hmap3.load]
    have hkslot : Slot lay m3 ⟨m1.length, 0⟩ kc.shape xk [] := ⟨scs, s1, t1, by simp, t3⟩
    obtain ⟨vb, m4, vcs, a1, a2, a3, a4, a5, a6, a7, a8⟩ := mapAssign_ok (v := vc.shape) hk hmap3.hp hmap3.rep
      (List.nodup_cons.mp hmap3.nd).2 hkslot t5
    rw [a1]
    simp only
    simp only [List.nil_append, List.nodup_cons] at f4
    have hltS := lt_of_get s1
    have hltBv := rep_lt t4
    have hvbS : vb ≠ m1.length := by
      rcases a5 with h | h
      · have := hltB vb h; omega
      · omega
    have hSp : m1.length ≠ p := by omega
    have hlta3 := lt_of_get hmap3.hm
    have hap : a.blk ≠ p := by
      have := hmap.nd; simp only [List.nodup_cons, List.mem_cons, not_or] at this; exact this.1.1
    have haB : a.blk ∉ B1 := by
      have := hmap.nd; simp only [List.nodup_cons, List.mem_cons, not_or] at this; exact this.1.2
    have hvba : vb ≠ a.blk := by
      rcases a5 with h | h
      · exact fun e => haB (e ▸ h)
      · omega
    -- the copy
    have s4 : m4[m1.length]? = some (.mem scs) := by rw [a7 _ hltS hSp]; exact s1
    have hld : load m4 (Addr.add ⟨m1.length, 0⟩ (valueOffset kc.shape vc.shape)) vc.shape.size vc.shape.align =
        .ok ((scs.drop (valueOffset kc.shape vc.shape)).take vc.shape.size) := by
      have := load_slot (m := m4) (a := ⟨m1.length, valueOffset kc.shape vc.shape⟩) (k := 0) (n := vc.shape.size)
        (al := vc.shape.align) s4 t2 rfl (by omega)
        (by simpa using entry_aligned kc.shape vc.shape (valueOffset kc.shape vc.shape, vc.shape) (by simp [entrySlots]))
      rw [add_zero, List.drop_zero, List.take_take, Nat.min_self] at this
      rw [← this]
      simp [Addr.add]
    have hlen : ((scs.drop (valueOffset kc.shape vc.shape)).take vc.shape.size).length = vc.shape.size := by
      simp; omega
    obtain ⟨m5, b1, b2, b3, b4⟩ := store_ok (a := ⟨vb, 0⟩)
      (new := (scs.drop (valueOffset kc.shape vc.shape)).take vc.shape.size) (al := vc.shape.align) a2
      (by rw [hlen]; simp [a3]) (by simp)
    have hcell : splice vcs 0 ((scs.drop (valueOffset kc.shape vc.shape)).take vc.shape.size) =
        (scs.drop (valueOffset kc.shape vc.shape)).take vc.shape.size := by
      simp only [splice, List.take_zero, List.nil_append, hlen, Nat.zero_add]
      rw [List.drop_of_length_le (l := vcs) (by omega), List.append_nil]
    simp only at b2 b4
    rw [hcell] at b2
    have s5 : m5[m1.length]? = some (.mem scs) := b4.get s4 hvbS.symm (by simp)
    obtain ⟨m6, c1, c2, c3, c4⟩ := store_ok (a := ⟨m1.length, 0⟩) (new := zeroCells (entrySize kc.shape vc.shape)) (al := 1) s5
      (by simp [s2]) (by simp)
    simp only at c4
    simp only [assign, hld, bind, Except.bind, b1, c1]
    -- the result
    have keep6 : ∀ y, y < m4.length → y ≠ vb → y ≠ m1.length → m6[y]? = m4[y]? := by
      intro y hy h1 h2
      rw [c4.same y (by omega) h2 (by simp), b4.same y hy h1 (by simp)]
    have hro4 : ∀ (x : Nat) s, m3[x]? = some (.ro s) → m4[x]? = some (.ro s) := by
      intro x s hx
      rw [a7 x (lt_of_get hx) (fun e => by rw [e, hmap3.hp] at hx; cases hx)]; exact hx
    have hro6 : ∀ (x : Nat) s, m3[x]? = some (.ro s) → m6[x]? = some (.ro s) := fun x s hx =>
      c4.ro x s (b4.ro x s (hro4 x s hx))
    have hBv : ∀ y ∈ Bv, y ∉ B1 ∧ y ≠ p ∧ y < m3.length := by
      intro y hy
      have := hB3 y (by simp [hy])
      exact ⟨fun h => by have := hltB y h; omega, by omega, hltBv y hy⟩
    have hvbBv : vb ∉ Bv := by
      intro hy
      rcases a5 with h | h
      · exact (hBv vb hy).1 h
      · have := hltBv vb hy; omega
    have hvrep : Rep lay m6 vc.shape ((scs.drop (valueOffset kc.shape vc.shape)).take vc.shape.size) xv Bv := by
      refine rep_frame hro6 t4 fun y hy => ?_
      have h1 := hltBv y hy
      rw [keep6 y (by omega) (fun e => hvbBv (e ▸ hy)) (fun e => by have := hB3 y (by simp [hy]); omega),
        a7 y h1 (hBv y hy).2.1]
    obtain ⟨es', B', d1, d2, d3, d4⟩ := a8 hro6 (c4.get b2 hvbS (by simp)) hvrep
      (fun y hy hlt hne => keep6 y hlt hne (by
        rcases hy with rfl | h | h
        · omega
        · have := hltB y h; omega
        · omega))
      f4.2 hBv
    have hsub' : ∀ y ∈ p :: B', y ∈ p :: B1 ∨ m1.length ≤ y := by
      intro y hy
      rcases List.mem_cons.mp hy with rfl | hy
      · exact .inl (by simp)
      · rcases d4 y hy with h | h | h
        · exact .inl (by simp [h])
        · exact .inr (Nat.le_of_lt (hB3 y (by simp [h])))
        · exact .inr (by omega)
    have ha6 : m6[a.blk]? = some (.mem cs) := by
      rw [keep6 a.blk (by omega) hvba.symm (by omega), a7 a.blk hlta3 hap]; exact hmap3.hm
    refine ⟨m6, rfl, p :: B', slot_map_some ha6 hmap.hl hmap.ha hmap.hc d1 d2, ?_, ?_, hsub'⟩
    · refine List.nodup_cons.mpr ⟨fun hy => ?_, d3⟩
      rcases List.mem_cons.mp hy with h | h
      · exact hap h
      · rcases d4 _ h with h | h | h
        · exact haB h
        · have := hB3 a.blk (by simp [h]); omega
        · omega
    · refine ⟨by have := hu3.len; omega, ?_, fun x s hx => hro6 x s (hu3.ro x s hx), ?_⟩
      · intro y hy hya hyB
        simp only [List.mem_cons, not_or] at hyB
        have := hu3.len
        rw [keep6 y (by omega) (fun e => by
            rcases a5 with h | h
            · exact hyB.2 (e ▸ h)
            · omega) (by omega), a7 y (by omega) hyB.1]
        exact hu3.same y hy hya (by simp [hyB])
      · intro cs0 hc0
        rw [hmap.hm] at hc0
        cases hc0
        exact ⟨cs, ha6, rfl, fun _ _ => rfl⟩

end Pb.Flat
