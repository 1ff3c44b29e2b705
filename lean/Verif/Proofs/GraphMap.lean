import Verif.Proofs.GraphStruct
import Verif.Proofs.FlatMap
import Verif.Proofs.Fold
/-
Maps and whole messages in typed memory (helper lemmas for `Props/Graph.lean`).
-/
namespace Pb.Flat

variable {lay : Lay} {T T' : Types} {m m' : Mem}

/-! ### Reading a value -/

/-- The address is that of a value of shape `s`, in a slot or in a map. -/
def ReadAt (T : Types) (a : Addr) (s : Shape) : Prop :=
  SlotAt T a s ∨ (T[a.blk]? = some (.elem s) ∧ a.off = 0) ∨ ∃ x, T[a.blk]? = some (.key s x) ∧ a.off = 0

theorem keyCells_sound {s : Shape} {x : Key} {cs : List Cell} (h : KeyCells T s x cs) : Sound lay T s cs := by
  cases s <;> cases x <;> simp only [KeyCells] at h
  · obtain ⟨y, h, _⟩ := h
    exact ⟨y, h⟩
  · exact ⟨_, base256_length _ _, h⟩
  · exact ⟨_, base256_length _ _, h⟩
  · rename_i s
    obtain ⟨d, h1, h2⟩ := h
    refine ⟨d, s.length, h1, ?_⟩
    by_cases hs : s = []
    · exact .inl (by simp [hs])
    · obtain ⟨a, bs, e1, e2, e3⟩ := h2.resolve_left hs
      refine .inr ⟨a, bs, e1, e2, ?_⟩
      have := congrArg List.length e3
      simp at this
      have hp := List.length_pos_iff.mpr hs
      omega

theorem Graph.read (h : Graph lay T m) {a s} (hs : ReadAt T a s) :
    ∃ cs, m[a.blk]? = some (.mem cs) ∧ a.off + s.size ≤ cs.length ∧ a.off % s.align = 0 ∧
      Sound lay T s ((cs.drop a.off).take s.size) := by
  rcases hs with hs | ⟨h1, h2⟩ | ⟨x, h1, h2⟩
  · exact h.slot hs
  · obtain ⟨cs, g1, g2⟩ := h.elem h1
    have hl := sound_length g2
    refine ⟨cs, g1, by omega, by rw [h2]; simp, ?_⟩
    rw [h2, List.drop_zero, List.take_of_length_le (by omega)]
    exact g2
  · obtain ⟨cs, g1, g2⟩ := h.key h1
    have g2 := keyCells_sound (lay := lay) g2
    have hl := sound_length g2
    refine ⟨cs, g1, by omega, by rw [h2]; simp, ?_⟩
    rw [h2, List.drop_zero, List.take_of_length_le (by omega)]
    exact g2

theorem keyCells_w32 {s : Bytes} (h : s.length = 4) : KeyCells T .w32 (.w32 (decodeLE32 s).1) (byteCells s) := by
  obtain ⟨n, hn, e⟩ := base256_digits s
  rw [h] at e hn
  have h2 := decodeLE32_base (BitVec.ofNat 32 n)
  rw [BitVec.toNat_ofNat, Nat.mod_eq_of_lt (by omega), e] at h2
  simp only [KeyCells]
  rw [h2, BitVec.toNat_ofNat, Nat.mod_eq_of_lt (by omega), e]

theorem keyCells_w64 {s : Bytes} (h : s.length = 8) : KeyCells T .w64 (.w64 (decodeLE64 s).1) (byteCells s) := by
  obtain ⟨n, hn, e⟩ := base256_digits s
  rw [h] at e hn
  have h2 := decodeLE64_base (BitVec.ofNat 64 n)
  rw [BitVec.toNat_ofNat, Nat.mod_eq_of_lt (by omega), e] at h2
  simp only [KeyCells]
  rw [h2, BitVec.toNat_ofNat, Nat.mod_eq_of_lt (by omega), e]

/-- Loading a scalar. -/
theorem loadVal_sound (h : Graph lay T m) {a : Addr} {s : Shape} {cs : List Cell} (hk : s.isKey) (h1 : m[a.blk]? = some (.mem cs))
    (h2 : a.off + s.size ≤ cs.length) (h3 : a.off % s.align = 0) (h4 : Sound lay T s ((cs.drop a.off).take s.size)) :
    ∃ x : Key, loadVal m a s = .ok x.toVal ∧ KeyCells T s x ((cs.drop a.off).take s.size) := by
  generalize hc : (cs.drop a.off).take s.size = c at h4
  cases s with
  | b8 =>
    obtain ⟨x, rfl⟩ := h4
    have := load_slot (k := 0) (n := 1) (al := 1) h1 h2 hc (by simp [Shape.size]) (by omega)
    rw [add_zero] at this
    refine ⟨.b8 (x != 0#8), ?_, ⟨x, rfl, rfl⟩⟩
    simp only [loadVal, loadBool, this, bind, Except.bind]
    simp [asBytes, typed, pure, Except.pure, Key.toVal, bne]
  | w32 =>
    obtain ⟨s, hl, rfl⟩ := h4
    have := load_slot (k := 0) (n := 4) (al := 4) h1 h2 hc (by simp [Shape.size]) (by simpa [Shape.align] using h3)
    rw [add_zero, List.drop_zero, List.take_of_length_le (by simp [hl])] at this
    simp only [loadVal, load32, this, bind, Except.bind, asBytes_byteCells, typed]
    exact ⟨.w32 _, rfl, keyCells_w32 hl⟩
  | w64 =>
    obtain ⟨s, hl, rfl⟩ := h4
    have := load_slot (k := 0) (n := 8) (al := 8) h1 h2 hc (by simp [Shape.size]) (by simpa [Shape.align] using h3)
    rw [add_zero, List.drop_zero, List.take_of_length_le (by simp [hl])] at this
    simp only [loadVal, load64, this, bind, Except.bind, asBytes_byteCells, typed]
    exact ⟨.w64 _, rfl, keyCells_w64 hl⟩
  | str =>
    obtain ⟨d, n, rfl, hd⟩ := h4
    simp only [Shape.align] at h3
    have e1 := loadPtr_at h1 h2 hc h3
    have e2 : loadInt m (a.add 8) = .ok n :=
      loadInt_slot (x := ptrCells d) (y := []) h1 h2 (by rw [hc, List.append_nil]) (by simp) (by omega)
    simp only [loadVal, loadStr, e1, e2, bind, Except.bind]
    by_cases hn : n = 0
    · rw [if_pos hn]
      subst hn
      exact ⟨.str [], rfl, d, rfl, .inl rfl⟩
    · rw [if_neg hn]
      obtain ⟨p, s, rfl, k1, k2⟩ := hd.resolve_left hn
      simp only [loadData, h.text k1]
      rw [if_pos k2]
      have hlen : ((s.drop p.off).take n).length = n := by simp; omega
      exact ⟨.str _, rfl, some p, by rw [hlen], .inr ⟨p, s, rfl, k1, by rw [hlen]⟩⟩
  | _ => exact hk.elim

theorem graph_loadVal (h : Graph lay T m) {a s} (hs : ReadAt T a s) (hk : s.isKey) :
    ∃ x : Key, loadVal m a s = .ok x.toVal ∧ KeyCells T s x (cellsAt m a.blk a.off s.size) := by
  obtain ⟨cs, h1, h2, h3, h4⟩ := h.read hs
  have hca : cellsAt m a.blk a.off s.size = (cs.drop a.off).take s.size := by simp [cellsAt, h1]
  rw [hca]
  exact loadVal_sound h hk h1 h2 h3 h4

/-- The key in the memory of a key is the one it is known to be. -/
theorem keyCells_fun {s : Shape} {x y : Key} {cs : List Cell} (hx : KeyCells T s x cs) (hy : KeyCells T s y cs) : x = y := by
  cases s <;> cases x <;> cases y <;> simp only [KeyCells] at hx hy
  · obtain ⟨a, h1, rfl⟩ := hx
    obtain ⟨b, h2, rfl⟩ := hy
    rw [h1] at h2; cases h2; rfl
  · have := congrArg asBytes (hx.symm.trans hy)
    rw [asBytes_byteCells, asBytes_byteCells] at this
    injection this with this
    have h1 := congrArg (fun s => (decodeLE32 s).1) this
    simp only [decodeLE32_base] at h1
    rw [h1]
  · have := congrArg asBytes (hx.symm.trans hy)
    rw [asBytes_byteCells, asBytes_byteCells] at this
    injection this with this
    have h1 := congrArg (fun s => (decodeLE64 s).1) this
    simp only [decodeLE64_base] at h1
    rw [h1]
  · rename_i s s'
    obtain ⟨d, h1, h2⟩ := hx
    obtain ⟨d', h3, h4⟩ := hy
    rw [h1] at h3
    obtain ⟨e1, e2⟩ := List.append_inj h3 (by simp)
    have e1 := congrArg asPtr e1
    rw [asPtr_ptrCells, asPtr_ptrCells] at e1
    cases e1
    have e2 := congrArg asInt e2
    rw [asInt_intCells, asInt_intCells] at e2
    injection e2 with e2
    rcases h2 with h2 | ⟨a, bs, rfl, h6, h7⟩
    · subst h2
      cases s' with
      | nil => rfl
      | cons _ _ => simp at e2
    · rcases h4 with h4 | ⟨a', bs', e, h8, h9⟩
      · subst h4
        cases s with
        | nil => rfl
        | cons _ _ => simp at e2
      · cases e
        rw [h6] at h8
        cases h8
        rw [← h7, ← h9, e2]

theorem graph_loadKey (h : Graph lay T m) {b : Nat} {k x} (hb : T[b]? = some (.key k x)) (hk : k.isKey) :
    loadVal m ⟨b, 0⟩ k = .ok x.toVal := by
  obtain ⟨y, h1, h2⟩ := graph_loadVal h (a := ⟨b, 0⟩) (.inr (.inr ⟨x, hb, rfl⟩)) hk
  obtain ⟨cs, g1, g2⟩ := h.key hb
  have hl := sound_length (keyCells_sound (lay := lay) g2)
  have : cellsAt m b 0 k.size = cs := by simp [cellsAt, g1, ← hl]
  simp only [this] at h2
  rw [h1, keyCells_fun h2 g2]

/-! ### Maps -/

theorem slotsOK_entry (k v : Shape) : SlotsOK (entrySize k v) (entrySlots k v) :=
  slotsOK_pairwise (fun q hq => ⟨entry_aligned k v q hq, entry_within k v q hq⟩) (entry_apart k v)

theorem graph_makeMap (h : Graph lay T m) {a k v} (hs : SlotAt T a (.map k v)) :
    ∃ m' T', makeMapF m a = .ok m' ∧ Graph lay T' m' ∧ Later T m T' m' ∧ cellsAt m' a.blk a.off 8 ≠ ptrCells none := by
  have hmod : a.off % 8 = 0 := slot_mod h hs
  have hne : ∀ p, ptrCells (some p) ≠ ptrCells none := by
    intro p e
    have := congrArg asPtr e
    rw [asPtr_ptrCells, asPtr_ptrCells] at this
    cases this
  rcases cellsAt_sound h hs with hc | ⟨b, hc, hb⟩
  · have hl := graph_ptr8 (d := none) (y := []) h hs rfl (by rw [hc]; simp)
    obtain ⟨g1, g2⟩ := graph_alloc h (.map k v) (.map []) ⟨[], .nil, by simp⟩
    obtain ⟨m1, f1, f2, f3, f4⟩ := graph_store_slot g1 (g2.slot hs) (al := 8) (new := ptrCells (some ⟨m.length, 0⟩)) hmod
      (.inr ⟨m.length, rfl, by rw [← h.1]; simp⟩) (fun _ => hne _)
    refine ⟨m1, _, ?_, f2, g2.trans f3, ?_⟩
    · simp only [makeMapF, hl, bind, Except.bind, alloc, f1]
    · have f4' : cellsAt m1 a.blk a.off 8 = ptrCells (some ⟨m.length, 0⟩) := f4
      rw [f4']; exact hne _
  · have hl := graph_ptr8 (d := some ⟨b, 0⟩) (y := []) h hs rfl (by rw [hc]; simp)
    refine ⟨m, T, ?_, h, Later.refl _ _, ?_⟩
    · simp only [makeMapF, hl, bind, Except.bind]; rfl
    · have hc' : cellsAt m a.blk a.off 8 = ptrCells (some ⟨b, 0⟩) := hc
      rw [hc']; exact hne _

theorem graph_findKey (h : Graph lay T m) {k v : Shape} (hk : k.isKey) (key : Key) {es ks} (he : EntriesAt T k v es ks) :
    (findKey m k key es = .ok none ∧ key ∉ ks) ∨ ∃ vb, findKey m k key es = .ok (some vb) ∧ T[vb]? = some (.elem v) := by
  induction he with
  | nil => exact .inl ⟨rfl, by simp⟩
  | cons e x es ks h1 h2 _ ih =>
    simp only [findKey, graph_loadKey h h1 hk, bind, Except.bind, toKey_toVal]
    by_cases hkk : x = key
    · rw [if_pos hkk]; exact .inr ⟨e.2, rfl, h2⟩
    · rw [if_neg hkk]
      refine ih.imp (fun ⟨i1, i2⟩ => ⟨i1, ?_⟩) id
      simp only [List.mem_cons, not_or]
      exact ⟨fun e => hkk e.symm, i2⟩

theorem entriesAt_append {k v es ks es' ks'} (h : EntriesAt T k v es ks) (h' : EntriesAt T k v es' ks') :
    EntriesAt T k v (es ++ es') (ks ++ ks') := by
  induction h with
  | nil => exact h'
  | cons e x es ks h1 h2 _ ih => exact .cons e x _ _ h1 h2 ih

theorem graph_mapAssign (h : Graph lay T m) {k v : Shape} (hk : k.isKey) {p : Nat} (hp : T[p]? = some (.map k v)) {ka}
    (hs : SlotAt T ka k) :
    ∃ vb m' T', mapAssignF m k v (some ⟨p, 0⟩) ka = .ok (⟨vb, 0⟩, m') ∧ Graph lay T' m' ∧ Later T m T' m' ∧
      T'[vb]? = some (.elem v) := by
  obtain ⟨es, e1, ks, e2, e3⟩ := h.map hp
  obtain ⟨key, h1, h2⟩ := graph_loadVal h (.inl hs) hk
  have he : mapEntries m (some ⟨p, 0⟩) = .ok es := by simp only [mapEntries, e1, if_true]
  simp only [mapAssignF, he, h1, bind, Except.bind, toKey_toVal]
  rcases graph_findKey h hk key e2 with ⟨hf, hnew⟩ | ⟨vb, hf, hv⟩
  · obtain ⟨cs, g1, g2, g3, g4⟩ := h.slot hs
    have hl : load m ka k.size k.align = .ok ((cs.drop ka.off).take k.size) := by
      simp only [load, g3, ne_eq, not_true, if_false, g1, g2, if_true]
    have hca : cellsAt m ka.blk ka.off k.size = (cs.drop ka.off).take k.size := by simp [cellsAt, g1]
    rw [hca] at h2
    simp only [hf, hl]
    obtain ⟨a1, a2⟩ := graph_alloc h (.key k key) (.mem ((cs.drop ka.off).take k.size)) (h2.ext _)
    obtain ⟨b1, b2⟩ := graph_alloc a1 (.elem v) (.mem (zeroCells v.size)) (sound_zero _ _ _)
    have hkb : (T ++ [Kind.key k key])[m.length]? = some (.key k key) := by rw [← h.1]; simp
    have hvb : (T ++ [Kind.key k key] ++ [Kind.elem v])[m.length + 1]? = some (.elem v) := by rw [← h.1]; simp
    obtain ⟨c1, c2⟩ := graph_putMap b1 (get_ext (get_ext hp)) (es := es ++ [(m.length, m.length + 1)])
      (entriesAt_append ((e2.ext _).ext _) (.cons (m.length, m.length + 1) key [] [] (get_ext hkb) hvb .nil))
      (by
        rw [List.nodup_append]
        exact ⟨e3, by simp, fun a ha b hb => by simp at hb; subst hb; rintro rfl; exact hnew ha⟩)
    rw [show m ++ [Obj.mem ((cs.drop ka.off).take k.size)] ++ [Obj.mem (zeroCells v.size)] =
      m ++ [Obj.mem ((cs.drop ka.off).take k.size), Obj.mem (zeroCells v.size)] by simp] at c1 c2 b2
    exact ⟨m.length + 1, _, _, rfl, c1, a2.trans (b2.trans c2), hvb⟩
  · simp only [hf]
    exact ⟨vb, m, T, rfl, h, Later.refl _ _, hv⟩

/-- Clearing the scratch entry, which is new. -/
theorem graph_clear {T0 : Types} {m0 : Mem} (h : Graph lay T m) (hl : Later T0 m0 T m) {b N sl} (hb : T0.length ≤ b)
    (hT : T[b]? = some (.mem N sl)) :
    ∃ m', store m ⟨b, 0⟩ (zeroCells N) 1 = .ok m' ∧ Graph lay T m' ∧ Later T0 m0 T m' := by
  obtain ⟨cs, g1, g2, g3, g4⟩ := h.mem hT
  have hlt := lt_of_get g1
  refine ⟨m.set b (.mem (zeroCells N)), ?_, ⟨by simpa using h.1, ?_⟩, hl.ext, ?_, ?_⟩
  · have : splice cs 0 (zeroCells N) = zeroCells N := splice_whole (by simp [g3])
    simp [store, g1, g3, this]
  · intro c κ o hc ho
    by_cases e : b = c
    · subst e
      rw [List.getElem?_set_self hlt] at ho
      cases ho
      rw [hT] at hc
      cases hc
      exact ⟨g2, by simp, fun q hq => by rw [zero_drop_take (g2.1 q hq).2]; exact sound_zero _ _ _⟩
    · rw [List.getElem?_set_ne e] at ho
      exact h.2 c κ o hc ho
  · intro c N' sl' q hc hq
    have hne : b ≠ c := by
      rintro rfl
      have := (List.getElem?_eq_some_iff.mp hc).1
      omega
    have := hl.grew c N' sl' q hc hq
    unfold cellsAt at this ⊢
    rw [List.getElem?_set_ne hne]
    exact this
  · intro c κ hc hf
    have hne : b ≠ c := by
      rintro rfl
      have := (List.getElem?_eq_some_iff.mp hc).1
      omega
    rw [List.getElem?_set_ne hne]
    exact hl.same c κ hc hf

theorem gsim_map {i : MapInfo} {kc vc kd vd : Codec} {zeros rec recF msgSize} {grow : Nat → Nat → Nat}
    (hk : kc.shape.isKey) (hks : kd.shape = kc.shape) (hvs : vd.shape = vc.shape)
    (hkd : GSim lay kd.shape (codecDecode zeros rec kd) (codecDecodeF grow msgSize recF kd))
    (hvd : GSim lay vd.shape (codecDecode zeros rec vd) (codecDecodeF grow msgSize recF vd)) :
    GSim lay (.map kc.shape vc.shape) (codecDecode zeros rec (.map i kc vc kd vd))
      (codecDecodeF grow msgSize recF (.map i kc vc kd vd)) := by
  rw [hks] at hkd
  rw [hvs] at hvd
  intro b v q hr T m a h hs
  obtain ⟨isNil, kvs, rfl⟩ : ∃ x y, v = .map x y := by
    cases v with
    | map x y => exact ⟨x, y, rfl⟩
    | _ => cases hr
  obtain ⟨m1, T1, h1, h2, h3, h4⟩ := graph_makeMap h hs
  have hs1 := h3.slot hs
  simp only [codecDecode, bind, Except.bind] at hr
  simp only [codecDecodeF, alloc, bind, Except.bind, h1]
  by_cases hb : b = []
  · rw [if_pos hb] at hr ⊢
    cases hr
    exact ⟨m1, T1, rfl, h2, h3⟩
  rw [if_neg hb] at hr ⊢
  obtain ⟨g1, g2, g3⟩ := graph_new h2 (slotsOK_entry kc.shape vc.shape)
  rcases hv : decodeVarint b with ⟨x, nl, err⟩
  rw [hv] at hr
  simp only at hr ⊢
  cases err with
  | some e =>
    cases hr
    exact ⟨_, _, rfl, g1, h3.trans g2⟩
  | none =>
  simp only at hr ⊢
  rcases hg : goFrom b nl with e | tl <;> rw [hg] at hr
  · cases hr
  simp only at hr ⊢
  generalize hent : ([_, _] : List DField) = entry at hr
  generalize hentF : ([_, _] : List DFieldF) = entryF
  have hsim : GFields lay (entrySlots kc.shape vc.shape) entry entryF := by
    rw [← hent, ← hentF]
    exact .cons _ _ kc.shape _ _ rfl rfl (by simp [entrySlots]) hkd
      (.cons _ _ vc.shape _ _ rfl rfl (by simp [entrySlots]) hvd .nil)
  rcases hd : structDecode entry tl (.struct [i.kzero, i.vzero]) with e | r <;> rw [hd] at hr
  · cases hr
  have hsl : ∀ p ∈ entrySlots kc.shape vc.shape, SlotAt (T1 ++ [.mem (entrySize kc.shape vc.shape) (entrySlots kc.shape vc.shape)])
      (Addr.add ⟨m1.length, 0⟩ p.1) p.2 := fun p hp => ⟨_, _, g3, by simpa [Addr.add] using hp⟩
  obtain ⟨m3, T3, f1, f2, f3⟩ := structDecode_graph hsim hd g1 hsl
  rw [f1]
  have hT3 := f3.get g3
  have hlen : T.length ≤ m1.length := by
    rw [← h2.1]
    obtain ⟨X, rfl⟩ := h3.ext
    simp
  have hl3 := h3.trans (g2.trans f3)
  cases r with
  | err w e =>
    cases hr
    simp only [outOf]
    obtain ⟨m4, j1, j2, j3⟩ := graph_clear f2 hl3 hlen hT3
    rw [j1]
    exact ⟨m4, T3, rfl, j2, j3⟩
  | ok w n =>
    have hq : outOf q = .ok (n + nl) := by
      simp only at hr
      split at hr
      · rename_i heq
        cases heq
        split at hr
        · cases hr; rfl
        · cases hr
      · cases hr
      · rename_i heq; cases heq
    rw [hq]
    simp only [outOf]
    -- the map is still there
    have hs3 := hl3.slot hs
    have hne : cellsAt m3 a.blk a.off 8 ≠ ptrCells none := by
      have h5 := g2.trans f3
      obtain ⟨N, sl, t1, t2⟩ := hs1
      have := h5.grew _ N sl _ t1 t2
      simp only [Grew] at this
      exact this h4
    rcases cellsAt_sound f2 hs3 with hc | ⟨p, hc, hp⟩
    · exact absurd hc hne
    have hld := graph_ptr8 (d := some ⟨p, 0⟩) (y := []) f2 hs3 rfl (by rw [hc]; simp)
    rw [hld]
    simp only
    have hks : SlotAt T3 ⟨m1.length, 0⟩ kc.shape := ⟨_, _, hT3, by simp [entrySlots]⟩
    obtain ⟨vb, m4, T4, a1, a2, a3, a4⟩ := graph_mapAssign f2 hk hp hks
    rw [a1]
    simp only
    have hvs4 : SlotAt T4 ⟨m1.length, valueOffset kc.shape vc.shape⟩ vc.shape := ⟨_, _, a3.get hT3, by simp [entrySlots]⟩
    obtain ⟨scs, b1, b2, b3, b4⟩ := a2.slot hvs4
    have hload : load m4 (Addr.add ⟨m1.length, 0⟩ (valueOffset kc.shape vc.shape)) vc.shape.size vc.shape.align =
        .ok ((scs.drop (valueOffset kc.shape vc.shape)).take vc.shape.size) := by
      simp only at b1 b2 b3
      simp [load, Addr.add, b3, b1, b2]
    obtain ⟨vcs, c1, c2⟩ := a2.elem a4
    have hvl := sound_length c2
    have hbl := sound_length b4
    obtain ⟨d1, d2⟩ := graph_putElem a2 a4 b4
    have hst : store m4 ⟨vb, 0⟩ ((scs.drop (valueOffset kc.shape vc.shape)).take vc.shape.size) vc.shape.align =
        .ok (m4.set vb (.mem ((scs.drop (valueOffset kc.shape vc.shape)).take vc.shape.size))) := by
      simp only at hbl
      simp only [store, Nat.zero_mod, ne_eq, not_true, if_false, c1]
      rw [if_pos (by omega), splice_whole (by omega)]
    obtain ⟨m6, j1, j2, j3⟩ := graph_clear d1 (hl3.trans (a3.trans d2)) hlen (d2.get (a3.get hT3))
    simp only [assign, hload, bind, Except.bind, hst, j1]
    exact ⟨m6, T4, rfl, j2, j3⟩

/-! ### Messages -/

theorem codec_graph (hlay : lay.OK) {zeros rec recF} {grow : Nat → Nat → Nat} (hgrow : ∀ c n, n ≤ grow c n)
    (hrec : ∀ t, GMsg lay t (rec t) (recF t)) : ∀ c : Codec, c.WF →
    GSim lay c.shape (codecDecode zeros rec c) (codecDecodeF grow lay.size recF c)
  | .normal s, _ => gsim_scalar s
  | .required s, _ => gsim_scalar s
  | .option s, _ => gsim_option s
  | .bytes, _ => gsim_bytes hgrow
  | .ptr z c, h => by
    obtain ⟨rfl, hc⟩ := h
    have := gsim_ptr (codec_graph hlay hgrow hrec (zeros := zeros) c hc)
    intro b v q h3
    exact this b v q (by
      simp only [codecDecode] at h3
      cases v <;> exact h3)
  | .msg t, _ => gsim_msg hlay (hrec t) grow
  | .slice z c, h => gsim_slice (codec_graph hlay hgrow hrec c h.2)
  | .map i kc vc kd vd, h => by
    obtain ⟨h1, h2, h3, h4, h5, _, _, h8, h9⟩ := h
    exact gsim_map h1 h2 h3 (codec_graph hlay hgrow hrec kd h8) (codec_graph hlay hgrow hrec vd h9)

theorem decodeMsg_graph (hlay : lay.OK) {env : Env} (hwf : WFEnv lay.shapes env) {grow : Nat → Nat → Nat}
    (hgrow : ∀ c n, n ≤ grow c n) : ∀ d t, GMsg lay t (decodeMsg env d t) (decodeMsgF grow lay env d t)
  | 0, t => by intro b v q h; cases h
  | d + 1, t => by
    intro b v q hr T m a h hs
    have hfs : ∀ fs : List Field, (∀ f ∈ fs, f ∈ (env t).fields) →
        GFields lay (lay.slots t) (dfields (fun t => (env t).zero) (decodeMsg env d) fs)
          (dfieldsF grow lay (decodeMsgF grow lay env d) t fs) := by
      intro fs
      induction fs with
      | nil => intro _; exact .nil
      | cons f fs ih =>
        intro hsub
        have hf := hsub f (by simp)
        obtain ⟨o, ho⟩ := shapes_get (hwf.slot t f hf)
        refine .cons _ _ f.codec.shape _ _ rfl rfl ?_
          (codec_graph hlay hgrow (fun t => decodeMsg_graph hlay hwf hgrow d t) f.codec (hwf.codec t f hf))
          (ih fun g hg => hsub g (by simp [hg]))
        show (lay.off t f.offset, f.codec.shape) ∈ lay.slots t
        rw [off_of ho]
        exact List.mem_of_getElem? ho
    exact structDecode_graph (hfs (env t).fields fun _ h => h) hr h fun p hp => Graph.msgSlot hs hp

end Pb.Flat
