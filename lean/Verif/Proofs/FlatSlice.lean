import Verif.Proofs.FlatStruct
/-
Byte slices and slices on raw memory (helper lemmas for `Props/Flat.lean`).
-/
namespace Pb.Flat

variable {lay : Lay} {m m' : Mem}

/-! ### Byte slices -/

theorem appendBytes_ok {grow : Nat → Nat → Nat} (hg : ∀ c n, n ≤ grow c n) {a s d} (v : Bytes)
    (h : Slot lay m a .bytes (.bytes (some s)) [d]) (hd : a.blk ≠ d) :
    ∃ m', appendBytes grow m a v = .ok m' ∧ After lay m m' a .bytes (.bytes (some v)) [d] := by
  have hlta := slot_lt h
  have hltd := slot_blocks h d (by simp)
  have ha8 := slot_aligned8 h rfl
  obtain ⟨cs, hm, hl, ha, hr⟩ := h
  generalize hc : (cs.drop a.off).take (Shape.size .bytes) = c at hr
  cases hr with
  | bytes d cap cs' _ h1 h2 h3 h4 =>
    have e1 : loadPtr m a = .ok (some d) := loadPtr_at hm hl hc ha8
    have e2 : loadInt m (a.add 16) = .ok cap :=
      loadInt_slot (x := ptrCells (some d) ++ intCells s.length) (y := []) hm hl (by rw [hc]; simp [sliceCells]) (by simp) (by omega)
    simp only [appendBytes, e1, e2, bind, Except.bind]
    by_cases hcap : v.length ≤ cap
    · rw [if_pos hcap]
      obtain ⟨m1, g1, g2, g3, g4⟩ := store_ok (a := d) (new := byteCells v) (al := 1) h1 (by simp; omega) (by omega)
      have hm1 : m1[a.blk]? = some (.mem cs) := g4.get hm hd (by simp)
      obtain ⟨m2, f1, f2, f3, f4⟩ := store_cells (lay := lay) (s := .bytes) (al := 8) (new := sliceCells (some d) v.length cap)
        (v' := .bytes (some v)) (B' := [d.blk]) hm1 hl ha (by simp [Shape.size]) ha8 fun m' hu _ =>
          .bytes d cap (splice cs' d.off (byteCells v)) v (hu.get g2 (fun e => hd e.symm) (by simp))
            (by rw [splice_length (by simp; omega)]; exact h2) hcap
            (by have := splice_same (cs := cs') (new := byteCells v) (o := d.off) (by simp; omega)
                simpa using this)
      refine ⟨m2, by rw [g1]; exact f1, [d.blk], f2, by simpa using hd, ?_, by simp⟩
      exact (g4.inner hd (by simp) (by simp) (by simp)).trans f3 (by simp)
    · rw [if_neg hcap]
      simp only [alloc]
      have hm1 : (m ++ [Obj.mem (byteCells v ++ zeroCells (grow cap v.length - v.length))])[a.blk]? = some (.mem cs) := by
        rw [List.getElem?_append_left hlta]; exact hm
      have hgr := hg cap v.length
      obtain ⟨m2, f1, f2, f3, f4⟩ := store_cells (lay := lay) (s := .bytes) (al := 8)
        (new := sliceCells (some ⟨m.length, 0⟩) v.length (grow cap v.length))
        (v' := .bytes (some v)) (B' := [m.length]) hm1 hl ha (by simp [Shape.size]) ha8 fun m' hu _ =>
          .bytes ⟨m.length, 0⟩ (grow cap v.length) _ v (hu.get (alloc_get m _) (Nat.ne_of_gt hlta) (by simp))
            (by simp; omega) hgr (by rw [List.drop_zero]; exact List.take_left' (by simp))
      refine ⟨m2, f1, [m.length], f2, by simp; omega, ?_, by simp⟩
      exact (alloc_upd m _ _ _).trans f3 (by simp) |>.weaken (fun _ h => h) (by simp)

theorem res_mk' (m : Mem) (v : Val) (n : Nat) (e : Option Err) : Res.mk' m n e = ⟨m, outOf (DRes.mk v n e)⟩ := by
  cases e <;> rfl

theorem sim_bytes {grow : Nat → Nat → Nat} (hg : ∀ c n, n ≤ grow c n) : Sim lay .bytes decodeBytes (decodeBytesF grow) := by
  intro b m a v B r h hn hr
  simp only [decodeBytes, bind, Except.bind] at hr
  rcases hv : decodeVarlen b with e | ⟨x, n, err⟩ <;> rw [hv] at hr
  · cases hr
  obtain ⟨old, rfl, _⟩ := loadBytes_of h
  simp only at hr
  cases hr
  have ha8 := slot_aligned8 h rfl
  have hlt := slot_lt h
  simp only [decodeBytesF, hv, bind, Except.bind]
  have hval : valOf (DRes.mk (.bytes (some x)) n err) = .bytes (some x) := by cases err <;> rfl
  rw [hval]
  have h0 := h
  obtain ⟨cs, hm, hl, ha, hrep⟩ := h0
  generalize hc : (cs.drop a.off).take (Shape.size .bytes) = c at hrep
  cases hrep with
  | bytesNil =>
    rw [loadPtr_at hm hl hc ha8]
    simp only [alloc]
    obtain ⟨m1, g1, g2, g3, g4⟩ := store_slot (al := 8) (new := sliceCells (some ⟨m.length, 0⟩) 0 x.length)
      (v' := .bytes (some [])) (B' := [m.length]) (slot_alloc h (.mem (zeroCells x.length))) (by simp [Shape.size]) ha8
      fun m' hu _ => .bytes ⟨m.length, 0⟩ x.length (zeroCells x.length) [] (hu.get (alloc_get m _) (Nat.ne_of_gt hlt) (by simp))
        (by simp) (by simp) (by simp [byteCells])
    obtain ⟨m2, f1, f2⟩ := appendBytes_ok hg x g2 (by omega)
    refine ⟨m2, ?_, After.trans ((alloc_upd m _ _ _).trans g3 (by simp)) (by simp) f2⟩
    rw [g1]
    simp only [f1]
    rw [res_mk' m2 (.bytes (some x))]; rfl
  | bytes d cap cs' s h1 h2 h3 h4 =>
    rw [loadPtr_at hm hl hc ha8]
    simp only
    obtain ⟨m2, f1, f2⟩ := appendBytes_ok hg x h (by simpa using hn)
    refine ⟨m2, ?_, f2⟩
    rw [f1]
    simp only
    rw [res_mk' m2 (.bytes (some x))]; rfl

/-! ### Arrays -/

theorem elemSlots_append (s : Shape) (o k : Nat) : ∀ n, elemSlots s o (n + k) = elemSlots s o n ++ elemSlots s (o + n * s.size) k := by
  intro n
  induction n generalizing o with
  | zero => simp [elemSlots]
  | succ n ih =>
    rw [show n + 1 + k = (n + k) + 1 by omega, elemSlots, elemSlots, ih, List.cons_append]
    congr 3
    rw [Nat.add_mul]; omega

theorem elemSlots_mem {s : Shape} {p : Nat × Shape} : ∀ {n o : Nat}, p ∈ elemSlots s o n → o ≤ p.1 ∧ p.2 = s ∧ p.1 + s.size ≤ o + n * s.size
  | 0, _, h => by simp [elemSlots] at h
  | n + 1, o, h => by
    rw [elemSlots] at h
    have e : (n + 1) * s.size = n * s.size + s.size := by rw [Nat.add_mul, Nat.one_mul]
    rcases List.mem_cons.mp h with rfl | h
    · exact ⟨Nat.le_refl _, rfl, by simp only; omega⟩
    · obtain ⟨h1, h2, h3⟩ := elemSlots_mem h
      exact ⟨by omega, h2, by omega⟩

theorem elemSlots_pairwise (s : Shape) : ∀ n o, (elemSlots s o n).Pairwise fun a b => a.1 + a.2.size ≤ b.1
  | 0, _ => List.Pairwise.nil
  | n + 1, o => by
    rw [elemSlots]
    refine List.pairwise_cons.mpr ⟨?_, elemSlots_pairwise s n _⟩
    intro p hp
    exact (elemSlots_mem hp).1

theorem repF_append {s1 s2 cs v1 v2 B1 B2} (h1 : RepF lay m s1 cs v1 B1) (h2 : RepF lay m s2 cs v2 B2) :
    RepF lay m (s1 ++ s2) cs (v1 ++ v2) (B1 ++ B2) := by
  induction s1 generalizing v1 B1 with
  | nil => cases h1; exact h2
  | cons p s1 ih =>
    cases h1 with
    | cons o s _ _ v vs B B' g1 g2 g3 =>
      rw [List.append_assoc]
      exact .cons o s _ cs v _ B _ g1 g2 (ih g3)

/-- The same array elsewhere. -/
theorem repF_move {s : Shape} {cs cs' : List Cell} : ∀ {n o o' : Nat} {es B}, RepF lay m (elemSlots s o n) cs es B →
    (∀ i, i < n * s.size → cs'[o' + i]? = cs[o + i]?) → o' + n * s.size ≤ cs'.length → RepF lay m (elemSlots s o' n) cs' es B
  | 0, _, _, _, _, h, _, _ => by cases h; exact .nil _
  | n + 1, o, o', es, B, h, hc, hl => by
    have e : (n + 1) * s.size = n * s.size + s.size := by rw [Nat.add_mul, Nat.one_mul]
    rw [elemSlots] at h ⊢
    cases h with
    | cons _ _ _ _ v vs B1 B2 h1 h2 h3 =>
      refine .cons o' s _ cs' v vs B1 B2 (by omega) ?_ (repF_move h3 ?_ (by omega))
      · have : (cs'.drop o').take s.size = (cs.drop o).take s.size := by
          apply List.ext_getElem?
          intro i
          rw [List.getElem?_take, List.getElem?_take]
          split
          · rw [List.getElem?_drop, List.getElem?_drop, hc i (by omega)]
          · rfl
        rw [this]; exact h2
      · intro i hi
        rw [Nat.add_assoc, Nat.add_assoc]
        exact hc (s.size + i) (by omega)

theorem repF_bound {s : Shape} {cs : List Cell} : ∀ {n o : Nat} {es B}, o ≤ cs.length → RepF lay m (elemSlots s o n) cs es B →
    o + n * s.size ≤ cs.length
  | 0, _, _, _, ho, _ => by omega
  | n + 1, o, es, B, ho, h => by
    have e : (n + 1) * s.size = n * s.size + s.size := by rw [Nat.add_mul, Nat.one_mul]
    rw [elemSlots] at h
    cases h with
    | cons _ _ _ _ v vs B1 B2 h1 h2 h3 =>
      have := repF_bound h1 h3
      omega

theorem repF_zeros {s : Shape} {cs : List Cell} : ∀ {n o : Nat}, o + n * s.size ≤ cs.length →
    (∀ i, o ≤ i → i < o + n * s.size → cs[i]? = some (.byte 0#8)) →
    RepF lay m (elemSlots s o n) cs (List.replicate n s.zero) []
  | 0, _, _, _ => .nil _
  | n + 1, o, hl, hc => by
    have e : (n + 1) * s.size = n * s.size + s.size := by rw [Nat.add_mul, Nat.one_mul]
    rw [elemSlots, List.replicate_succ]
    refine .cons o s _ cs _ _ [] [] (by omega) ?_ (repF_zeros (by omega) fun i h1 h2 => hc i (by omega) (by omega))
    have : (cs.drop o).take s.size = zeroCells s.size := by
      apply List.ext_getElem?
      intro i
      rw [List.getElem?_take]
      by_cases hi : i < s.size
      · rw [if_pos hi, List.getElem?_drop, hc _ (by omega) (by omega)]
        simp [zeroCells, hi]
      · rw [if_neg hi]
        simp [zeroCells]; omega
    rw [this]
    exact rep_zero lay m s

/-! ### Slices -/

theorem slice_header {a s isNil es sp B} (h : Slot lay m a (.slice s) (.slice isNil es sp) B) :
    (isNil = true ∧ es = [] ∧ sp = [] ∧ B = [] ∧ loadPtr m a = .ok none) ∨
    ∃ d cs B', isNil = false ∧ B = d.blk :: B' ∧ loadPtr m a = .ok (some d) ∧ m[d.blk]? = some (.mem cs) ∧
      d.off % s.align = 0 ∧ d.off ≤ cs.length ∧ RepF lay m (elemSlots s d.off (es.length + sp.length)) cs (es ++ sp) B' := by
  have ha8 := slot_aligned8 h rfl
  obtain ⟨cs, hm, hl, ha, hr⟩ := h
  generalize hc : (cs.drop a.off).take (Shape.size (.slice s)) = c at hr
  cases hr with
  | sliceNil => exact .inl ⟨rfl, rfl, rfl, rfl, loadPtr_at hm hl hc ha8⟩
  | slice _ d cs' _ _ B' h1 h2 h4 h3 => exact .inr ⟨d, cs', B', rfl, rfl, loadPtr_at hm hl hc ha8, h1, h2, h4, h3⟩

theorem slice_cells {a s isNil es sp B} (h : Slot lay m a (.slice s) (.slice isNil es sp) B) {d : Option Addr}
    (hd : loadPtr m a = .ok d) : ∃ cs, m[a.blk]? = some (.mem cs) ∧ a.off + 24 ≤ cs.length ∧
      (cs.drop a.off).take 24 = sliceCells d es.length (es.length + sp.length) := by
  have ha8 := slot_aligned8 h rfl
  obtain ⟨cs, hm, hl, ha, hr⟩ := h
  refine ⟨cs, hm, hl, ?_⟩
  generalize hc : (cs.drop a.off).take (Shape.size (.slice s)) = c at hr
  cases hr with
  | sliceNil =>
    rw [loadPtr_at hm hl hc ha8] at hd
    cases hd
    exact hc
  | slice _ d' cs' _ _ B' h1 h2 h4 h3 =>
    rw [loadPtr_at hm hl hc ha8] at hd
    cases hd
    exact hc

theorem slice_ints {a s isNil es sp B} (h : Slot lay m a (.slice s) (.slice isNil es sp) B) :
    loadInt m (a.add 8) = .ok es.length ∧ loadInt m (a.add 16) = .ok (es.length + sp.length) := by
  obtain ⟨_, _, _, _, h1, _, h2, h3, _⟩ := slot_slice h
  cases h1
  exact ⟨h2, h3⟩

/-- The capacity after growth (slice.go:91-94). -/
def newCap (n : Nat) : Nat := if 2 * n = 0 then 10 else 2 * n

theorem newCap_le (n : Nat) : n ≤ newCap n := by unfold newCap; split <;> omega

theorem growIfFull_nil (z : Val) (es : List Val) : growIfFull z es [] = List.replicate (newCap es.length - es.length) z := by
  simp [growIfFull, newCap]

theorem growSlice_ok {a s isNil es B} (h : Slot lay m a (.slice s) (.slice isNil es []) B) (hn : (a.blk :: B).Nodup) :
    ∃ m', growSliceF m a (alignedSize s) s.align = .ok m' ∧
      After lay m m' a (.slice s) (.slice false es (growIfFull s.zero es [])) B := by
  have ha8 := slot_aligned8 h rfl
  have hlta := slot_lt h
  have hltB := slot_blocks h
  obtain ⟨i1, i2⟩ := slice_ints h
  rw [alignedSize_eq, growIfFull_nil]
  have hcap := newCap_le es.length
  have hcapS : newCap es.length * s.size = es.length * s.size + (newCap es.length - es.length) * s.size := by
    rw [← Nat.add_mul]; congr 1; omega
  have hcapE : (if 2 * (es.length + ([] : List Val).length) = 0 then 10 else 2 * (es.length + ([] : List Val).length)) = newCap es.length := by
    simp [newCap]
  have hlen : es.length + (List.replicate (newCap es.length - es.length) s.zero).length = newCap es.length := by simp; omega
  -- storing the new header
  have finish : ∀ (m1 : Mem) (ncs : List Cell) B1, Upd m m1 a.blk (region a.off 24) [] → m1[m.length]? = some (.mem ncs) →
      RepF lay m1 (elemSlots s 0 (newCap es.length)) ncs (es ++ List.replicate (newCap es.length - es.length) s.zero) B1 →
      B1.Nodup → (∀ x ∈ B1, x ∈ B) →
      ∃ m', store m1 a (sliceCells (some ⟨m.length, 0⟩) es.length (newCap es.length)) 8 = .ok m' ∧
        After lay m m' a (.slice s) (.slice false es (List.replicate (newCap es.length - es.length) s.zero)) B := by
    intro m1 ncs B1 hu hnb hrep hnd hsub
    have h0 := h
    obtain ⟨cs, hm, hl, ha, _⟩ := h0
    obtain ⟨cs1, c1, c2, _⟩ := hu.here cs hm
    have haB1 : a.blk ∉ B1 := fun hx => (List.nodup_cons.mp hn).1 (hsub _ hx)
    have hlt1 : ∀ x ∈ B1, x < m1.length := repF_lt hrep
    obtain ⟨m2, f1, f2, f3, f4⟩ := store_cells (lay := lay) (s := .slice s) (al := 8)
      (new := sliceCells (some ⟨m.length, 0⟩) es.length (newCap es.length))
      (v' := .slice false es (List.replicate (newCap es.length - es.length) s.zero)) (B' := m.length :: B1)
      c1 (by rw [c2]; exact hl) ha (by simp [Shape.size]) ha8 fun m' hu' _ => by
        have := Rep.slice (lay := lay) (m := m') s ⟨m.length, 0⟩ ncs es (List.replicate (newCap es.length - es.length) s.zero) B1
          (hu'.get hnb (Nat.ne_of_gt hlta) (by simp)) (by simp) (by simp)
          (by rw [hlen]
              exact repF_mem hu'.ro hrep fun x hx => hu'.same x (hlt1 x hx) (fun e => haB1 (e ▸ hx)) (by simp))
        rw [hlen] at this
        exact this
    refine ⟨m2, f1, m.length :: B1, f2, ?_, ?_, ?_⟩
    · simp only [List.nodup_cons, List.mem_cons, not_or]
      refine ⟨⟨by omega, haB1⟩, fun hx => ?_, hnd⟩
      have := hltB _ (hsub _ hx)
      omega
    · exact (hu.trans f3 (by simp)).weaken (fun _ h => h) (by simp)
    · intro x hx
      rcases List.mem_cons.mp hx with rfl | hx
      · exact .inr (Nat.le_refl _)
      · exact .inl (hsub x hx)
  have hzl : (zeroCells (newCap es.length * s.size)).length = newCap es.length * s.size := length_zeroCells _
  rcases slice_header h with ⟨rfl, rfl, _, rfl, hp⟩ | ⟨d, cs, B', rfl, rfl, hp, hm, hd, hd2, hrep⟩
  · simp only [growSliceF, hp, i1, i2, bind, Except.bind, hcapE, alloc, pure, Except.pure]
    refine finish _ (zeroCells (newCap 0 * s.size)) [] (alloc_upd m _ _ _) (alloc_get m _) ?_ (by simp) (by simp)
    refine repF_zeros (by simp) fun i _ hi => ?_
    simp only [zeroCells, List.getElem?_replicate]
    simp only [List.length_nil] at hi
    rw [if_pos (by omega)]
  · simp only [growSliceF, hp, i1, i2, bind, Except.bind, hcapE, alloc, assign]
    simp only [List.length_nil, Nat.add_zero, List.append_nil] at hrep
    have hb := repF_bound hd2 hrep
    obtain ⟨hna, hnB⟩ := List.nodup_cons.mp hn
    have hltd := hltB d.blk (by simp)
    -- the copy
    have hm1 : (m ++ [Obj.mem (zeroCells (newCap es.length * s.size))])[d.blk]? = some (.mem cs) := by
      rw [List.getElem?_append_left hltd]; exact hm
    have hload : load (m ++ [Obj.mem (zeroCells (newCap es.length * s.size))]) d (es.length * s.size) s.align =
        .ok ((cs.drop d.off).take (es.length * s.size)) := by
      simp only [load, hd, ne_eq, not_true, if_false, hm1, hb, if_true]
    rw [hload]
    simp only
    have hcl : ((cs.drop d.off).take (es.length * s.size)).length = es.length * s.size := by simp; omega
    obtain ⟨m1, g1, g2, g3, g4⟩ := store_ok (a := ⟨m.length, 0⟩) (al := s.align)
      (new := (cs.drop d.off).take (es.length * s.size)) (alloc_get m (.mem (zeroCells (newCap es.length * s.size))))
      (by rw [hcl]; simp; rw [hcapS]; omega) (by simp)
    rw [g1]
    simp only
    simp only at g2 g4
    have hu : Upd m m1 a.blk (region a.off 24) [] := by
      have : Upd m m1 m.length (fun _ => True) [] :=
        ((alloc_upd m _ m.length _).trans (g4.weaken (Q := fun _ => True) (fun _ _ => trivial) (fun _ h => h)) (by simp))
      refine ⟨this.len, fun x hx _ _ => this.same x hx (by omega) (by simp), this.ro, fun c hc => ⟨c, ?_, rfl, fun _ _ => rfl⟩⟩
      rw [this.same _ (lt_of_get hc) (by omega) (by simp)]; exact hc
    have hget : ∀ i, (splice (zeroCells (newCap es.length * s.size)) 0 ((cs.drop d.off).take (es.length * s.size)))[i]? =
        if i < es.length * s.size then cs[d.off + i]? else (zeroCells (newCap es.length * s.size))[i]? := by
      intro i
      rw [splice_get (by rw [hcl, hzl]; rw [hcapS]; omega), hcl]
      by_cases hi : i < es.length * s.size
      · rw [if_pos ⟨by omega, by omega⟩, if_pos hi, List.getElem?_take, if_pos (by omega), List.getElem?_drop]
        congr 1
      · rw [if_neg (by omega), if_neg hi]
    have hspl := splice_length (cs := zeroCells (newCap es.length * s.size)) (o := 0)
      (new := (cs.drop d.off).take (es.length * s.size)) (by rw [hcl, hzl]; rw [hcapS]; omega)
    refine finish m1 _ (B' ++ []) hu g2 ?_ (by simpa using (List.nodup_cons.mp hnB).2)
      (fun x hx => by simp at hx; simp [hx])
    have hsplit : elemSlots s 0 (newCap es.length) =
        elemSlots s 0 es.length ++ elemSlots s (0 + es.length * s.size) (newCap es.length - es.length) := by
      rw [← elemSlots_append]; congr 1; omega
    rw [hsplit]
    refine repF_append ?_ ?_
    · refine repF_move (cs := cs) (o := d.off) ?_ ?_ (by rw [hspl, hzl, hcapS]; omega)
      · exact repF_mem hu.ro hrep fun x hx => hu.same x (hltB x (by simp [hx])) (fun e => hna (by simp [← e, hx])) (by simp)
      · intro i hi
        rw [Nat.zero_add, hget, if_pos hi]
    · refine repF_zeros (by rw [hspl, hzl, hcapS]; omega) fun i h1 h2 => ?_
      rw [hget, if_neg (by omega)]
      simp only [zeroCells, List.getElem?_replicate]
      rw [if_pos (by rw [hcapS]; omega)]

/-- Decoding into the first slot beyond the length. -/
theorem slice_step {a s isNil es x sp B b dec decF q} (h : Slot lay m a (.slice s) (.slice isNil es (x :: sp)) B)
    (hn : (a.blk :: B).Nodup) (hc : Sim lay s dec decF) (hd : dec b x = .ok q) :
    ∃ d p m1 m', loadPtr m a = .ok d ∧ index d es.length (alignedSize s) = .ok p ∧ decF b m p = .ok ⟨m1, outOf q⟩ ∧
      match q with
      | .ok v _ => store m1 (a.add 8) (intCells (es.length + 1)) 8 = .ok m' ∧
          After lay m m' a (.slice s) (.slice isNil (es ++ [v]) sp) B
      | .err v _ => m' = m1 ∧ After lay m m' a (.slice s) (.slice isNil es (v :: sp)) B := by
  have ha8 := slot_aligned8 h rfl
  have hlta := slot_lt h
  have hltB := slot_blocks h
  rcases slice_header h with ⟨_, _, h1, _⟩ | ⟨d, cs, B1, rfl, rfl, hp, hm, hd1, hd2, hrep⟩
  · cases h1
  obtain ⟨hcs, k1, k2, k3⟩ := slice_cells h hp
  simp only [List.nodup_cons, List.mem_cons, not_or] at hn
  obtain ⟨⟨n1, n2⟩, n3, n4⟩ := hn
  -- the element
  obtain ⟨Bx, e1, e2, e3, e4, e5⟩ := repF_update (i := es.length) hrep (elemSlots_pairwise _ _ _) n4
    (elemSlots_get s _ d.off es.length (by simp)) (v := x) (by simp)
  have hslot : Slot lay m (d.add (es.length * alignedSize s)) s x Bx := by
    rw [alignedSize_eq]
    exact ⟨cs, hm, e2, elem_mod s hd1 es.length, e1⟩
  have hdx : d.blk ∉ Bx := fun hx => n3 (e3 _ hx)
  obtain ⟨m1, f1, Bx', f2, f3, f4, f5⟩ := hc b m _ x Bx q hslot (List.nodup_cons.mpr ⟨hdx, e4⟩) hd
  rw [alignedSize_eq] at f2 f3 f4
  simp only [Addr.add] at f2 f3 f4
  obtain ⟨cs1, c1, c2, c3⟩ := f4.here cs hm
  have hrep1 : Rep lay m1 s ((cs1.drop (d.off + es.length * s.size)).take s.size) (valOf q) Bx' := by
    obtain ⟨cs0, a1, _, _, a4⟩ := f2
    have : cs0 = cs1 := by
      have := a1.symm.trans c1
      cases this; rfl
    subst this
    exact a4
  obtain ⟨B2, b1, b2, b3⟩ := e5 f4.ro c2 c3 hrep1 (List.nodup_cons.mp f3).2 f5
    (fun y hy hyB => f4.same y (hltB y (by simp [hy])) (fun e => n3 (e ▸ hy)) hyB)
  have hset : (es ++ x :: sp).set es.length (valOf q) = es ++ valOf q :: sp := by
    rw [List.set_append_right _ _ (Nat.le_refl _)]
    simp
  rw [hset] at b1
  have hd2' : d.blk ∉ B2 := by
    intro hx
    rcases b3 _ hx with h | h
    · exact n3 h
    · have := hltB d.blk (by simp); omega
  have haB2 : a.blk ∉ B2 := by
    intro hx
    rcases b3 _ hx with h | h
    · exact n2 h
    · omega
  have hu1 : Upd m m1 a.blk (region a.off 24) (d.blk :: B1) :=
    f4.inner n1 (fun hx => n2 (e3 _ hx)) (by simp) fun y hy => by simp [e3 y hy]
  have ha1 : m1[a.blk]? = some (.mem hcs) := f4.get k1 n1 fun hx => n2 (e3 _ hx)
  have hnd : (a.blk :: d.blk :: B2).Nodup := by
    simp only [List.nodup_cons, List.mem_cons, not_or]
    exact ⟨⟨n1, haB2⟩, hd2', b2⟩
  have hsub : ∀ y ∈ d.blk :: B2, y ∈ d.blk :: B1 ∨ m.length ≤ y := by
    intro y hy
    rcases List.mem_cons.mp hy with rfl | hy
    · exact .inl (by simp)
    · rcases b3 y hy with h | h
      · exact .inl (by simp [h])
      · exact .inr h
  have hsl : ∀ n, (es ++ [n]).length + sp.length = es.length + (x :: sp).length := by intro n; simp; omega
  refine ⟨some d, d.add (es.length * alignedSize s), m1, ?_⟩
  cases q with
  | err v e =>
    refine ⟨m1, hp, rfl, f1, rfl, d.blk :: B2, ⟨hcs, ha1, k2, ?_, ?_⟩, hnd, hu1, hsub⟩
    · simpa [Shape.align] using ha8
    · show Rep lay m1 (.slice s) ((hcs.drop a.off).take 24) _ _
      rw [k3]
      exact .slice s d cs1 es (v :: sp) B2 c1 hd1 (by omega) b1
  | ok v n =>
    simp only [valOf] at b1
    obtain ⟨m2, g1, g2, g3, g4⟩ := store_ok (a := a.add 8) (new := intCells (es.length + 1)) (al := 8) ha1
      (by simp [Addr.add]; omega) (by simp only [Addr.add]; omega)
    refine ⟨m2, hp, rfl, f1, g1, d.blk :: B2, ⟨_, g2, ?_, ?_, ?_⟩, hnd, ?_, hsub⟩
    · rw [splice_length (by simp [Addr.add]; omega)]; exact k2
    · simpa [Shape.align] using ha8
    · have hcell : ((splice hcs (a.add 8).off (intCells (es.length + 1))).drop a.off).take 24 =
          sliceCells (some d) (es ++ [v]).length ((es ++ [v]).length + sp.length) := by
        have hpre : ptrCells (some d) = (hcs.drop a.off).take 8 := by
          have : ((hcs.drop a.off).take 24).take 8 = ptrCells (some d) := by
            rw [k3, sliceCells]; exact List.take_left' (by simp)
          rw [← this, List.take_take]; rfl
        have hpost : intCells (es.length + (x :: sp).length) = (hcs.drop (a.off + 16)).take 8 := by
          have : ((hcs.drop a.off).take 24).drop 16 = intCells (es.length + (x :: sp).length) := by
            rw [k3, sliceCells, ← List.append_assoc]; exact List.drop_left' (by simp)
          rw [← this, List.drop_take, List.drop_drop]
        rw [hsl, sliceCells, hpre, hpost]
        apply List.ext_getElem?
        intro i
        rw [List.getElem?_take, List.getElem?_drop, splice_get (by simp [Addr.add]; omega)]
        simp only [Addr.add, length_intCells]
        rcases Nat.lt_or_ge i 8 with hi | hi
        · rw [if_pos (by omega), if_neg (by omega), List.getElem?_append_left (by simp; omega), List.getElem?_take, if_pos hi,
            List.getElem?_drop]
        · rw [List.getElem?_append_right (by simp; omega)]
          have hl8 : ((hcs.drop a.off).take 8).length = 8 := by simp; omega
          rw [hl8]
          rcases Nat.lt_or_ge i 16 with hj | hj
          · rw [if_pos (by omega), if_pos (by omega), List.getElem?_append_left (by simp; omega)]
            simp only [List.length_append, List.length_cons, List.length_nil]
            congr 1
            omega
          · rw [List.getElem?_append_right (by simp; omega), List.getElem?_take, List.getElem?_drop]
            simp only [length_intCells]
            rcases Nat.lt_or_ge i 24 with hk | hk
            · rw [if_pos hk, if_neg (by omega), if_pos (by omega)]
              congr 1; omega
            · rw [if_neg (by omega), if_neg (by omega)]
      show Rep lay m2 (.slice s) (((splice hcs (a.add 8).off (intCells (es.length + 1))).drop a.off).take 24) _ _
      rw [hcell]
      have hlt2 := repF_lt b1
      simp only [Addr.add] at g4
      refine .slice s d cs1 (es ++ [v]) sp B2 (g4.get c1 (fun e => n1 e.symm) (by simp)) hd1 (by omega) ?_
      rw [hsl, List.append_assoc, List.singleton_append]
      exact repF_mem g4.ro b1 fun y hy => g4.same y (hlt2 y hy) (fun e => haB2 (e ▸ hy)) (by simp)
    · refine hu1.trans (g4.weaken (fun i hi => ?_) (fun y hy => hy)) (by simp)
      unfold region at *; simp [Addr.add] at hi; omega

theorem sim_slice {c : Codec} {zeros rec recF z msgSize} {grow : Nat → Nat → Nat}
    (hc : Sim lay c.shape (codecDecode zeros rec c) (codecDecodeF grow msgSize recF c)) (hz : z = c.shape.zero) :
    Sim lay (.slice c.shape) (codecDecode zeros rec (.slice z c)) (codecDecodeF grow msgSize recF (.slice z c)) := by
  subst hz
  intro b m a v B r h hn hr
  obtain ⟨isNil, es, sp, _, rfl, _⟩ := slot_slice h
  obtain ⟨i1, i2⟩ := slice_ints h
  simp only [codecDecode, bind, Except.bind] at hr
  simp only [codecDecodeF, i1, i2, bind, Except.bind]
  -- the part after the growth
  have main : ∀ m1 isNil' slot sp' B1, Slot lay m1 a (.slice c.shape) (.slice isNil' es (slot :: sp')) B1 →
      (a.blk :: B1).Nodup → Upd m m1 a.blk (region a.off 24) B → (∀ x ∈ B1, x ∈ B ∨ m.length ≤ x) →
      (match codecDecode zeros rec c b slot with
        | .error e => .error e
        | .ok (.ok v n) => .ok (.ok (.slice isNil' (es ++ [v]) sp') n)
        | .ok (.err v e) => .ok (.err (.slice isNil' es (v :: sp')) e) : Except Fault DRes) = .ok r →
      ∃ m', (do
        let d ← loadPtr m1 a
        match ← codecDecodeF grow msgSize recF c b m1 (← index d es.length (alignedSize c.shape)) with
        | ⟨m, .ok n⟩ => return ⟨← store m (a.add 8) (intCells (es.length + 1)) 8, .ok n⟩
        | ⟨m, .error e⟩ => return ⟨m, .error e⟩ : Except Fault Res) = .ok ⟨m', outOf r⟩ ∧
        After lay m m' a (.slice c.shape) (valOf r) B := by
    intro m1 isNil' slot sp' B1 hs hn1 hu hsub hr
    rcases hd : codecDecode zeros rec c b slot with e | q <;> rw [hd] at hr
    · cases hr
    obtain ⟨d, p, m2, m', g1, g2, g3, g4⟩ := slice_step hs hn1 hc hd
    simp only [g1, g2, g3, bind, Except.bind]
    cases q with
    | ok v n =>
      cases hr
      simp only at g4
      refine ⟨m', ?_, After.trans hu hsub g4.2⟩
      simp only [outOf, g4.1]; rfl
    | err v e =>
      cases hr
      simp only at g4
      obtain ⟨rfl, g4⟩ := g4
      exact ⟨m', rfl, After.trans hu hsub g4⟩
  cases sp with
  | nil =>
    simp only [List.length_nil, Nat.add_zero, if_true]
    obtain ⟨m1, g1, B1, g2, g3, g4, g5⟩ := growSlice_ok h hn
    rw [g1]
    rcases hgr : growIfFull c.shape.zero es [] with _ | ⟨slot, sp'⟩
    · rw [hgr] at hr; cases hr
    · rw [hgr] at hr g2
      refine main m1 false slot sp' B1 g2 g3 g4 g5 ?_
      simp only [if_true] at hr
      rcases hd : codecDecode zeros rec c b slot with e | q <;> rw [hd] at hr
      · cases hr
      · cases q <;> exact hr
  | cons slot sp' =>
    have hne : ¬ (es.length = es.length + (slot :: sp').length) := by simp
    rw [if_neg hne]
    refine main m isNil slot sp' B h hn (Upd.refl _ _ _ _) (fun _ hx => .inl hx) ?_
    simp only [growIfFull] at hr
    rcases hd : codecDecode zeros rec c b slot with e | q
    · simp [hd] at hr
    · simp only [reduceCtorEq, if_false, hd] at hr
      cases q <;> exact hr

end Pb.Flat
