import Verif.Proofs.ConcInv
import Verif.Proofs.FlatFrame
/-
Values in memory, under a renaming of the allocations.
-/
namespace Pb.Flat

theorem cells_eq_slice {H : Ren} {d : Addr} {n c : Nat} {cs' : List Cell} (h : CellsRel H (sliceCells (some d) n c) cs') :
    ∃ d', cs' = sliceCells (some d') n c ∧ HAddr H d d' := by
  obtain ⟨xs, ys, rfl, h1, h2⟩ := cells_eq_append h
  obtain ⟨us, vs, rfl, h3, h4⟩ := cells_eq_append h2
  obtain ⟨d', rfl, hd⟩ := cells_eq_ptr h1
  rw [cells_eq_int h3, cells_eq_int h4]
  exact ⟨d', rfl, hd⟩
where
  cells_eq_append {H : Ren} {xs ys : List Cell} {cs' : List Cell} (h : CellsRel H (xs ++ ys) cs') :
      ∃ xs' ys', cs' = xs' ++ ys' ∧ CellsRel H xs xs' ∧ CellsRel H ys ys' := by
    induction xs generalizing cs' with
    | nil => exact ⟨[], cs', rfl, .nil, h⟩
    | cons x xs ih =>
      cases h with
      | cons _ y _ zs h1 h2 =>
        obtain ⟨xs', ys', rfl, h3, h4⟩ := ih h2
        exact ⟨y :: xs', ys', rfl, .cons _ _ _ _ h1 h3, h4⟩

section
variable {lay : Lay} {ms m : Mem} {H : Ren}

/-- The allocations of a value that are not text. -/
abbrev BlksRel (H : Ren) : List Nat → List Nat → Prop := All2 fun b b' => H b = some b'

mutual
theorem rep_ren (hobj : ∀ b b' o, H b = some b' → ms[b]? = some o → o ≠ .ro [] → ∃ o', m[b']? = some o' ∧ ObjRel H o o') :
    ∀ {s : Shape} {cs : List Cell} {v : Val} {B : List Nat}, Rep lay ms s cs v B → ∀ cs', CellsRel H cs cs' →
      ∃ B', BlksRel H B B' ∧ Rep lay m s cs' v B'
  | _, _, _, _, .b8 x, cs', h => by
    have : cs' = boolCells x := cells_eq_bytes (bs := [_]) h
    subst this
    exact ⟨[], .nil, .b8 x⟩
  | _, _, _, _, .w32 x, cs', h => by
    rw [cells_eq_bytes h]
    exact ⟨[], .nil, .w32 x⟩
  | _, _, _, _, .w64 x, cs', h => by
    rw [cells_eq_bytes h]
    exact ⟨[], .nil, .w64 x⟩
  | _, _, _, _, .strNil d, cs', h => by
    obtain ⟨xs, ys, rfl, h1, h2⟩ := cells_eq_slice.cells_eq_append h
    rw [cells_eq_int h2]
    cases d with
    | none => rw [cells_eq_zero h1]; exact ⟨[], .nil, .strNil none⟩
    | some d =>
      obtain ⟨d', rfl, hd⟩ := cells_eq_ptr h1
      exact ⟨[], .nil, .strNil (some d')⟩
  | _, _, _, _, .str d bs s hm hs hn, cs', h => by
    obtain ⟨xs, ys, rfl, h1, h2⟩ := cells_eq_slice.cells_eq_append h
    rw [cells_eq_int h2]
    obtain ⟨d', rfl, hd⟩ := cells_eq_ptr h1
    have hne : Obj.ro bs ≠ .ro [] := by
      intro he; cases he
      simp at hs; exact hn hs
    obtain ⟨o', h3, h4⟩ := hobj _ _ _ hd.1 hm hne
    cases o' <;> simp only [ObjRel] at h4
    subst h4
    exact ⟨[], .nil, .str d' bs s h3 (by rw [← hd.2]; exact hs) hn⟩
  | _, _, _, _, .bytesNil, cs', h => by
    have e : sliceCells none 0 0 = zeroCells 24 := rfl
    rw [e] at h
    rw [cells_eq_zero h]
    exact ⟨[], .nil, .bytesNil⟩
  | _, _, _, _, .bytes d cap cs s hm h1 h2 h3, cs', h => by
    obtain ⟨d', rfl, hd⟩ := cells_eq_slice h
    obtain ⟨o', h4, h5⟩ := hobj _ _ _ hd.1 hm (by simp)
    cases o' <;> simp only [ObjRel] at h5
    rename_i ds
    refine ⟨[d'.blk], .cons _ _ _ _ hd.1 .nil, .bytes d' cap ds s h4 (by rw [← hd.2, ← h5.length]; exact h1) h2 ?_⟩
    have := (h5.drop d.off).take s.length
    rw [h3] at this
    rw [← hd.2]
    exact cells_eq_bytes this
  | _, _, _, _, .opt s cs x v B h1 h2 h3, cs', h => by
    obtain ⟨B', hB, hr⟩ := rep_ren hobj h3 _ ((h.drop _).take _)
    refine ⟨B', hB, .opt s cs' x v B' (by rw [← h.length]; exact h1) ?_ hr⟩
    have := h.take 1
    rw [h2] at this
    exact cells_eq_bytes (bs := [_]) this
  | _, _, _, _, .ptrNil s, cs', h => by
    rw [cells_eq_zero (n := 8) h]
    exact ⟨[], .nil, .ptrNil s⟩
  | _, _, _, _, .ptr s b cs v B hm hr, cs', h => by
    obtain ⟨⟨b', o'⟩, rfl, h1, h2⟩ := cells_eq_ptr h
    simp only at h1 h2
    subst h2
    obtain ⟨o', h4, h5⟩ := hobj _ _ _ h1 hm (by simp)
    cases o' <;> simp only [ObjRel] at h5
    obtain ⟨B', hB, hr'⟩ := rep_ren hobj hr _ h5
    exact ⟨b' :: B', .cons _ _ _ _ h1 hB, .ptr s b' _ v B' h4 hr'⟩
  | _, _, _, _, .msgNil t, cs', h => by
    rw [cells_eq_zero (n := 8) h]
    exact ⟨[], .nil, .msgNil t⟩
  | _, _, _, _, .msg t b cs vs B hm hl hr, cs', h => by
    obtain ⟨⟨b', o'⟩, rfl, h1, h2⟩ := cells_eq_ptr h
    simp only at h1 h2
    subst h2
    obtain ⟨o', h4, h5⟩ := hobj _ _ _ h1 hm (by simp)
    cases o' <;> simp only [ObjRel] at h5
    obtain ⟨B', hB, hr'⟩ := repF_ren hobj hr _ h5
    exact ⟨b' :: B', .cons _ _ _ _ h1 hB, .msg t b' _ vs B' h4 (by rw [← h5.length]; exact hl) hr'⟩
  | _, _, _, _, .sliceNil s, cs', h => by
    have e : sliceCells none 0 0 = zeroCells 24 := rfl
    rw [e] at h
    rw [cells_eq_zero h]
    exact ⟨[], .nil, .sliceNil s⟩
  | _, _, _, _, .slice s d cs es spare B hm h1 h2 hr, cs', h => by
    obtain ⟨d', rfl, hd⟩ := cells_eq_slice h
    obtain ⟨o', h4, h5⟩ := hobj _ _ _ hd.1 hm (by simp)
    cases o' <;> simp only [ObjRel] at h5
    obtain ⟨B', hB, hr'⟩ := repF_ren hobj hr _ h5
    exact ⟨d'.blk :: B', .cons _ _ _ _ hd.1 hB,
      .slice s d' _ es spare B' h4 (by rw [← hd.2]; exact h1) (by rw [← hd.2, ← h5.length]; exact h2) (by rw [← hd.2]; exact hr')⟩
  | _, _, _, _, .mapNil k v, cs', h => by
    rw [cells_eq_zero (n := 8) h]
    exact ⟨[], .nil, .mapNil k v⟩
  | _, _, _, _, .map k v b es kvs B hm hr, cs', h => by
    obtain ⟨⟨b', o'⟩, rfl, h1, h2⟩ := cells_eq_ptr h
    simp only at h1 h2
    subst h2
    obtain ⟨o', h4, h5⟩ := hobj _ _ _ h1 hm (by simp)
    cases o' <;> simp only [ObjRel] at h5
    obtain ⟨B', hB, hr'⟩ := repM_ren hobj hr _ h5
    exact ⟨b' :: B', .cons _ _ _ _ h1 hB, .map k v b' _ kvs B' h4 hr'⟩
  | _, _, _, _, .opaque v, cs', h => by
    cases h
    exact ⟨[], .nil, .opaque v⟩
theorem repF_ren (hobj : ∀ b b' o, H b = some b' → ms[b]? = some o → o ≠ .ro [] → ∃ o', m[b']? = some o' ∧ ObjRel H o o') :
    ∀ {slots : List (Nat × Shape)} {cs : List Cell} {vs : List Val} {B : List Nat}, RepF lay ms slots cs vs B →
      ∀ cs', CellsRel H cs cs' → ∃ B', BlksRel H B B' ∧ RepF lay m slots cs' vs B'
  | _, _, _, _, .nil cs, cs', h => ⟨[], .nil, .nil cs'⟩
  | _, _, _, _, .cons o s slots cs v vs B1 B2 hl hr hf, cs', h => by
    obtain ⟨B1', h1, h2⟩ := rep_ren hobj hr _ ((h.drop o).take s.size)
    obtain ⟨B2', h3, h4⟩ := repF_ren hobj hf _ h
    exact ⟨B1' ++ B2', h1.append h3, .cons o s slots cs' v vs B1' B2' (by rw [← h.length]; exact hl) h2 h4⟩
theorem repM_ren (hobj : ∀ b b' o, H b = some b' → ms[b]? = some o → o ≠ .ro [] → ∃ o', m[b']? = some o' ∧ ObjRel H o o') :
    ∀ {k v : Shape} {es : List (Nat × Nat)} {kvs : List (Key × Val)} {B : List Nat}, RepM lay ms k v es kvs B →
      ∀ es', All2 (EntryRel H) es es' → ∃ B', BlksRel H B B' ∧ RepM lay m k v es' kvs B'
  | _, _, _, _, _, .nil k v, es', h => by cases h; exact ⟨[], .nil, .nil k v⟩
  | _, _, _, _, _, .cons k v kb vb kcs vcs key x es kvs B1 B2 hk hkr hv hvr hr, es', h => by
    cases h with
    | cons _ e' _ es' he h =>
      obtain ⟨kb', vb'⟩ := e'
      obtain ⟨ek, ev⟩ := he
      simp only at ek ev
      obtain ⟨o1, h1, h2⟩ := hobj _ _ _ ek hk (by simp)
      obtain ⟨o2, h3, h4⟩ := hobj _ _ _ ev hv (by simp)
      cases o1 <;> simp only [ObjRel] at h2
      cases o2 <;> simp only [ObjRel] at h4
      obtain ⟨B0, e0, r0⟩ := rep_ren hobj hkr _ h2
      cases e0
      obtain ⟨B1', e1, r1⟩ := rep_ren hobj hvr _ h4
      obtain ⟨B2', e2, r2⟩ := repM_ren hobj hr _ h
      exact ⟨kb' :: vb' :: (B1' ++ B2'), .cons _ _ _ _ ek (.cons _ _ _ _ ev (e1.append e2)),
        .cons k v kb' vb' _ _ key x es' kvs B1' B2' h1 r0 h3 r1 r2⟩
end

mutual
theorem rep_live : ∀ {s : Shape} {cs : List Cell} {v : Val} {B : List Nat}, Rep lay m s cs v B → ∀ x ∈ B, ∃ o, m[x]? = some o ∧ o.live
  | _, _, _, _, .b8 _, x, hx => by cases hx
  | _, _, _, _, .w32 _, x, hx => by cases hx
  | _, _, _, _, .w64 _, x, hx => by cases hx
  | _, _, _, _, .strNil _, x, hx => by cases hx
  | _, _, _, _, .str _ _ _ _ _ _, x, hx => by cases hx
  | _, _, _, _, .bytesNil, x, hx => by cases hx
  | _, _, _, _, .bytes d cap cs s hm _ _ _, x, hx => by
    rw [List.mem_singleton] at hx; subst hx
    exact ⟨_, hm, trivial⟩
  | _, _, _, _, .opt s cs y v B _ _ h, x, hx => rep_live h x hx
  | _, _, _, _, .ptrNil _, x, hx => by cases hx
  | _, _, _, _, .ptr s b cs v B hm h, x, hx => by
    rcases List.mem_cons.mp hx with rfl | hx
    · exact ⟨_, hm, trivial⟩
    · exact rep_live h x hx
  | _, _, _, _, .msgNil _, x, hx => by cases hx
  | _, _, _, _, .msg t b cs vs B hm _ h, x, hx => by
    rcases List.mem_cons.mp hx with rfl | hx
    · exact ⟨_, hm, trivial⟩
    · exact repF_live h x hx
  | _, _, _, _, .sliceNil _, x, hx => by cases hx
  | _, _, _, _, .slice s d cs es spare B hm _ _ h, x, hx => by
    rcases List.mem_cons.mp hx with rfl | hx
    · exact ⟨_, hm, trivial⟩
    · exact repF_live h x hx
  | _, _, _, _, .mapNil _ _, x, hx => by cases hx
  | _, _, _, _, .map k v b es kvs B hm h, x, hx => by
    rcases List.mem_cons.mp hx with rfl | hx
    · exact ⟨_, hm, trivial⟩
    · exact repM_live h x hx
  | _, _, _, _, .opaque _, x, hx => by cases hx
theorem repF_live : ∀ {slots : List (Nat × Shape)} {cs : List Cell} {vs : List Val} {B : List Nat}, RepF lay m slots cs vs B →
    ∀ x ∈ B, ∃ o, m[x]? = some o ∧ o.live
  | _, _, _, _, .nil cs, x, hx => by cases hx
  | _, _, _, _, .cons o s slots cs v vs B1 B2 hl hr hf, x, hx => by
    rcases List.mem_append.mp hx with hx | hx
    · exact rep_live hr x hx
    · exact repF_live hf x hx
theorem repM_live : ∀ {k v : Shape} {es : List (Nat × Nat)} {kvs : List (Key × Val)} {B : List Nat}, RepM lay m k v es kvs B →
    ∀ x ∈ B, ∃ o, m[x]? = some o ∧ o.live
  | _, _, _, _, _, .nil k v, x, hx => by cases hx
  | _, _, _, _, _, .cons k v kb vb kcs vcs key y es kvs B1 B2 hk hkr hv hvr hr, x, hx => by
    rcases List.mem_cons.mp hx with rfl | hx
    · exact ⟨_, hk, trivial⟩
    rcases List.mem_cons.mp hx with rfl | hx
    · exact ⟨_, hv, trivial⟩
    rcases List.mem_append.mp hx with hx | hx
    · exact rep_live hvr x hx
    · exact repM_live hr x hx
end

theorem blks_nodup (hinj : ∀ b1 b2 b', H b1 = some b' → H b2 = some b' → b1 = b2) {B B' : List Nat} (h : BlksRel H B B')
    (hn : B.Nodup) : B'.Nodup := by
  induction h with
  | nil => exact hn
  | cons b b' B B' hb hB ih =>
    rw [List.nodup_cons] at hn ⊢
    refine ⟨fun hm => ?_, ih hn.2⟩
    obtain ⟨x, hx, he⟩ := hB.mem_right hm
    exact hn.1 (hinj _ _ _ he hb ▸ hx)

/-- A value that is all in memory given to a call, as the call sees it. -/
theorem repF_view {given : List Nat} {slots cs vs B} (h : RepF lay m slots cs vs B) (hB : ∀ x ∈ B, x ∈ given) :
    RepF lay (view m given) slots cs vs B := by
  refine repF_mem ?_ h ?_
  · intro x s hx
    rw [view_get, hx]; rfl
  · intro x hx
    rw [view_get]
    cases m[x]? with
    | none => rfl
    | some o => cases o <;> simp [hB x hx]

theorem view_mem {given : List Nat} {b : Nat} {cs : List Cell} (h : m[b]? = some (.mem cs)) (hb : b ∈ given) :
    (view m given)[b]? = some (.mem cs) := by
  rw [view_get, h]; simp [hb]

end

end Pb.Flat
