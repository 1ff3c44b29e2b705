import Verif.Proofs.FlatRead
/-
Memory before and after a write (helper lemmas for `Props/Flat.lean`).
-/
namespace Pb.Flat

variable {lay : Lay} {m m' : Mem}

/-- From `m` to `m'` only these have changed: cells `P` of allocation `b`, and the allocations `B`. -/
structure Upd (m m' : Mem) (b : Nat) (P : Nat → Prop) (B : List Nat) : Prop where
  len : m.length ≤ m'.length
  same : ∀ x, x < m.length → x ≠ b → x ∉ B → m'[x]? = m[x]?
  ro : ∀ (x : Nat) s, m[x]? = some (.ro s) → m'[x]? = some (.ro s)
  here : ∀ cs, m[b]? = some (.mem cs) → ∃ cs', m'[b]? = some (.mem cs') ∧ cs'.length = cs.length ∧
    ∀ i, ¬ P i → cs'[i]? = cs[i]?

/-- The cells of a slot. -/
def region (o n : Nat) : Nat → Prop := fun i => o ≤ i ∧ i < o + n

theorem lt_of_get {m : Mem} {x : Nat} {o : Obj} (h : m[x]? = some o) : x < m.length := by
  rcases Nat.lt_or_ge x m.length with h1 | h1
  · exact h1
  · rw [List.getElem?_eq_none h1] at h; cases h

theorem Upd.refl (m : Mem) (b : Nat) (P : Nat → Prop) (B : List Nat) : Upd m m b P B :=
  ⟨Nat.le_refl _, fun _ _ _ _ => rfl, fun _ _ h => h, fun cs h => ⟨cs, h, rfl, fun _ _ => rfl⟩⟩

theorem Upd.weaken {b P Q B C} (h : Upd m m' b P B) (hP : ∀ i, P i → Q i) (hB : ∀ x ∈ B, x ∈ C) : Upd m m' b Q C :=
  ⟨h.len, fun x h1 h2 h3 => h.same x h1 h2 (fun h => h3 (hB x h)), h.ro, fun cs hc => by
    obtain ⟨cs', h1, h2, h3⟩ := h.here cs hc
    exact ⟨cs', h1, h2, fun i hi => h3 i (fun hp => hi (hP i hp))⟩⟩

theorem Upd.trans {m1 m2 m3 : Mem} {b P B C} (h1 : Upd m1 m2 b P B) (h2 : Upd m2 m3 b P C)
    (hC : ∀ x ∈ C, x ∈ B ∨ m1.length ≤ x) : Upd m1 m3 b P B := by
  refine ⟨Nat.le_trans h1.len h2.len, ?_, fun x s h => h2.ro x s (h1.ro x s h), ?_⟩
  · intro x hx hb hB
    rw [h2.same x (Nat.lt_of_lt_of_le hx h1.len) hb (fun h => by
      rcases hC x h with h | h
      · exact hB h
      · omega), h1.same x hx hb hB]
  · intro cs hc
    obtain ⟨c2, e1, e2, e3⟩ := h1.here cs hc
    obtain ⟨c3, f1, f2, f3⟩ := h2.here c2 e1
    exact ⟨c3, f1, f2.trans e2, fun i hi => (f3 i hi).trans (e3 i hi)⟩

/-- A change of an allocation reached from `a`. -/
theorem Upd.inner {a b : Nat} {P Q : Nat → Prop} {B C} (h : Upd m m' b P B) (ha : a ≠ b) (haB : a ∉ B) (hb : b ∈ C)
    (hBC : ∀ x ∈ B, x ∈ C) : Upd m m' a Q C := by
  refine ⟨h.len, ?_, h.ro, ?_⟩
  · intro x hx _ hC
    exact h.same x hx (fun e => hC (e ▸ hb)) (fun h => hC (hBC x h))
  · intro cs hc
    refine ⟨cs, ?_, rfl, fun _ _ => rfl⟩
    rw [h.same a (lt_of_get hc) ha haB]; exact hc

theorem Upd.get {b P B} {x : Nat} {o : Obj} (h : Upd m m' b P B) (hx : m[x]? = some o) (hb : x ≠ b) (hB : x ∉ B) : m'[x]? = some o := by
  rw [h.same x (lt_of_get hx) hb hB]; exact hx

/-! ### Frames -/

mutual
theorem rep_frame (hro : ∀ (x : Nat) s, m[x]? = some (.ro s) → m'[x]? = some (.ro s)) :
    ∀ {s cs v B}, Rep lay m s cs v B → (∀ x ∈ B, m'[x]? = m[x]?) → Rep lay m' s cs v B
  | _, _, _, _, .b8 x, _ => .b8 x
  | _, _, _, _, .w32 x, _ => .w32 x
  | _, _, _, _, .w64 x, _ => .w64 x
  | _, _, _, _, .strNil d, _ => .strNil d
  | _, _, _, _, .str d bs s h1 h2 h3, _ => .str d bs s (hro _ _ h1) h2 h3
  | _, _, _, _, .bytesNil, _ => .bytesNil
  | _, _, _, _, .bytes d cap cs s h1 h2 h3 h4, h => .bytes d cap cs s (by rw [h _ (by simp)]; exact h1) h2 h3 h4
  | _, _, _, _, .opt s cs x v B h1 h2 h3, h => .opt s cs x v B h1 h2 (rep_frame hro h3 h)
  | _, _, _, _, .ptrNil s, _ => .ptrNil s
  | _, _, _, _, .ptr s b cs v B h1 h2, h =>
    .ptr s b cs v B (by rw [h _ (by simp)]; exact h1) (rep_frame hro h2 fun x hx => h x (by simp [hx]))
  | _, _, _, _, .msgNil t, _ => .msgNil t
  | _, _, _, _, .msg t b cs vs B h1 h2 h3, h =>
    .msg t b cs vs B (by rw [h _ (by simp)]; exact h1) h2 (repF_mem hro h3 fun x hx => h x (by simp [hx]))
  | _, _, _, _, .sliceNil s, _ => .sliceNil s
  | _, _, _, _, .slice s d cs es sp B h1 h2 h4 h3, h =>
    .slice s d cs es sp B (by rw [h _ (by simp)]; exact h1) h2 h4 (repF_mem hro h3 fun x hx => h x (by simp [hx]))
  | _, _, _, _, .mapNil k v, _ => .mapNil k v
  | _, _, _, _, .map k v b es kvs B h1 h2, h =>
    .map k v b es kvs B (by rw [h _ (by simp)]; exact h1) (repM_frame hro h2 fun x hx => h x (by simp [hx]))
  | _, _, _, _, .opaque n, _ => .opaque n
theorem repF_mem (hro : ∀ (x : Nat) s, m[x]? = some (.ro s) → m'[x]? = some (.ro s)) :
    ∀ {slots cs vs B}, RepF lay m slots cs vs B → (∀ x ∈ B, m'[x]? = m[x]?) → RepF lay m' slots cs vs B
  | _, _, _, _, .nil cs, _ => .nil cs
  | _, _, _, _, .cons o s slots cs v vs B B' h1 h2 h3, h =>
    .cons o s slots cs v vs B B' h1 (rep_frame hro h2 fun x hx => h x (by simp [hx]))
      (repF_mem hro h3 fun x hx => h x (by simp [hx]))
theorem repM_frame (hro : ∀ (x : Nat) s, m[x]? = some (.ro s) → m'[x]? = some (.ro s)) :
    ∀ {k v es kvs B}, RepM lay m k v es kvs B → (∀ x ∈ B, m'[x]? = m[x]?) → RepM lay m' k v es kvs B
  | _, _, _, _, _, .nil k v, _ => .nil k v
  | _, _, _, _, _, .cons k v kb vb kcs vcs key x es kvs B B' h1 h2 h3 h4 h5, h =>
    .cons k v kb vb kcs vcs key x es kvs B B' (by rw [h _ (by simp)]; exact h1) (rep_frame hro h2 (by simp))
      (by rw [h _ (by simp)]; exact h3) (rep_frame hro h4 fun x hx => h x (by simp [hx]))
      (repM_frame hro h5 fun x hx => h x (by simp [hx]))
end

mutual
theorem rep_lt : ∀ {s cs v B}, Rep lay m s cs v B → ∀ x ∈ B, x < m.length
  | _, _, _, _, .b8 x => by simp
  | _, _, _, _, .w32 x => by simp
  | _, _, _, _, .w64 x => by simp
  | _, _, _, _, .strNil d => by simp
  | _, _, _, _, .str d bs s h1 h2 h3 => by simp
  | _, _, _, _, .bytesNil => by simp
  | _, _, _, _, .bytes d cap cs s h1 h2 h3 h4 => by simpa using lt_of_get h1
  | _, _, _, _, .opt s cs x v B h1 h2 h3 => rep_lt h3
  | _, _, _, _, .ptrNil s => by simp
  | _, _, _, _, .ptr s b cs v B h1 h2 => by
    have := rep_lt h2
    simpa using ⟨lt_of_get h1, this⟩
  | _, _, _, _, .msgNil t => by simp
  | _, _, _, _, .msg t b cs vs B h1 h2 h3 => by
    have := repF_lt h3
    simpa using ⟨lt_of_get h1, this⟩
  | _, _, _, _, .sliceNil s => by simp
  | _, _, _, _, .slice s d cs es sp B h1 h2 _ h3 => by
    have := repF_lt h3
    simpa using ⟨lt_of_get h1, this⟩
  | _, _, _, _, .mapNil k v => by simp
  | _, _, _, _, .map k v b es kvs B h1 h2 => by
    have := repM_lt h2
    simpa using ⟨lt_of_get h1, this⟩
  | _, _, _, _, .opaque n => by simp
theorem repF_lt : ∀ {slots cs vs B}, RepF lay m slots cs vs B → ∀ x ∈ B, x < m.length
  | _, _, _, _, .nil cs => by simp
  | _, _, _, _, .cons o s slots cs v vs B B' h1 h2 h3 => by
    have i1 := rep_lt h2
    have i2 := repF_lt h3
    intro x hx
    rcases List.mem_append.mp hx with hx | hx
    · exact i1 x hx
    · exact i2 x hx
theorem repM_lt : ∀ {k v es kvs B}, RepM lay m k v es kvs B → ∀ x ∈ B, x < m.length
  | _, _, _, _, _, .nil k v => by simp
  | _, _, _, _, _, .cons k v kb vb kcs vcs key x es kvs B B' h1 h2 h3 h4 h5 => by
    have i1 := rep_lt h4
    have i2 := repM_lt h5
    intro x hx
    simp at hx
    rcases hx with rfl | rfl | hx | hx
    · exact lt_of_get h1
    · exact lt_of_get h3
    · exact i1 x hx
    · exact i2 x hx
end

/-- Cells outside of a changed place. -/
theorem cells_apart {cs cs' : List Cell} {P : Nat → Prop} (h : ∀ i, ¬ P i → cs'[i]? = cs[i]?) {o n : Nat}
    (ho : ∀ i, o ≤ i → i < o + n → ¬ P i) : (cs'.drop o).take n = (cs.drop o).take n := by
  apply List.ext_getElem?
  intro i
  rw [List.getElem?_take, List.getElem?_take]
  split
  · rw [List.getElem?_drop, List.getElem?_drop, h _ (ho _ (by omega) (by omega))]
  · rfl

/-- Fields elsewhere. -/
theorem repF_frame (hro : ∀ (x : Nat) s, m[x]? = some (.ro s) → m'[x]? = some (.ro s)) {slots cs cs' vs B}
    (h : RepF lay m slots cs vs B) (hB : ∀ x ∈ B, m'[x]? = m[x]?) (hl : cs'.length = cs.length)
    (hs : ∀ p ∈ slots, (cs'.drop p.1).take p.2.size = (cs.drop p.1).take p.2.size) : RepF lay m' slots cs' vs B := by
  induction slots generalizing vs B with
  | nil => cases h; exact .nil _
  | cons p slots ih =>
    cases h with
    | cons o s _ _ v vs B B' h1 h2 h3 =>
      refine .cons o s slots cs' v vs B B' (by omega) ?_ (ih h3 (fun x hx => hB x (by simp [hx])) fun q hq => hs q (by simp [hq]))
      have := hs (o, s) (by simp)
      simp only at this
      rw [this]
      exact rep_frame hro h2 fun x hx => hB x (by simp [hx])

/-- Fields of which one changes. -/
theorem repF_update {slots cs vs B} (h : RepF lay m slots cs vs B)
    (hp : slots.Pairwise fun a b => a.1 + a.2.size ≤ b.1) (hnd : B.Nodup) : ∀ {i : Nat} {o : Nat} {s : Shape} {v : Val},
    slots[i]? = some (o, s) → vs[i]? = some v → ∃ Bx, Rep lay m s ((cs.drop o).take s.size) v Bx ∧ o + s.size ≤ cs.length ∧
      (∀ x ∈ Bx, x ∈ B) ∧ Bx.Nodup ∧
      ∀ {m' cs' v' Bx'}, (∀ (x : Nat) s, m[x]? = some (.ro s) → m'[x]? = some (.ro s)) → cs'.length = cs.length →
        (∀ i, ¬ region o s.size i → cs'[i]? = cs[i]?) → Rep lay m' s ((cs'.drop o).take s.size) v' Bx' → Bx'.Nodup →
        (∀ x ∈ Bx', x ∈ Bx ∨ m.length ≤ x) → (∀ x ∈ B, x ∉ Bx → m'[x]? = m[x]?) →
        ∃ B', RepF lay m' slots cs' (vs.set i v') B' ∧ B'.Nodup ∧ ∀ x ∈ B', x ∈ B ∨ m.length ≤ x := by
  induction slots generalizing vs B with
  | nil => intro i o s v hs; simp at hs
  | cons p slots ih =>
    cases h with
    | cons o1 s1 _ _ v1 vs B1 B2 h1 h2 h3 =>
      obtain ⟨hp1, hp2⟩ := List.pairwise_cons.mp hp
      obtain ⟨hn1, hn2, hn3⟩ := List.nodup_append.mp hnd
      have hlt1 := rep_lt h2
      have hlt2 := repF_lt h3
      intro i o s v hs hv
      cases i with
      | zero =>
        simp at hs hv
        obtain ⟨rfl, rfl⟩ := hs
        subst hv
        refine ⟨B1, h2, h1, fun x hx => by simp [hx], hn1, ?_⟩
        intro m' cs' v' Bx' hro hl hc hr hnx hsub hsame
        refine ⟨Bx' ++ B2, ?_, ?_, ?_⟩
        · rw [List.set_cons_zero]
          refine .cons o1 s1 slots cs' v' vs Bx' B2 (by omega) hr ?_
          refine repF_frame hro h3 (fun x hx => hsame x (by simp [hx]) fun hb => hn3 x hb x hx rfl) hl ?_
          intro q hq
          have := hp1 q hq
          simp only at this
          exact cells_apart hc fun i _ _ => by unfold region; omega
        · refine List.nodup_append.mpr ⟨hnx, hn2, ?_⟩
          intro x hx y hy e
          subst e
          rcases hsub x hx with h | h
          · exact hn3 x h x hy rfl
          · have := hlt2 x hy; omega
        · intro x hx
          rcases List.mem_append.mp hx with hx | hx
          · rcases hsub x hx with h | h
            · exact .inl (by simp [h])
            · exact .inr h
          · exact .inl (by simp [hx])
      | succ i =>
        obtain ⟨Bx, g1, g2, g3, g4, g5⟩ := ih h3 hp2 hn2 (by simpa using hs) (by simpa using hv)
        refine ⟨Bx, g1, g2, fun x hx => by simp [g3 x hx], g4, ?_⟩
        intro m' cs' v' Bx' hro hl hc hr hnx hsub hsame
        obtain ⟨B', f1, f2, f3⟩ := g5 hro hl hc hr hnx hsub fun x hx => hsame x (by simp [hx])
        have hmem : (o, s) ∈ slots := List.mem_of_getElem? (by simpa using hs)
        have hap := hp1 _ hmem
        simp only at hap
        refine ⟨B1 ++ B', ?_, ?_, ?_⟩
        · rw [List.set_cons_succ]
          refine .cons o1 s1 slots cs' v1 _ B1 B' (by omega) ?_ f1
          rw [cells_apart hc fun i _ _ => by unfold region; omega]
          refine rep_frame hro h2 fun x hx => hsame x (by simp [hx]) ?_
          intro hb
          exact hn3 x hx x (g3 x hb) rfl
        · refine List.nodup_append.mpr ⟨hn1, f2, ?_⟩
          intro x hx y hy e
          subst e
          rcases f3 x hy with h | h
          · exact hn3 x hx x h rfl
          · have := hlt1 x hx; omega
        · intro x hx
          rcases List.mem_append.mp hx with hx | hx
          · exact .inl (by simp [hx])
          · rcases f3 x hx with h | h
            · exact .inl (by simp [h])
            · exact .inr h

/-! ### Stores and allocations -/

theorem splice_length {cs new : List Cell} {o : Nat} (h : o + new.length ≤ cs.length) :
    (splice cs o new).length = cs.length := by
  simp [splice]; omega

theorem splice_get {cs new : List Cell} {o : Nat} (h : o + new.length ≤ cs.length) (i : Nat) :
    (splice cs o new)[i]? = if o ≤ i ∧ i < o + new.length then new[i - o]? else cs[i]? := by
  have hl : (cs.take o).length = o := by simp; omega
  unfold splice
  rw [List.append_assoc]
  rcases Nat.lt_or_ge i o with h1 | h1
  · rw [List.getElem?_append_left (by omega), List.getElem?_take, if_pos h1, if_neg (by omega)]
  · rw [List.getElem?_append_right (by omega), hl]
    rcases Nat.lt_or_ge i (o + new.length) with h2 | h2
    · rw [List.getElem?_append_left (by omega), if_pos ⟨h1, h2⟩]
    · rw [List.getElem?_append_right (by omega), List.getElem?_drop, if_neg (by omega)]
      congr 1; omega

theorem splice_same {cs new : List Cell} {o : Nat} (h : o + new.length ≤ cs.length) :
    ((splice cs o new).drop o).take new.length = new := by
  have hl : (cs.take o).length = o := by simp; omega
  unfold splice
  rw [List.append_assoc, List.drop_left' hl, List.take_left' rfl]

/-- What a store does. -/
theorem store_ok {a : Addr} {cs new : List Cell} {al : Nat} (hm : m[a.blk]? = some (.mem cs))
    (hl : a.off + new.length ≤ cs.length) (ha : a.off % al = 0) :
    ∃ m', store m a new al = .ok m' ∧ m'[a.blk]? = some (.mem (splice cs a.off new)) ∧ m'.length = m.length ∧
      Upd m m' a.blk (region a.off new.length) [] := by
  have hlt := lt_of_get hm
  refine ⟨m.set a.blk (.mem (splice cs a.off new)), ?_, ?_, by simp, by simp, ?_, ?_, ?_⟩
  · simp [store, hm, hl, ha]
  · simp [hlt]
  · intro x _ hx _
    rw [List.getElem?_set_ne (fun e => hx e.symm)]
  · intro x s hx
    rw [List.getElem?_set_ne (fun e => by rw [← e, hm] at hx; cases hx)]
    exact hx
  · intro cs0 hc
    rw [hm] at hc
    cases hc
    refine ⟨splice cs a.off new, by simp [hlt], splice_length hl, ?_⟩
    intro i hi
    unfold region at hi
    rw [splice_get hl, if_neg hi]

theorem alloc_upd (m : Mem) (o : Obj) (b : Nat) (P : Nat → Prop) : Upd m (m ++ [o]) b P [] := by
  refine ⟨by simp, ?_, ?_, ?_⟩
  · intro x hx _ _
    rw [List.getElem?_append_left hx]
  · intro x s hx
    rw [List.getElem?_append_left (lt_of_get hx)]; exact hx
  · intro cs hc
    exact ⟨cs, by rw [List.getElem?_append_left (lt_of_get hc)]; exact hc, rfl, fun _ _ => rfl⟩

theorem alloc_get (m : Mem) (o : Obj) : (m ++ [o])[m.length]? = some o := by simp

/-! ### Zeroed memory -/

theorem base256_zero (k : Nat) : byteCells (Spec.base256 k 0) = zeroCells k := by
  induction k with
  | zero => rfl
  | succ k ih =>
    have : byteCells (Spec.base256 (k + 1) 0) = .byte 0#8 :: byteCells (Spec.base256 k 0) := by
      simp [Spec.base256, byteCells]
    rw [this, ih]
    rfl

theorem zero_drop_take {o n N : Nat} (h : o + n ≤ N) : ((zeroCells N).drop o).take n = zeroCells n := by
  simp only [zeroCells, List.drop_replicate, List.take_replicate]
  congr 1; omega

/-- `reflect.New`: zeroed memory holds the zero value. -/
theorem rep_zero (lay : Lay) (m : Mem) : ∀ s : Shape, Rep lay m s (zeroCells s.size) s.zero []
  | .b8 => .b8 false
  | .w32 => by rw [← base256_zero]; exact .w32 0#32
  | .w64 => by rw [← base256_zero]; exact .w64 0#64
  | .str => .strNil none
  | .bytes => .bytesNil
  | .opt s => by
    refine .opt s _ false _ [] (by simp) ?_ ?_
    · have := zero_drop_take (o := 0) (n := 1) (N := (Shape.opt s).size) (opt_size_pos s)
      rw [List.drop_zero] at this
      rw [this]; rfl
    · rw [zero_drop_take (opt_size_le s)]
      exact rep_zero lay m s
  | .ptr s => .ptrNil s
  | .msg t => .msgNil t
  | .slice s => .sliceNil s
  | .map k v => .mapNil k v
  | .opaque => .opaque _

theorem repF_zero (lay : Lay) (m : Mem) (N : Nat) : ∀ slots : List (Nat × Shape), (∀ p ∈ slots, p.1 + p.2.size ≤ N) →
    RepF lay m slots (zeroCells N) (slots.map fun p => p.2.zero) []
  | [], _ => .nil _
  | (o, s) :: slots, h => by
    have h1 := h (o, s) (by simp)
    refine .cons o s slots _ _ _ [] [] (by simpa using h1) ?_ (repF_zero lay m N slots fun p hp => h p (by simp [hp]))
    rw [zero_drop_take h1]
    exact rep_zero lay m s

end Pb.Flat
