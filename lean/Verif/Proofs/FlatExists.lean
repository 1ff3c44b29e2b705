import Verif.Proofs.FlatMsg
/-
Every value that a Go type allows has a representation in raw memory (helper lemmas for `Props/Flat.lean`).
-/
namespace Pb.Flat

variable {lay : Lay}

/-- New allocations after those of `m`. -/
def Ext (m m' : Mem) : Prop := ∃ e, m' = m ++ e

theorem Ext.refl (m : Mem) : Ext m m := ⟨[], by simp⟩

theorem Ext.trans {m1 m2 m3 : Mem} (h : Ext m1 m2) (h' : Ext m2 m3) : Ext m1 m3 := by
  obtain ⟨e, rfl⟩ := h
  obtain ⟨e', rfl⟩ := h'
  exact ⟨e ++ e', by simp⟩

theorem Ext.one (m : Mem) (o : Obj) : Ext m (m ++ [o]) := ⟨[o], rfl⟩

theorem Ext.len {m m' : Mem} (h : Ext m m') : m.length ≤ m'.length := by
  obtain ⟨e, rfl⟩ := h
  simp

theorem Ext.same {m m' : Mem} (h : Ext m m') {x : Nat} (hx : x < m.length) : m'[x]? = m[x]? := by
  obtain ⟨e, rfl⟩ := h
  rw [List.getElem?_append_left hx]

theorem Ext.get {m m' : Mem} (h : Ext m m') {x : Nat} {o : Obj} (hx : m[x]? = some o) : m'[x]? = some o := by
  rw [h.same (lt_of_get hx)]; exact hx

theorem Ext.rep {m m' : Mem} (h : Ext m m') {s cs v B} (hr : Rep lay m s cs v B) : Rep lay m' s cs v B :=
  rep_frame (fun _ _ hx => h.get hx) hr fun x hx => h.same (rep_lt hr x hx)

theorem Ext.repF {m m' : Mem} (h : Ext m m') {s cs v B} (hr : RepF lay m s cs v B) : RepF lay m' s cs v B :=
  repF_mem (fun _ _ hx => h.get hx) hr fun x hx => h.same (repF_lt hr x hx)

theorem Ext.repM {m m' : Mem} (h : Ext m m') {k s cs v B} (hr : RepM lay m k s cs v B) : RepM lay m' k s cs v B :=
  repM_frame (fun _ _ hx => h.get hx) hr fun x hx => h.same (repM_lt hr x hx)

/-- A value can be put into new memory. -/
def Able (lay : Lay) (s : Shape) (v : Val) : Prop :=
  ∀ m, ∃ m' cs B, Ext m m' ∧ Rep lay m' s cs v B ∧ B.Nodup ∧ ∀ x ∈ B, m.length ≤ x

/-- Values in given places. -/
theorem able_fields : ∀ (slots : List (Nat × Shape)) (vs : List Val) (N : Nat),
    slots.Pairwise (fun a b => a.1 + a.2.size ≤ b.1) → (∀ p ∈ slots, p.1 + p.2.size ≤ N) → vs.length = slots.length →
    (∀ (i : Nat) p v, slots[i]? = some p → vs[i]? = some v → Able lay p.2 v) →
    ∀ m, ∃ m' cs B, Ext m m' ∧ cs.length = N ∧ RepF lay m' slots cs vs B ∧ B.Nodup ∧ ∀ x ∈ B, m.length ≤ x
  | [], [], N, _, _, _, _, m => ⟨m, zeroCells N, [], .refl m, by simp, .nil _, by simp, by simp⟩
  | [], _ :: _, _, _, _, h, _, _ => by simp at h
  | _ :: _, [], _, _, _, h, _, _ => by simp at h
  | (o, s) :: slots, v :: vs, N, hp, hw, hl, ha, m => by
    obtain ⟨hp1, hp2⟩ := List.pairwise_cons.mp hp
    have hN := hw (o, s) (by simp)
    simp only at hN
    obtain ⟨m1, cs, B', e1, e2, e3, e4, e5⟩ := able_fields slots vs N hp2 (fun p hp => hw p (by simp [hp])) (by simpa using hl)
      (fun i p v h1 h2 => ha (i + 1) p v (by simpa using h1) (by simpa using h2)) m
    obtain ⟨m2, c, B, f1, f2, f3, f4⟩ := ha 0 (o, s) v (by simp) (by simp) m1
    have hc := rep_length f2
    simp only at hc
    refine ⟨m2, splice cs o c, B ++ B', e1.trans f1, ?_, ?_, ?_, ?_⟩
    · rw [splice_length (by omega)]; exact e2
    · refine .cons o s slots _ v vs B B' ?_ ?_ ?_
      · rw [splice_length (by omega)]; omega
      · have := splice_same (cs := cs) (new := c) (o := o) (by omega)
        rw [hc] at this
        rw [this]; exact f2
      · refine repF_frame (fun _ _ h => h) (f1.repF e3) (fun _ _ => rfl) (splice_length (by omega)) ?_
        intro p hp
        have := hp1 p hp
        simp only at this
        refine cells_apart (P := region o s.size) (fun i hi => ?_) fun i _ _ => by unfold region; omega
        unfold region at hi
        rw [splice_get (by omega), hc, if_neg hi]
    · have h1 := repF_lt e3
      exact List.nodup_append.mpr ⟨f3, e4, fun x hx y hy e => by have := f4 x hx; have := h1 y hy; omega⟩
    · intro x hx
      rcases List.mem_append.mp hx with hx | hx
      · exact Nat.le_trans e1.len (f4 x hx)
      · exact e5 x hx

/-- The entries of a map. -/
theorem able_entries {k v : Shape} : ∀ (kvs : List (Key × Val)), (∀ e ∈ kvs, Able lay k e.1.toVal) →
    (∀ e ∈ kvs, Able lay v e.2) → (k.isKey) →
    ∀ m, ∃ m' es B, Ext m m' ∧ RepM lay m' k v es kvs B ∧ B.Nodup ∧ ∀ x ∈ B, m.length ≤ x
  | [], _, _, _, m => ⟨m, [], [], .refl m, .nil k v, by simp, by simp⟩
  | (key, x) :: kvs, hk, hv, hkey, m => by
    obtain ⟨m1, es, B', e1, e2, e3, e4⟩ := able_entries kvs (fun e he => hk e (by simp [he])) (fun e he => hv e (by simp [he])) hkey m
    obtain ⟨m2, kc, Bk, f1, f2, _, _⟩ := hk (key, x) (by simp) m1
    obtain ⟨rfl, _⟩ := rep_key hkey f2
    obtain ⟨m3, vc, Bv, g1, g2, g3, g4⟩ := hv (key, x) (by simp) (m2 ++ [.mem kc])
    have x1 := Ext.one m2 (.mem kc)
    have x2 := Ext.one m3 (.mem vc)
    have hlt := repM_lt e2
    have hltv := rep_lt g2
    have l1 := e1.len
    have l2 := f1.len
    have l3 := g1.len
    simp only [List.length_append, List.length_cons, List.length_nil] at l3 g4
    refine ⟨m3 ++ [.mem vc], (m2.length, m3.length) :: es, m2.length :: m3.length :: (Bv ++ B'),
      e1.trans (f1.trans (x1.trans (g1.trans x2))), ?_, ?_, ?_⟩
    · refine .cons k v m2.length m3.length kc vc key x es kvs Bv B' (x2.get (g1.get (alloc_get m2 _)))
        (x2.rep (g1.rep (x1.rep f2))) (alloc_get m3 _) (x2.rep g2) (x2.repM (g1.repM (x1.repM (f1.repM e2))))
    · simp only [List.nodup_cons, List.mem_cons, List.mem_append, not_or]
      refine ⟨⟨by omega, fun h => ?_, fun h => ?_⟩, ⟨fun h => ?_, fun h => ?_⟩, List.nodup_append.mpr ⟨g3, e3, ?_⟩⟩
      · have := g4 _ h; omega
      · have := hlt _ h; omega
      · have := hltv _ h; omega
      · have := hlt _ h; omega
      · intro a ha b hb e
        have := g4 a ha
        have := hlt b hb
        omega
    · intro y hy
      simp only [List.mem_cons, List.mem_append] at hy
      rcases hy with h | h | h | h
      · omega
      · omega
      · have := g4 y h; omega
      · exact e4 y h

theorem able_of_fits (hlay : lay.OK) (hkeys : ∀ t, ∀ s ∈ lay.shapes t, KeysOK s) {s : Shape} {v : Val}
    (h : Fits lay.shapes s v) : KeysOK s → Able lay s v := by
  induction h with
  | b8 x => intro _ m; exact ⟨m, _, [], .refl m, .b8 x, by simp, by simp⟩
  | w32 x => intro _ m; exact ⟨m, _, [], .refl m, .w32 x, by simp, by simp⟩
  | w64 x => intro _ m; exact ⟨m, _, [], .refl m, .w64 x, by simp, by simp⟩
  | str x =>
    intro _ m
    by_cases hx : x = []
    · subst hx; exact ⟨m, _, [], .refl m, .strNil none, by simp, by simp⟩
    · exact ⟨m ++ [.ro x], _, [], .one _ _, .str ⟨m.length, 0⟩ x x (alloc_get m _) (by simp) hx, by simp, by simp⟩
  | bytes x =>
    intro _ m
    cases x with
    | none => exact ⟨m, _, [], .refl m, .bytesNil, by simp, by simp⟩
    | some x =>
      exact ⟨m ++ [.mem (byteCells x)], _, [m.length], .one _ _, .bytes ⟨m.length, 0⟩ x.length (byteCells x) x (alloc_get m _)
        (by simp) (Nat.le_refl _) (by simp [List.take_of_length_le]), by simp, by simp⟩
  | none s =>
    intro _ m
    exact ⟨m, _, [], .refl m, rep_zero lay m (.opt s), by simp, by simp⟩
  | some s v _ ih =>
    intro hk m
    obtain ⟨m1, c, B, e1, e2, e3, e4⟩ := ih hk m
    have hc := rep_length e2
    have h1 := opt_size_le s
    have h2 : 1 ≤ optOff s := by rw [optOff_eq]; exact align_pos _
    have hp := opt_size_pos s
    have l1 : (splice (zeroCells (Shape.opt s).size) 0 (boolCells true)).length = (Shape.opt s).size := by
      rw [splice_length (by simp; omega)]; simp
    refine ⟨m1, splice (splice (zeroCells (Shape.opt s).size) 0 (boolCells true)) (optOff s) c, B, e1, ?_, e3, e4⟩
    refine .opt s _ true v B ?_ ?_ ?_
    · rw [splice_length (by omega), l1]
    · have h3 := cells_apart (cs := splice (zeroCells (Shape.opt s).size) 0 (boolCells true))
        (cs' := splice (splice (zeroCells (Shape.opt s).size) 0 (boolCells true)) (optOff s) c)
        (P := region (optOff s) s.size) (o := 0) (n := 1) (fun i hi => by
          unfold region at hi
          rw [splice_get (by omega), hc, if_neg hi]) (fun i _ _ => by unfold region; omega)
      simp only [List.drop_zero] at h3
      rw [h3]
      have := splice_same (cs := zeroCells (Shape.opt s).size) (new := boolCells true) (o := 0) (by simp; omega)
      simpa using this
    · have := splice_same (cs := splice (zeroCells (Shape.opt s).size) 0 (boolCells true)) (new := c) (o := optOff s) (by omega)
      rw [hc] at this
      rw [this]; exact e2
  | ptrNil s => intro _ m; exact ⟨m, _, [], .refl m, .ptrNil s, by simp, by simp⟩
  | ptr s v _ ih =>
    intro hk m
    obtain ⟨m1, c, B, e1, e2, e3, e4⟩ := ih hk m
    have hlt := rep_lt e2
    refine ⟨m1 ++ [.mem c], _, m1.length :: B, e1.trans (.one _ _), .ptr s m1.length c v B (alloc_get m1 _) ((Ext.one _ _).rep e2), ?_, ?_⟩
    · exact List.nodup_cons.mpr ⟨fun h => Nat.lt_irrefl _ (hlt _ h), e3⟩
    · intro x hx
      rcases List.mem_cons.mp hx with rfl | hx
      · exact e1.len
      · exact e4 x hx
  | msgNil t => intro _ m; exact ⟨m, _, [], .refl m, .msgNil t, by simp, by simp⟩
  | msg t vs hl _ ih =>
    intro _ m
    have hsl : (lay.shapes t).length = (lay.slots t).length := by simp [Lay.shapes]
    obtain ⟨m1, c, B, e1, e2, e3, e4, e5⟩ := able_fields (lay := lay) (lay.slots t) vs (lay.size t) (hlay.apart t) (hlay.within t)
      (hl.trans hsl) (fun i p v h1 h2 => by
        have h3 : (lay.shapes t)[i]? = some p.2 := by simp [Lay.shapes, h1]
        exact ih i p.2 v h3 h2 (hkeys t p.2 (List.mem_of_getElem? h3))) m
    have hlt := repF_lt e3
    refine ⟨m1 ++ [.mem c], _, m1.length :: B, e1.trans (.one _ _),
      .msg t m1.length c vs B (alloc_get m1 _) e2 ((Ext.one _ _).repF e3), ?_, ?_⟩
    · exact List.nodup_cons.mpr ⟨fun h => Nat.lt_irrefl _ (hlt _ h), e4⟩
    · intro x hx
      rcases List.mem_cons.mp hx with rfl | hx
      · exact e1.len
      · exact e5 x hx
  | slice s isNil es sp hn _ _ ih1 ih2 =>
    intro hk m
    cases isNil with
    | true =>
      obtain ⟨rfl, rfl⟩ := hn rfl
      exact ⟨m, _, [], .refl m, .sliceNil s, by simp, by simp⟩
    | false =>
      have hel := elemSlots_length s (es.length + sp.length) 0
      obtain ⟨m1, c, B, e1, e2, e3, e4, e5⟩ := able_fields (lay := lay) (elemSlots s 0 (es.length + sp.length)) (es ++ sp)
        ((es.length + sp.length) * s.size) (elemSlots_pairwise _ _ _) (fun p hp => by
          obtain ⟨_, h2, h3⟩ := elemSlots_mem hp
          rw [h2]; omega) (by simp [hel]) (fun i p v h1 h2 => by
          obtain ⟨_, h3, _⟩ := elemSlots_mem (List.mem_of_getElem? h1)
          rw [h3]
          rcases List.mem_append.mp (List.mem_of_getElem? h2) with h4 | h4
          · exact ih1 v h4 hk
          · exact ih2 v h4 hk) m
      have hlt := repF_lt e3
      refine ⟨m1 ++ [.mem c], _, m1.length :: B, e1.trans (.one _ _),
        .slice s ⟨m1.length, 0⟩ c es sp B (alloc_get m1 _) (by simp) (by simp) ((Ext.one _ _).repF e3), ?_, ?_⟩
      · exact List.nodup_cons.mpr ⟨fun h => Nat.lt_irrefl _ (hlt _ h), e4⟩
      · intro x hx
        rcases List.mem_cons.mp hx with rfl | hx
        · exact e1.len
        · exact e5 x hx
  | map k v isNil kvs hn _ _ _ ih1 ih2 =>
    intro hk m
    cases isNil with
    | true =>
      have := hn rfl
      subst this
      exact ⟨m, _, [], .refl m, .mapNil k v, by simp, by simp⟩
    | false =>
      have hkk : KeysOK k := by
        have := hk.1
        cases k <;> first | trivial | exact this.elim
      obtain ⟨m1, es, B, e1, e2, e3, e4⟩ := able_entries kvs (fun e he => ih1 e he hkk) (fun e he => ih2 e he hk.2) hk.1 m
      have hlt := repM_lt e2
      refine ⟨m1 ++ [.map es], _, m1.length :: B, e1.trans (.one _ _),
        .map k v m1.length es kvs B (alloc_get m1 _) ((Ext.one _ _).repM e2), ?_, ?_⟩
      · exact List.nodup_cons.mpr ⟨fun h => Nat.lt_irrefl _ (hlt _ h), e3⟩
      · intro x hx
        rcases List.mem_cons.mp hx with rfl | hx
        · exact e1.len
        · exact e4 x hx
  | «opaque» v => intro _ m; exact ⟨m, _, [], .refl m, .opaque v, by simp, by simp⟩

end Pb.Flat
