import Verif.Spec.Graph
import Verif.Proofs.FlatDecode
/-
Loads, stores and allocations in typed memory (helper lemmas for `Props/Graph.lean`).
-/
namespace Pb.Flat

variable {lay : Lay} {T T' : Types} {m m' : Mem}

/-! ### More is known -/

theorem get_ext {T X : Types} {b : Nat} {κ} (h : T[b]? = some κ) : (T ++ X)[b]? = some κ := by
  rw [List.getElem?_append_left (List.getElem?_eq_some_iff.mp h).1]; exact h

theorem SlotAt.ext {a s} (h : SlotAt T a s) (X : Types) : SlotAt (T ++ X) a s := by
  obtain ⟨N, sl, h1, h2⟩ := h
  exact ⟨N, sl, get_ext h1, h2⟩

theorem MsgAt.ext {a t} (h : MsgAt lay T a t) (X : Types) : MsgAt lay (T ++ X) a t := by
  obtain ⟨N, sl, h1, h2⟩ := h
  exact ⟨N, sl, get_ext h1, h2⟩

theorem ArrayAt.ext {a s n} (h : ArrayAt T a s n) (X : Types) : ArrayAt (T ++ X) a s n := by
  obtain ⟨N, sl, h1, h2⟩ := h
  exact ⟨N, sl, get_ext h1, h2⟩

theorem Sound.ext (X : Types) : ∀ {s : Shape} {cs : List Cell}, Sound lay T s cs → Sound lay (T ++ X) s cs
  | .b8, _, h => h
  | .w32, _, h => h
  | .w64, _, h => h
  | .str, _, h => by
    obtain ⟨d, n, h1, h2⟩ := h
    refine ⟨d, n, h1, h2.imp id ?_⟩
    rintro ⟨a, N, e1, e2, e3⟩
    exact ⟨a, N, e1, get_ext e2, e3⟩
  | .bytes, _, h => h.imp id fun ⟨a, n, cap, e1, e2, e3⟩ => ⟨a, n, cap, e1, e2, e3.ext X⟩
  | .opt _, _, h => ⟨h.1, h.2.1, h.2.2.ext X⟩
  | .ptr _, _, h => h.imp id fun ⟨a, e1, e2⟩ => ⟨a, e1, e2.ext X⟩
  | .msg _, _, h => h.imp id fun ⟨a, e1, e2⟩ => ⟨a, e1, e2.ext X⟩
  | .slice _, _, h => h.imp id fun ⟨a, n, cap, e1, e2, e3⟩ => ⟨a, n, cap, e1, e2, e3.ext X⟩
  | .map _ _, _, h => h.imp id fun ⟨a, e1, e2⟩ => ⟨a, e1, get_ext e2⟩
  | .opaque, _, h => h

theorem KeyCells.ext (X : Types) {s : Shape} {x : Key} {cs : List Cell} (h : KeyCells T s x cs) : KeyCells (T ++ X) s x cs := by
  cases s <;> cases x <;> try exact h
  obtain ⟨d, h1, h2⟩ := h
  exact ⟨d, h1, h2.imp id fun ⟨a, bs, e1, e2, e3⟩ => ⟨a, bs, e1, get_ext e2, e3⟩⟩

theorem EntriesAt.ext (X : Types) {k v es ks} (h : EntriesAt T k v es ks) : EntriesAt (T ++ X) k v es ks := by
  induction h with
  | nil => exact .nil
  | cons e x es ks h1 h2 _ ih => exact .cons e x es ks (get_ext h1) (get_ext h2) ih

theorem ObjOK.ext {κ o} (h : ObjOK lay T κ o) (X : Types) : ObjOK lay (T ++ X) κ o := by
  cases κ <;> cases o <;> try exact h
  · exact ⟨h.1, h.2.1, fun q hq => (h.2.2 q hq).ext X⟩
  · obtain ⟨ks, h1, h2⟩ := h
    exact ⟨ks, h1.ext X, h2⟩
  · exact KeyCells.ext X h
  · exact Sound.ext X h

theorem sound_length : ∀ {s : Shape} {cs : List Cell}, Sound lay T s cs → cs.length = s.size
  | .b8, _, ⟨x, h⟩ => by rw [h]; rfl
  | .w32, _, ⟨s, h, e⟩ => by rw [e]; simpa [Shape.size] using h
  | .w64, _, ⟨s, h, e⟩ => by rw [e]; simpa [Shape.size] using h
  | .str, _, ⟨d, n, e, _⟩ => by rw [e]; simp [Shape.size]
  | .bytes, _, h => by
    rcases h with e | ⟨_, _, _, e, _⟩ <;> rw [e] <;> simp [Shape.size]
  | .opt _, _, h => h.1
  | .ptr _, _, h => by rcases h with e | ⟨_, e, _⟩ <;> rw [e] <;> simp [Shape.size]
  | .msg _, _, h => by rcases h with e | ⟨_, e, _⟩ <;> rw [e] <;> simp [Shape.size]
  | .slice _, _, h => by
    rcases h with e | ⟨_, _, _, e, _⟩ <;> rw [e] <;> simp [Shape.size]
  | .map _ _, _, h => by rcases h with e | ⟨_, e, _⟩ <;> rw [e] <;> simp [Shape.size]
  | .opaque, _, h => by rw [h]; rfl

theorem zeroCells_eq (n : Nat) : zeroCells n = byteCells (List.replicate n 0#8) := by
  simp [zeroCells, byteCells]

/-- Zeroed memory is of any type. -/
theorem sound_zero (lay : Lay) (T : Types) : ∀ s : Shape, Sound lay T s (zeroCells s.size)
  | .b8 => ⟨0#8, rfl⟩
  | .w32 => ⟨List.replicate 4 0#8, rfl, zeroCells_eq _⟩
  | .w64 => ⟨List.replicate 8 0#8, rfl, zeroCells_eq _⟩
  | .str => ⟨none, 0, rfl, .inl rfl⟩
  | .bytes => .inl rfl
  | .opt s => by
    refine ⟨by simp, ⟨0#8, ?_⟩, ?_⟩
    · have := opt_size_pos s
      simp only [zeroCells, List.take_replicate]
      rw [Nat.min_eq_left this]; rfl
    · rw [zero_drop_take (opt_size_le s)]
      exact sound_zero lay T s
  | .ptr _ => .inl rfl
  | .msg _ => .inl rfl
  | .slice _ => .inl rfl
  | .map _ _ => .inl rfl
  | .opaque => rfl

/-! ### What happens in the course of time -/

/-- The cells at an address. -/
def cellsAt (m : Mem) (b o n : Nat) : List Cell :=
  match m[b]? with
  | some (.mem cs) => (cs.drop o).take n
  | _ => []

/-- The capacity in the header of a slice. -/
def capC (c : List Cell) : Nat := (asInt ((c.drop 16).take 8)).getD 0

/-- Capacities do not shrink, and maps do not go away. -/
def Grew : Shape → List Cell → List Cell → Prop
  | .slice _, c, c' => capC c ≤ capC c'
  | .map _ _, c, c' => c ≠ ptrCells none → c' ≠ ptrCells none
  | _, _, _ => True

theorem Grew.refl (s : Shape) (c : List Cell) : Grew s c c := by
  cases s <;> simp [Grew]

theorem Grew.trans {s : Shape} {c1 c2 c3 : List Cell} (h1 : Grew s c1 c2) (h2 : Grew s c2 c3) : Grew s c1 c3 := by
  cases s <;> simp only [Grew] at *
  · exact Nat.le_trans h1 h2
  · exact fun h => h2 (h1 h)

/-- Allocations that no decode function changes. -/
def Kind.fixed : Kind → Prop
  | .other | .text _ | .key _ _ => True
  | _ => False

/-- What a decode function leaves of the memory it starts with. -/
structure Later (T : Types) (m : Mem) (T' : Types) (m' : Mem) : Prop where
  ext : ∃ X, T' = T ++ X
  grew : ∀ (b : Nat) N sl q, T[b]? = some (.mem N sl) → q ∈ sl →
    Grew q.2 (cellsAt m b q.1 q.2.size) (cellsAt m' b q.1 q.2.size)
  same : ∀ (b : Nat) κ, T[b]? = some κ → κ.fixed → m'[b]? = m[b]?

theorem Later.refl (T : Types) (m : Mem) : Later T m T m :=
  ⟨⟨[], by simp⟩, fun _ _ _ _ _ _ => Grew.refl _ _, fun _ _ _ _ => rfl⟩

theorem Later.trans {T1 T2 T3 : Types} {m1 m2 m3 : Mem} (h1 : Later T1 m1 T2 m2) (h2 : Later T2 m2 T3 m3) :
    Later T1 m1 T3 m3 := by
  obtain ⟨X, rfl⟩ := h1.ext
  obtain ⟨Y, rfl⟩ := h2.ext
  refine ⟨⟨X ++ Y, by simp⟩, fun b N sl q hT hq => (h1.grew b N sl q hT hq).trans (h2.grew b N sl q (get_ext hT) hq), ?_⟩
  intro b κ hb hf
  rw [h2.same b κ (get_ext hb) hf, h1.same b κ hb hf]

theorem Later.slot {a s} (h : Later T m T' m') (hs : SlotAt T a s) : SlotAt T' a s := by
  obtain ⟨X, rfl⟩ := h.ext
  exact hs.ext X

theorem Later.msg {a t} (h : Later T m T' m') (hs : MsgAt lay T a t) : MsgAt lay T' a t := by
  obtain ⟨X, rfl⟩ := h.ext
  exact hs.ext X

theorem Later.array {a s n} (h : Later T m T' m') (hs : ArrayAt T a s n) : ArrayAt T' a s n := by
  obtain ⟨X, rfl⟩ := h.ext
  exact hs.ext X

theorem Later.get {b : Nat} {κ} (h : Later T m T' m') (hs : T[b]? = some κ) : T'[b]? = some κ := by
  obtain ⟨X, rfl⟩ := h.ext
  exact get_ext hs

/-! ### Access -/

theorem Graph.get (h : Graph lay T m) {b : Nat} {κ} (hT : T[b]? = some κ) : ∃ o, m[b]? = some o ∧ ObjOK lay T κ o := by
  have hlt := (List.getElem?_eq_some_iff.mp hT).1
  rw [h.1] at hlt
  exact ⟨m[b], List.getElem?_eq_getElem hlt, h.2 b κ _ hT (List.getElem?_eq_getElem hlt)⟩

theorem Graph.mem (h : Graph lay T m) {b : Nat} {N sl} (hT : T[b]? = some (.mem N sl)) :
    ∃ cs, m[b]? = some (.mem cs) ∧ SlotsOK N sl ∧ cs.length = N ∧ ∀ q ∈ sl, Sound lay T q.2 ((cs.drop q.1).take q.2.size) := by
  obtain ⟨o, h1, h2⟩ := h.get hT
  cases o with
  | mem cs => exact ⟨cs, h1, h2⟩
  | _ => exact h2.elim

theorem Graph.map (h : Graph lay T m) {b : Nat} {k v} (hT : T[b]? = some (.map k v)) :
    ∃ es, m[b]? = some (.map es) ∧ ∃ ks, EntriesAt T k v es ks ∧ ks.Nodup := by
  obtain ⟨o, h1, h2⟩ := h.get hT
  cases o with
  | map es => exact ⟨es, h1, h2⟩
  | _ => exact h2.elim

theorem Graph.text (h : Graph lay T m) {b : Nat} {s} (hT : T[b]? = some (.text s)) : m[b]? = some (.ro s) := by
  obtain ⟨o, h1, h2⟩ := h.get hT
  cases o with
  | ro s => cases h2; exact h1
  | _ => exact h2.elim

theorem Graph.key (h : Graph lay T m) {b : Nat} {s x} (hT : T[b]? = some (.key s x)) :
    ∃ cs, m[b]? = some (.mem cs) ∧ KeyCells T s x cs := by
  obtain ⟨o, h1, h2⟩ := h.get hT
  cases o with
  | mem cs => exact ⟨cs, h1, h2⟩
  | _ => exact h2.elim

theorem Graph.elem (h : Graph lay T m) {b : Nat} {s} (hT : T[b]? = some (.elem s)) :
    ∃ cs, m[b]? = some (.mem cs) ∧ Sound lay T s cs := by
  obtain ⟨o, h1, h2⟩ := h.get hT
  cases o with
  | mem cs => exact ⟨cs, h1, h2⟩
  | _ => exact h2.elim

/-- A slot in memory. -/
theorem Graph.slot (h : Graph lay T m) {a s} (hs : SlotAt T a s) :
    ∃ cs, m[a.blk]? = some (.mem cs) ∧ a.off + s.size ≤ cs.length ∧ a.off % s.align = 0 ∧
      Sound lay T s ((cs.drop a.off).take s.size) := by
  obtain ⟨N, sl, h1, h2⟩ := hs
  obtain ⟨cs, g1, g2, g3, g4⟩ := h.mem h1
  have := g2.1 _ h2
  exact ⟨cs, g1, by rw [g3]; exact this.2, this.1, g4 _ h2⟩

theorem Graph.msgSlot {a t q} (hs : MsgAt lay T a t) (hq : q ∈ lay.slots t) : SlotAt T (a.add q.1) q.2 := by
  obtain ⟨N, sl, h1, h2⟩ := hs
  exact ⟨N, sl, h1, h2 q hq⟩

theorem ArrayAt.slot {a s n i} (h : ArrayAt T a s n) (hi : i < n) : SlotAt T (a.add (i * s.size)) s := by
  obtain ⟨N, sl, h1, _, _, h4⟩ := h
  exact ⟨N, sl, h1, h4 i hi⟩

/-! ### Change -/

/-- Other cells in an allocation. -/
theorem graph_put (h : Graph lay T m) {b : Nat} {N sl} (hT : T[b]? = some (.mem N sl)) {cs cs' : List Cell}
    (hm : m[b]? = some (.mem cs)) (hl : cs'.length = cs.length)
    (hs : ∀ q ∈ sl, Sound lay T q.2 ((cs'.drop q.1).take q.2.size))
    (hg : ∀ q ∈ sl, Grew q.2 ((cs.drop q.1).take q.2.size) ((cs'.drop q.1).take q.2.size)) :
    Graph lay T (m.set b (.mem cs')) ∧ Later T m T (m.set b (.mem cs')) := by
  have hlt := lt_of_get hm
  obtain ⟨cs0, g1, g2, g3, _⟩ := h.mem hT
  rw [hm] at g1
  cases g1
  refine ⟨⟨by simpa using h.1, ?_⟩, ⟨[], by simp⟩, ?_, ?_⟩
  · intro c κ o hc ho
    by_cases e : b = c
    · subst e
      rw [List.getElem?_set_self hlt] at ho
      cases ho
      rw [hT] at hc
      cases hc
      exact ⟨g2, by omega, hs⟩
    · rw [List.getElem?_set_ne e] at ho
      exact h.2 c κ o hc ho
  · intro c N' sl' q hc hq
    unfold cellsAt
    by_cases e : b = c
    · subst e
      rw [List.getElem?_set_self hlt, hm]
      rw [hT] at hc
      cases hc
      exact hg q hq
    · rw [List.getElem?_set_ne e]
      exact Grew.refl _ _
  · intro c κ hc hf
    rw [List.getElem?_set_ne]
    rintro rfl
    rw [hT] at hc; cases hc; exact hf

theorem graph_alloc (h : Graph lay T m) (κ : Kind) (o : Obj) (ho : ObjOK lay (T ++ [κ]) κ o) :
    Graph lay (T ++ [κ]) (m ++ [o]) ∧ Later T m (T ++ [κ]) (m ++ [o]) := by
  have hlen := h.1
  refine ⟨⟨by simp [hlen], ?_⟩, ⟨_, rfl⟩, ?_, ?_⟩
  · intro c κ' o' hc ho'
    by_cases e : c < m.length
    · rw [List.getElem?_append_left (by omega)] at hc
      rw [List.getElem?_append_left e] at ho'
      exact (h.2 c κ' o' hc ho').ext _
    · rw [List.getElem?_append_right (by omega)] at hc ho'
      have : c - T.length = 0 := by
        cases hx : c - T.length with
        | zero => rfl
        | succ n => rw [hx] at hc; simp at hc
      rw [this] at hc
      rw [show c - m.length = 0 by omega] at ho'
      simp at hc ho'
      subst hc ho'
      exact ho
  · intro c N sl q hc hq
    have : c < m.length := by rw [← hlen]; exact (List.getElem?_eq_some_iff.mp hc).1
    unfold cellsAt
    rw [List.getElem?_append_left this]
    exact Grew.refl _ _
  · intro c κ hc hf
    have : c < m.length := by
      rw [← hlen]
      exact (List.getElem?_eq_some_iff.mp hc).1
    rw [List.getElem?_append_left this]

theorem graph_putMap (h : Graph lay T m) {b : Nat} {k v} (hT : T[b]? = some (.map k v)) {es : List (Nat × Nat)}
    {ks : List Key} (he : EntriesAt T k v es ks) (hk : ks.Nodup) :
    Graph lay T (m.set b (.map es)) ∧ Later T m T (m.set b (.map es)) := by
  obtain ⟨es0, hm, _⟩ := h.map hT
  have hlt := lt_of_get hm
  refine ⟨⟨by simpa using h.1, ?_⟩, ⟨[], by simp⟩, ?_, ?_⟩
  · intro c κ o hc ho
    by_cases e : b = c
    · subst e
      rw [List.getElem?_set_self hlt] at ho
      cases ho
      rw [hT] at hc
      cases hc
      exact ⟨ks, he, hk⟩
    · rw [List.getElem?_set_ne e] at ho
      exact h.2 c κ o hc ho
  · intro c N' sl' q hc hq
    unfold cellsAt
    rw [List.getElem?_set_ne]
    · exact Grew.refl _ _
    · rintro rfl
      rw [hT] at hc; cases hc
  · intro c κ hc hf
    rw [List.getElem?_set_ne]
    rintro rfl
    rw [hT] at hc; cases hc; exact hf

/-- Another value in a map. -/
theorem graph_putElem (h : Graph lay T m) {b : Nat} {s} (hT : T[b]? = some (.elem s)) {cs : List Cell} (hc : Sound lay T s cs) :
    Graph lay T (m.set b (.mem cs)) ∧ Later T m T (m.set b (.mem cs)) := by
  obtain ⟨cs0, hm, _⟩ := h.elem hT
  have hlt := lt_of_get hm
  refine ⟨⟨by simpa using h.1, ?_⟩, ⟨[], by simp⟩, ?_, ?_⟩
  · intro c κ o hc ho
    by_cases e : b = c
    · subst e
      rw [List.getElem?_set_self hlt] at ho
      cases ho
      rw [hT] at hc
      cases hc
      assumption
    · rw [List.getElem?_set_ne e] at ho
      exact h.2 c κ o hc ho
  · intro c N' sl' q hc hq
    unfold cellsAt
    rw [List.getElem?_set_ne]
    · exact Grew.refl _ _
    · rintro rfl
      rw [hT] at hc; cases hc
  · intro c κ hc hf
    rw [List.getElem?_set_ne]
    rintro rfl
    rw [hT] at hc; cases hc; exact hf

theorem splice_window {cs new : List Cell} {o k n : Nat} (hk : k + new.length ≤ n) (hl : o + n ≤ cs.length) :
    ((splice cs (o + k) new).drop o).take n = splice ((cs.drop o).take n) k new := by
  have h1 : ((cs.drop o).take n).length = n := by simp; omega
  apply List.ext_getElem?
  intro i
  rw [List.getElem?_take, List.getElem?_drop, splice_get (by omega), splice_get (by omega), List.getElem?_take,
    List.getElem?_drop]
  by_cases hi : i < n
  · simp only [hi, if_true]
    by_cases hc : k ≤ i ∧ i < k + new.length
    · rw [if_pos hc, if_pos (by omega)]
      congr 1; omega
    · rw [if_neg hc, if_neg (by omega)]
  · simp only [hi, if_false]
    rw [if_neg (by omega)]

/-- A store within a slot. -/
theorem graph_store (h : Graph lay T m) {a : Addr} {s : Shape} (hs : SlotAt T a s) {k al : Nat} {new : List Cell}
    (hk : k + new.length ≤ s.size) (hal : (a.off + k) % al = 0)
    (hsound : Sound lay T s (splice (cellsAt m a.blk a.off s.size) k new))
    (hg : Grew s (cellsAt m a.blk a.off s.size) (splice (cellsAt m a.blk a.off s.size) k new)) :
    ∃ m', store m (a.add k) new al = .ok m' ∧ Graph lay T m' ∧ Later T m T m' ∧
      cellsAt m' a.blk a.off s.size = splice (cellsAt m a.blk a.off s.size) k new := by
  obtain ⟨N, sl, h1, h2⟩ := hs
  obtain ⟨cs, g1, g2, g3, g4⟩ := h.mem h1
  have hc : cellsAt m a.blk a.off s.size = (cs.drop a.off).take s.size := by simp only [cellsAt, g1]
  have hin := (g2.1 _ h2).2
  simp only at hin
  rw [hc] at hsound hg ⊢
  have hlt := lt_of_get g1
  have hw := splice_window (cs := cs) (new := new) (o := a.off) (n := s.size) hk (by omega)
  have hother : ∀ q ∈ sl, q ≠ (a.off, s) → ((splice cs (a.off + k) new).drop q.1).take q.2.size = (cs.drop q.1).take q.2.size := by
    intro q hq hne
    refine cells_apart (P := region (a.off + k) new.length) (fun i hi => ?_) (fun i hi1 hi2 => ?_)
    · unfold region at hi
      rw [splice_get (by omega), if_neg hi]
    · unfold region
      rcases g2.2 q hq _ h2 with e | e | e
      · exact absurd e hne
      · simp only at e; omega
      · simp only at e; omega
  obtain ⟨f1, f2⟩ := graph_put h h1 (cs' := splice cs (a.off + k) new) g1 (splice_length (by omega))
    (fun q hq => by
      by_cases e : q = (a.off, s)
      · subst e; simp only [hw]; exact hsound
      · rw [hother q hq e]; exact g4 q hq)
    (fun q hq => by
      by_cases e : q = (a.off, s)
      · subst e; simp only [hw]; exact hg
      · rw [hother q hq e]; exact Grew.refl _ _)
  refine ⟨_, ?_, f1, f2, ?_⟩
  · have hin2 : a.off + k + new.length ≤ cs.length := by omega
    simp [store, Addr.add, hal, g1, hin2]
  · simp only [cellsAt, List.getElem?_set_self hlt]
    exact hw

theorem splice_whole {c new : List Cell} (h : c.length = new.length) : splice c 0 new = new := by
  simp only [splice, List.take_zero, List.nil_append, Nat.zero_add]
  rw [List.drop_of_length_le (by omega), List.append_nil]

/-- A store of a whole slot. -/
theorem graph_store_slot (h : Graph lay T m) {a : Addr} {s : Shape} (hs : SlotAt T a s) {al : Nat} {new : List Cell}
    (hal : a.off % al = 0) (hsound : Sound lay T s new) (hg : Grew s (cellsAt m a.blk a.off s.size) new) :
    ∃ m', store m a new al = .ok m' ∧ Graph lay T m' ∧ Later T m T m' ∧ cellsAt m' a.blk a.off s.size = new := by
  have hl := sound_length hsound
  obtain ⟨cs, g1, g2, _, _⟩ := h.slot hs
  have hc : (cellsAt m a.blk a.off s.size).length = new.length := by
    simp only [cellsAt, g1, hl]; simp; omega
  have hw := splice_whole hc
  have := graph_store h hs (k := 0) (al := al) (new := new) (by omega) hal (by rw [hw]; exact hsound) (by rw [hw]; exact hg)
  rw [hw] at this
  exact this

/-- A store of bytes into an array of bytes. -/
theorem graph_store_bytes (h : Graph lay T m) {a : Addr} {n : Nat} (ha : ArrayAt T a .b8 n) (v : Bytes) (hv : v.length ≤ n) :
    ∃ m', store m a (byteCells v) 1 = .ok m' ∧ Graph lay T m' ∧ Later T m T m' := by
  obtain ⟨N, sl, h1, _, h3, h4⟩ := ha
  simp only [Shape.size, Nat.mul_one] at h3 h4
  obtain ⟨cs, g1, g2, g3, g4⟩ := h.mem h1
  have hl : a.off + (byteCells v).length ≤ cs.length := by simp; omega
  -- a slot is one of the bytes or elsewhere
  have hq : ∀ q ∈ sl, (∃ x, q.2 = .b8 ∧ ((splice cs a.off (byteCells v)).drop q.1).take 1 = [.byte x]) ∨
      ((splice cs a.off (byteCells v)).drop q.1).take q.2.size = (cs.drop q.1).take q.2.size := by
    intro q hq
    by_cases he : ∃ i, i < v.length ∧ q = (a.off + i, Shape.b8)
    · obtain ⟨i, hi, rfl⟩ := he
      refine .inl ⟨v[i], rfl, ?_⟩
      apply List.ext_getElem?
      intro j
      rw [List.getElem?_take, List.getElem?_drop, splice_get hl]
      cases j with
      | zero =>
        simp only [Nat.zero_lt_one, if_true, Nat.add_zero]
        rw [if_pos (by simp; omega)]
        simp only [byteCells, Nat.add_sub_cancel_left, List.getElem?_map, List.getElem?_eq_getElem hi]
        rfl
      | succ j => simp
    · refine .inr (cells_apart (P := region a.off v.length) (fun i hi => ?_) (fun i hi1 hi2 => ?_))
      · unfold region at hi
        rw [splice_get hl, if_neg (by simpa using hi)]
      · unfold region
        intro hr
        rcases g2.2 q hq _ (h4 (i - a.off) (by omega)) with e | e | e
        · exact he ⟨i - a.off, by omega, e⟩
        · simp only at e; omega
        · simp only [Shape.size] at e; omega
  obtain ⟨f1, f2⟩ := graph_put h h1 (cs' := splice cs a.off (byteCells v)) g1 (splice_length hl)
    (fun q hq' => by
      rcases hq q hq' with ⟨x, e1, e2⟩ | e
      · rw [e1]; exact ⟨x, e2⟩
      · rw [e]; exact g4 q hq')
    (fun q hq' => by
      rcases hq q hq' with ⟨x, e1, e2⟩ | e
      · rw [e1]; exact trivial
      · rw [e]; exact Grew.refl _ _)
  refine ⟨_, ?_, f1, f2⟩
  simp only [store, Nat.mod_one, g1, ne_eq, not_true, if_false, hl, if_true]

end Pb.Flat
