import Verif.Proofs.FlatFrame
/-
Decode functions on raw memory (helper lemmas for `Props/Flat.lean`).
-/
namespace Pb.Flat

variable {lay : Lay} {m m' : Mem}

/-- The count or the error of a result. -/
def outOf : DRes → Except Err Nat
  | .ok _ n => .ok n
  | .err _ e => .error e

/-- The slot afterwards. -/
def valOf : DRes → Val
  | .ok v _ => v
  | .err v _ => v

/-- Afterwards the slot holds `v`; nothing has changed but the slot and what was reached from it. -/
def After (lay : Lay) (m m' : Mem) (a : Addr) (s : Shape) (v : Val) (B : List Nat) : Prop :=
  ∃ B', Slot lay m' a s v B' ∧ (a.blk :: B').Nodup ∧ Upd m m' a.blk (region a.off s.size) B ∧ ∀ x ∈ B', x ∈ B ∨ m.length ≤ x

/-- The decode function `decF` on memory does what `dec` does on slots of shape `s`. -/
def Sim (lay : Lay) (s : Shape) (dec : Bytes → Val → Except Fault DRes) (decF : DecF) : Prop :=
  ∀ b m a v B r, Slot lay m a s v B → (a.blk :: B).Nodup → dec b v = .ok r →
    ∃ m', decF b m a = .ok ⟨m', outOf r⟩ ∧ After lay m m' a s (valOf r) B

theorem slot_lt {a s v B} (h : Slot lay m a s v B) : a.blk < m.length := by
  obtain ⟨cs, h1, _⟩ := h
  exact lt_of_get h1

theorem slot_blocks {a s v B} (h : Slot lay m a s v B) : ∀ x ∈ B, x < m.length := by
  obtain ⟨cs, _, _, _, h⟩ := h
  exact rep_lt h

theorem After.refl {a s v B} (h : Slot lay m a s v B) (hn : (a.blk :: B).Nodup) : After lay m m a s v B :=
  ⟨B, h, hn, Upd.refl _ _ _ _, fun _ hx => .inl hx⟩

theorem After.trans {m1 m2 m3 : Mem} {a s B C w} (h : Upd m1 m2 a.blk (region a.off s.size) B)
    (hC : ∀ x ∈ C, x ∈ B ∨ m1.length ≤ x) (h2 : After lay m2 m3 a s w C) : After lay m1 m3 a s w B := by
  obtain ⟨B', g1, g2, g3, g4⟩ := h2
  refine ⟨B', g1, g2, h.trans g3 hC, ?_⟩
  intro x hx
  rcases g4 x hx with h1 | h1
  · exact hC x h1
  · exact .inr (Nat.le_trans h.len h1)

/-- A store of a whole slot, whatever it held. -/
theorem store_cells {a : Addr} {s : Shape} {cs new : List Cell} {v' B' al} (hm : m[a.blk]? = some (.mem cs))
    (hl : a.off + s.size ≤ cs.length) (ha : a.off % s.align = 0) (hnew : new.length = s.size) (hal : a.off % al = 0)
    (hrep : ∀ m', Upd m m' a.blk (region a.off s.size) [] → m'.length = m.length → Rep lay m' s new v' B') :
    ∃ m', store m a new al = .ok m' ∧ Slot lay m' a s v' B' ∧ Upd m m' a.blk (region a.off s.size) [] ∧
      m'.length = m.length := by
  obtain ⟨m', h1, h2, h3, h4⟩ := store_ok (new := new) hm (by omega) hal
  rw [hnew] at h4
  refine ⟨m', h1, ⟨_, h2, ?_, ha, ?_⟩, h4, h3⟩
  · rw [splice_length (by omega)]; exact hl
  · have := splice_same (cs := cs) (new := new) (o := a.off) (by omega)
    rw [hnew] at this
    rw [this]
    exact hrep m' h4 h3

/-- A store of a whole slot. -/
theorem store_slot {a s v B new v' B' al} (h : Slot lay m a s v B) (hnew : new.length = s.size) (hal : a.off % al = 0)
    (hrep : ∀ m', Upd m m' a.blk (region a.off s.size) [] → m'.length = m.length → Rep lay m' s new v' B') :
    ∃ m', store m a new al = .ok m' ∧ Slot lay m' a s v' B' ∧ Upd m m' a.blk (region a.off s.size) [] ∧
      m'.length = m.length := by
  obtain ⟨cs, hm, hl, ha, _⟩ := h
  exact store_cells hm hl ha hnew hal hrep

/-- A slot that is not touched. -/
theorem slot_frame {a s v B} (h : Slot lay m a s v B) {b P C} (hu : Upd m m' b P C) (ha : a.blk ≠ b) (haC : a.blk ∉ C)
    (hB : ∀ x ∈ B, x ≠ b ∧ x ∉ C) : Slot lay m' a s v B := by
  have hlt := slot_blocks h
  obtain ⟨cs, hm, hl, hal, h⟩ := h
  exact ⟨cs, hu.get hm ha haC, hl, hal, rep_frame hu.ro h fun x hx => hu.same x (hlt x hx) (hB x hx).1 (hB x hx).2⟩

theorem slot_alloc {a s v B} (h : Slot lay m a s v B) (o : Obj) : Slot lay (m ++ [o]) a s v B := by
  have hlt := slot_lt h
  have hB := slot_blocks h
  have hu := alloc_upd m o m.length (fun _ => False)
  exact slot_frame h hu (by omega) (by simp) fun x hx => ⟨by have := hB x hx; omega, by simp⟩

/-! ### Scalars -/

/-- A value of a scalar shape. -/
def ScalarOf : Shape → Val → Prop
  | .b8, .b8 _ => True
  | .w32, .w32 _ => True
  | .w64, .w64 _ => True
  | .str, .str _ => True
  | _, _ => False

theorem storeVal_slot {a s v B x} (hx : ScalarOf s x) (h : Slot lay m a s v B) :
    ∃ m', storeVal m a x = .ok m' ∧ Slot lay m' a s x [] ∧ Upd m m' a.blk (region a.off s.size) [] := by
  have ha : a.off % s.align = 0 := by obtain ⟨_, _, _, ha, _⟩ := h; exact ha
  cases s with
  | b8 =>
    cases x with
    | b8 x =>
      obtain ⟨m', h1, h2, h3, _⟩ := store_slot (al := 1) (new := boolCells x) h rfl (by omega) fun _ _ _ => .b8 x
      exact ⟨m', h1, h2, h3⟩
    | _ => exact hx.elim
  | w32 =>
    cases x with
    | w32 x =>
      obtain ⟨m', h1, h2, h3, _⟩ := store_slot (al := 4) (new := byteCells (encodeLE32 [] x)) h
        (by simp [encodeLE32, Shape.size]) (by simpa [Shape.align] using ha) fun _ _ _ => by
          rw [encodeLE32_eq, List.nil_append]; exact .w32 x
      exact ⟨m', h1, h2, h3⟩
    | _ => exact hx.elim
  | w64 =>
    cases x with
    | w64 x =>
      obtain ⟨m', h1, h2, h3, _⟩ := store_slot (al := 8) (new := byteCells (encodeLE64 [] x)) h
        (by simp [encodeLE64, Shape.size]) (by simpa [Shape.align] using ha) fun _ _ _ => by
          rw [encodeLE64_eq, List.nil_append]; exact .w64 x
      exact ⟨m', h1, h2, h3⟩
    | _ => exact hx.elim
  | str =>
    cases x with
    | str x =>
      cases x with
      | nil =>
        obtain ⟨m', h1, h2, h3, _⟩ := store_slot (al := 8) (new := ptrCells none ++ intCells 0) h
          (by simp [Shape.size]) (by simpa [Shape.align] using ha) fun _ _ _ => .strNil none
        exact ⟨m', h1, h2, h3⟩
      | cons c x =>
        have hu := alloc_upd m (.ro (c :: x)) a.blk (region a.off (Shape.size .str))
        obtain ⟨m', h1, h2, h3, _⟩ := store_slot (al := 8) (new := ptrCells (some ⟨m.length, 0⟩) ++ intCells (c :: x).length)
          (slot_alloc h (.ro (c :: x))) (by simp [Shape.size]) (by simpa [Shape.align] using ha) fun m' hu' _ =>
            .str ⟨m.length, 0⟩ (c :: x) (c :: x) (hu'.ro _ _ (alloc_get m _)) (by simp) (by simp)
        exact ⟨m', h1, h2, hu.trans h3 (by simp)⟩
    | _ => exact hx.elim
  | _ => cases x <;> exact hx.elim

theorem rep_scalar {s : Scalar} {cs v B} (h : Rep lay m s.shape cs v B) : B = [] ∧ ScalarOf s.shape v := by
  generalize hs : s.shape = t at h
  cases h with
  | b8 | w32 | w64 | strNil | str => exact ⟨rfl, trivial⟩
  | _ => cases s <;> cases hs

theorem slot_scalar {s : Scalar} {a v B} (h : Slot lay m a s.shape v B) : B = [] ∧ ScalarOf s.shape v := by
  obtain ⟨cs, _, _, _, h⟩ := h
  exact rep_scalar h

theorem scalar_mk {s : Shape} {v : Val} {n e} (h : ScalarOf s v) : ScalarOf s (valOf (DRes.mk v n e)) := by
  cases e <;> exact h

/-- A scalar decode function stores a value that does not depend on the old one. -/
theorem decodeScalar_flat {s : Scalar} {b v r} (hv : ScalarOf s.shape v) (h : decodeScalar s b v = .ok r) :
    (s = .bool ∧ b = [] ∧ r = .err v .unexpectedEOF) ∨
    (¬ (s = .bool ∧ b = []) ∧ decodeScalar s b s.shape.zero = .ok r ∧ ScalarOf s.shape (valOf r)) := by
  cases s with
  | bool =>
    cases v with
    | b8 x =>
      cases b with
      | nil => cases h; exact .inl ⟨rfl, rfl, rfl⟩
      | cons c b => cases h; exact .inr ⟨by simp, rfl, trivial⟩
    | _ => exact hv.elim
  | string =>
    cases v with
    | str x =>
      refine .inr ⟨by simp, ?_, ?_⟩
      · exact h
      · simp only [decodeScalar, bind, Except.bind, writeStr] at h
        split at h
        · cases h
        · split at h <;> cases h <;> exact scalar_mk trivial
    | _ => exact hv.elim
  | float32 | int32 | uint32 | fixed32 | zigzag32 =>
    cases v with
    | w32 x =>
      refine .inr ⟨by simp, h, ?_⟩
      simp only [decodeScalar, bind, Except.bind, write32] at h
      cases h
      exact scalar_mk trivial
    | _ => exact hv.elim
  | float64 | int64 | uint64 | fixed64 | zigzag64 =>
    cases v with
    | w64 x =>
      refine .inr ⟨by simp, h, ?_⟩
      simp only [decodeScalar, bind, Except.bind, write64] at h
      cases h
      exact scalar_mk trivial
    | _ => exact hv.elim

theorem sim_scalar (s : Scalar) : Sim lay s.shape (decodeScalar s) (decodeScalarF s) := by
  intro b m a v B r h hn hr
  obtain ⟨rfl, hs⟩ := slot_scalar h
  rcases decodeScalar_flat hs hr with ⟨rfl, rfl, rfl⟩ | ⟨h1, h2, h3⟩
  · exact ⟨m, rfl, After.refl h hn⟩
  · obtain ⟨m', g1, g2, g3⟩ := storeVal_slot h3 h
    refine ⟨m', ?_, [], g2, by simp, g3, by simp⟩
    simp only [decodeScalarF, h1, if_false, h2, bind, Except.bind]
    cases r with
    | ok v n => simp only [valOf] at g1; simp only [g1]; rfl
    | err v e => simp only [valOf] at g1; simp only [g1]; rfl

/-! ### Option -/

theorem sim_option (s : Scalar) : Sim lay (.opt s.shape) (decodeOption s) (decodeOptionF s) := by
  intro b m a v B r h hn hr
  obtain ⟨x, w, rfl, _, h2⟩ := slot_opt h
  obtain ⟨rfl, hs⟩ := slot_scalar h2
  obtain ⟨cs, hm, hl, ha, hrep⟩ := h
  have hle := opt_size_le s.shape
  have hp := opt_size_pos s.shape
  have hoff : 1 ≤ optOff s.shape := by rw [optOff_eq]; exact align_pos _
  simp only [decodeOption, bind, Except.bind] at hr
  rcases hd : decodeScalar s b w with e | q <;> rw [hd] at hr
  · cases hr
  cases hr
  -- the flag
  obtain ⟨m1, g1, g2, g3, g4⟩ := store_ok (new := boolCells true) (al := 1) hm (by simp; omega) (by omega)
  have hsp := splice_length (cs := cs) (new := boolCells true) (o := a.off) (by simp; omega)
  have hslot1 : Slot lay m1 (a.add (optOff s.shape)) s.shape w [] := by
    obtain ⟨cs0, k1, k2, k3, k4⟩ := h2
    have : cs0 = cs := by
      have := hm.symm.trans k1
      cases this; rfl
    subst this
    refine ⟨_, g2, by rw [hsp]; exact k2, k3, ?_⟩
    rw [cells_apart (cs := cs0) (P := region a.off 1) (fun i hi => by
      unfold region at hi
      rw [splice_get (by simp; omega), if_neg (by simpa using hi)])
      (fun i _ _ => by unfold region; simp [Addr.add] at *; omega)]
    exact rep_frame g4.ro k4 (by simp)
  -- the value
  obtain ⟨m2, f1, B', f2, f3, f4, f5⟩ := sim_scalar (lay := lay) s b m1 _ w [] q hslot1 (by simp) hd
  obtain ⟨rfl, _⟩ := slot_scalar f2
  obtain ⟨cs2, c1, c2, c3⟩ := f4.here _ g2
  refine ⟨m2, ?_, [], ⟨cs2, c1, ?_, ha, ?_⟩, by simp, ?_, by simp⟩
  · simp only [decodeOptionF, g1, bind, Except.bind, f1]
    cases q <;> rfl
  · rw [c2, hsp]; exact hl
  · have hval : valOf (DRes.wrap (Val.opt true) q) = .opt true (valOf q) := by cases q <;> rfl
    rw [hval]
    have hc2 : cs2.length = cs.length := by rw [c2, hsp]
    refine .opt _ _ true _ [] (by simp; omega) ?_ ?_
    · rw [List.take_take, Nat.min_eq_left hp, cells_apart (P := region (a.add (optOff s.shape)).off s.shape.size) c3
        (fun i _ _ => by unfold region; simp [Addr.add]; omega)]
      have := splice_same (cs := cs) (new := boolCells true) (o := a.off) (by simp; omega)
      simpa using this
    · obtain ⟨cs0, k1, k2, k3, k4⟩ := f2
      have : cs0 = cs2 := by
        have := c1.symm.trans k1
        cases this; rfl
      subst this
      rw [List.drop_take, List.take_take, List.drop_drop, Nat.min_eq_left (by omega)]
      exact k4
  · refine Upd.trans (g4.weaken (fun i hi => ?_) (by simp)) (f4.weaken (fun i hi => ?_) (fun x hx => hx)) (by simp)
    · unfold region at *; simp at hi; omega
    · unfold region at *; simp [Addr.add] at hi; omega

/-! ### Pointers -/

theorem slot_aligned8 {a s v B} (h : Slot lay m a s v B) (hs : s.align = 8) : a.off % 8 = 0 := by
  obtain ⟨_, _, _, ha, _⟩ := h
  rw [hs] at ha; exact ha

/-- The slot of a pointer whose target has been decoded into. -/
theorem after_ptr {a b s w B q} (h : Slot lay m a (.ptr s) (.ptr w) (b :: B)) (hn : (a.blk :: b :: B).Nodup)
    (hp : loadPtr m a = .ok (some ⟨b, 0⟩)) (h2 : After lay m m' ⟨b, 0⟩ s q B) : After lay m m' a (.ptr s) (.ptr q) (b :: B) := by
  obtain ⟨B', f1, f2, f3, f4⟩ := h2
  have hlta := slot_lt h
  have hbl := slot_blocks h b (by simp)
  simp only [List.nodup_cons, List.mem_cons, not_or] at hn f2
  obtain ⟨⟨n1, n2⟩, n3, n4⟩ := hn
  obtain ⟨cs, hm, hl, ha, hr⟩ := h
  obtain ⟨cs', k1, k2, k3, k4⟩ := f1
  have hc : (cs.drop a.off).take (Shape.size (.ptr s)) = ptrCells (some ⟨b, 0⟩) := by
    have hp2 := hp
    generalize hc : (cs.drop a.off).take (Shape.size (.ptr s)) = c at hr
    cases hr with
    | ptr _ b' _ _ _ _ _ => rfl
  obtain ⟨c0, e1, e2, _⟩ : ∃ c0, m[b]? = some (.mem c0) ∧ c0.length = s.size ∧ True := by
    generalize hc : (cs.drop a.off).take (Shape.size (.ptr s)) = c at hr
    cases hr with
    | ptr _ _ c0 _ _ e1 e2 => exact ⟨c0, e1, rep_length e2, trivial⟩
  obtain ⟨c1, e3, e4, _⟩ := f3.here c0 e1
  simp only at k1 k2 k4
  rw [k1] at e3
  cases e3
  refine ⟨b :: B', ⟨cs, f3.get hm n1 n2, hl, ha, ?_⟩, ?_, ?_, ?_⟩
  · rw [hc]
    refine .ptr s b cs' q B' k1 ?_
    rw [List.drop_zero, List.take_of_length_le (by omega)] at k4
    exact k4
  · simp only [List.nodup_cons, List.mem_cons, not_or]
    refine ⟨⟨n1, fun hx => ?_⟩, f2.1, f2.2⟩
    rcases f4 _ hx with h | h
    · exact n2 h
    · omega
  · exact f3.inner n1 n2 (by simp) fun x hx => by simp [hx]
  · intro x hx
    rcases List.mem_cons.mp hx with rfl | hx
    · exact .inl (by simp)
    · rcases f4 x hx with h | h
      · exact .inl (by simp [h])
      · exact .inr h

/-- `reflect.New` for a nil pointer. -/
theorem new_ptr {a s} (h : Slot lay m a (.ptr s) .nilp []) :
    ∃ m1, store (m ++ [.mem (zeroCells s.size)]) a (ptrCells (some ⟨m.length, 0⟩)) 8 = .ok m1 ∧
      Slot lay m1 a (.ptr s) (.ptr s.zero) [m.length] ∧ loadPtr m1 a = .ok (some ⟨m.length, 0⟩) ∧
      Upd m m1 a.blk (region a.off 8) [] := by
  have hlta := slot_lt h
  have ha := slot_aligned8 h rfl
  obtain ⟨m1, g1, g2, g3, g4⟩ := store_slot (al := 8) (new := ptrCells (some ⟨m.length, 0⟩))
    (v' := .ptr s.zero) (B' := [m.length]) (slot_alloc h (.mem (zeroCells s.size))) (by simp [Shape.size]) ha fun m' hu _ =>
      .ptr s m.length (zeroCells s.size) _ [] (hu.get (alloc_get m _) (by omega) (by simp)) (rep_zero lay m' s)
  refine ⟨m1, g1, g2, ?_, (alloc_upd m _ _ _).trans g3 (by simp)⟩
  rcases slot_ptr g2 with ⟨h1, _⟩ | ⟨b, w, B', h1, h2, h3, _⟩
  · cases h1
  · simp at h2
    rw [h2.1]; exact h3

theorem sim_ptr {s dec decF} (hc : Sim lay s dec decF) :
    Sim lay (.ptr s)
      (fun b p => match p with
        | .nilp => do return (← dec b s.zero).wrap .ptr
        | .ptr v => do return (← dec b v).wrap .ptr
        | _ => .error .confused)
      (fun b m a => do
        match ← loadPtr m a with
        | none =>
          match alloc m (.mem (zeroCells s.size)) with
          | (p, m) =>
            let m ← store m a (ptrCells (some p)) 8
            decF b m p
        | some p => decF b m p) := by
  intro b m a v B r h hn hr
  rcases slot_ptr h with ⟨rfl, h1, rfl⟩ | ⟨b', w, B', rfl, rfl, h1, h2⟩
  · simp only [bind, Except.bind] at hr
    rcases hd : dec b s.zero with e | q <;> rw [hd] at hr
    · cases hr
    cases hr
    obtain ⟨m1, g1, g2, g3, g4⟩ := new_ptr h
    have hlt := slot_lt h
    rcases slot_ptr g2 with ⟨k1, _⟩ | ⟨b1, w, B1, k1, k2, k3, k4⟩
    · cases k1
    cases k1
    simp at k2
    obtain ⟨rfl, rfl⟩ := k2
    obtain ⟨m2, f1, f2⟩ := hc b m1 _ _ [] q k4 (by simp) hd
    have hn1 : (a.blk :: m.length :: ([] : List Nat)).Nodup := by simp; omega
    refine ⟨m2, ?_, ?_⟩
    · simp only [h1, alloc, bind, Except.bind, g1, f1]
      cases q <;> rfl
    · have := after_ptr g2 hn1 g3 f2
      have hval : valOf (DRes.wrap Val.ptr q) = .ptr (valOf q) := by cases q <;> rfl
      rw [hval]
      exact After.trans g4 (by simp) this
  · simp only [bind, Except.bind] at hr
    rcases hd : dec b w with e | q <;> rw [hd] at hr
    · cases hr
    cases hr
    obtain ⟨m2, f1, f2⟩ := hc b m _ _ _ q h2 (by simpa using (List.nodup_cons.mp hn).2) hd
    refine ⟨m2, ?_, ?_⟩
    · simp only [h1, bind, Except.bind, f1]
      cases q <;> rfl
    · have := after_ptr h hn h1 f2
      have hval : valOf (DRes.wrap Val.ptr q) = .ptr (valOf q) := by cases q <;> rfl
      rw [hval]
      exact this

end Pb.Flat
