import Verif.Proofs.Graph
import Verif.Proofs.FlatSlice
/-
Decode functions in typed memory: they run without a fault and leave typed memory (helper lemmas for `Props/Graph.lean`).
-/
namespace Pb.Flat

variable {lay : Lay} {T T' : Types} {m m' : Mem}

/-- The decode function `decF` on typed memory, at a slot of shape `s`, returns what `dec` returns for some value, whatever that
is, and leaves typed memory. -/
def GSim (lay : Lay) (s : Shape) (dec : Bytes → Val → Except Fault DRes) (decF : DecF) : Prop :=
  ∀ b v q, dec b v = .ok q → ∀ T m a, Graph lay T m → SlotAt T a s →
    ∃ m' T', decF b m a = .ok ⟨m', outOf q⟩ ∧ Graph lay T' m' ∧ Later T m T' m'

/-! ### Scalars -/

theorem out_mk (v w : Val) (n : Nat) (e : Option Err) : outOf (DRes.mk v n e) = outOf (DRes.mk w n e) := by
  cases e <;> rfl

theorem decodeScalar_out {s : Scalar} {b v q} (h : decodeScalar s b v = .ok q) :
    (s = .bool ∧ b = [] ∧ outOf q = .error .unexpectedEOF) ∨
    (¬ (s = .bool ∧ b = []) ∧ ∃ q', decodeScalar s b s.shape.zero = .ok q' ∧ outOf q' = outOf q ∧ ScalarOf s.shape (valOf q')) := by
  cases s with
  | bool =>
    cases b with
    | nil => cases h; exact .inl ⟨rfl, rfl, rfl⟩
    | cons c b =>
      refine .inr ⟨by simp, ?_⟩
      simp only [decodeScalar, bind, Except.bind] at h
      split at h
      · cases h
      · cases h; exact ⟨_, rfl, rfl, trivial⟩
  | string =>
    refine .inr ⟨by simp, ?_⟩
    simp only [decodeScalar, bind, Except.bind] at h
    rcases hv : decodeVarlen b with e | ⟨x, n, err⟩ <;> rw [hv] at h
    · cases h
    simp only at h
    simp only [decodeScalar, bind, Except.bind, hv]
    by_cases hn : n = 0
    · simp only [hn, if_true] at h ⊢
      split at h
      · cases h
      · cases h
        exact ⟨_, rfl, out_mk _ _ _ _, scalar_mk trivial⟩
    · simp only [hn, if_false] at h ⊢
      split at h
      · cases h
      · cases h
        exact ⟨_, rfl, out_mk _ _ _ _, scalar_mk trivial⟩
  | float32 | int32 | uint32 | fixed32 | zigzag32 =>
    refine .inr ⟨by simp, ?_⟩
    simp only [decodeScalar, bind, Except.bind] at h
    split at h
    · cases h
    · cases h
      exact ⟨_, rfl, out_mk _ _ _ _, scalar_mk trivial⟩
  | float64 | int64 | uint64 | fixed64 | zigzag64 =>
    refine .inr ⟨by simp, ?_⟩
    simp only [decodeScalar, bind, Except.bind] at h
    split at h
    · cases h
    · cases h
      exact ⟨_, rfl, out_mk _ _ _ _, scalar_mk trivial⟩

/-- At offset `k` in a slot of shape `S` there is a scalar of shape `s`. -/
structure Part (S s : Shape) (k : Nat) : Prop where
  within : k + s.size ≤ S.size
  align : S.align = s.align ∧ k % s.align = 0
  sound : ∀ {lay T c new}, Sound lay T S c → Sound lay T s new → Sound lay T S (splice c k new)
  grew : ∀ c c', Grew S c c'

theorem part_self (s : Scalar) : Part s.shape s.shape 0 where
  within := by omega
  align := ⟨rfl, by simp⟩
  sound := by
    intro lay T c new h1 h2
    rw [splice_whole (by rw [sound_length h1, sound_length h2])]
    exact h2
  grew := by cases s <;> intro c c' <;> trivial

theorem part_opt (s : Scalar) : Part (.opt s.shape) s.shape (optOff s.shape) where
  within := opt_size_le _
  align := ⟨rfl, by rw [optOff_eq]; simp⟩
  sound := by
    intro lay T c new h1 h2
    obtain ⟨h3, ⟨x, h4⟩, h5⟩ := h1
    have hl := sound_length h2
    have hle := opt_size_le s.shape
    have hoff : 1 ≤ optOff s.shape := by rw [optOff_eq]; exact align_pos _
    refine ⟨by rw [splice_length (by omega)]; exact h3, ⟨x, ?_⟩, ?_⟩
    · rw [← h4]
      have := cells_apart (cs := c) (cs' := splice c (optOff s.shape) new) (P := region (optOff s.shape) new.length)
        (o := 0) (n := 1) (fun i hi => by unfold region at hi; rw [splice_get (by omega), if_neg hi])
        (fun i _ hi => by unfold region; omega)
      simpa using this
    · have := splice_same (cs := c) (new := new) (o := optOff s.shape) (by omega)
      rw [hl] at this
      rw [this]; exact h2
  grew := fun _ _ => trivial

theorem cellsAt_sound (h : Graph lay T m) {a s} (hs : SlotAt T a s) : Sound lay T s (cellsAt m a.blk a.off s.size) := by
  obtain ⟨cs, h1, _, _, h4⟩ := h.slot hs
  simp only [cellsAt, h1]; exact h4

theorem slot_mod (h : Graph lay T m) {a s} (hs : SlotAt T a s) : a.off % s.align = 0 := by
  obtain ⟨cs, _, _, h3, _⟩ := h.slot hs
  exact h3

/-- Storing a scalar. -/
theorem graph_storeVal (h : Graph lay T m) {a : Addr} {S s : Shape} {k : Nat} {x : Val} (hp : Part S s k) (hs : SlotAt T a S)
    (hx : ScalarOf s x) : ∃ m' T', storeVal m (a.add k) x = .ok m' ∧ Graph lay T' m' ∧ Later T m T' m' := by
  have hmod := slot_mod h hs
  have put : ∀ {T m new al}, Graph lay T m → SlotAt T a S → Sound lay T s new → s.align % al = 0 →
      ∃ m', store m (a.add k) new al = .ok m' ∧ Graph lay T m' ∧ Later T m T m' := by
    intro T m new al h hs hn hal
    have hmod' : (a.off + k) % al = 0 := by
      have h1 : (a.off + k) % s.align = 0 := add_mod_align (by rw [← hp.align.1]; exact hmod) hp.align.2
      exact Nat.mod_eq_zero_of_dvd (Nat.dvd_trans (Nat.dvd_of_mod_eq_zero hal) (Nat.dvd_of_mod_eq_zero h1))
    obtain ⟨m', g1, g2, g3, _⟩ := graph_store h hs (k := k) (al := al) (new := new)
      (by have := hp.within; rw [sound_length hn]; exact this) hmod' (hp.sound (cellsAt_sound h hs) hn) (hp.grew _ _)
    exact ⟨m', g1, g2, g3⟩
  cases s with
  | b8 =>
    cases x with
    | b8 x =>
      obtain ⟨m', g⟩ := put (new := boolCells x) (al := 1) h hs ⟨_, rfl⟩ rfl
      exact ⟨m', T, g⟩
    | _ => exact hx.elim
  | w32 =>
    cases x with
    | w32 x =>
      obtain ⟨m', g⟩ := put (new := byteCells (encodeLE32 [] x)) (al := 4) h hs ⟨_, by simp [encodeLE32], rfl⟩ rfl
      exact ⟨m', T, g⟩
    | _ => exact hx.elim
  | w64 =>
    cases x with
    | w64 x =>
      obtain ⟨m', g⟩ := put (new := byteCells (encodeLE64 [] x)) (al := 8) h hs ⟨_, by simp [encodeLE64], rfl⟩ rfl
      exact ⟨m', T, g⟩
    | _ => exact hx.elim
  | str =>
    cases x with
    | str x =>
      cases x with
      | nil =>
        obtain ⟨m', g⟩ := put (new := ptrCells none ++ intCells 0) (al := 8) h hs ⟨_, _, rfl, .inl rfl⟩ rfl
        exact ⟨m', T, g⟩
      | cons c x =>
        obtain ⟨e1, e2⟩ := graph_alloc h (.text (c :: x)) (.ro (c :: x)) rfl
        obtain ⟨m', g1, g2, g3⟩ := put (new := ptrCells (some ⟨m.length, 0⟩) ++ intCells (c :: x).length) (al := 8) e1 (hs.ext _)
          ⟨_, _, rfl, .inr ⟨_, c :: x, rfl, by rw [← h.1]; simp, by simp⟩⟩ rfl
        exact ⟨m', _, g1, g2, e2.trans g3⟩
    | _ => exact hx.elim
  | _ => cases x <;> exact hx.elim

theorem graph_scalar {s : Scalar} {b v q} (hd : decodeScalar s b v = .ok q) (h : Graph lay T m) {a : Addr} {S : Shape} {k : Nat}
    (hp : Part S s.shape k) (hs : SlotAt T a S) :
    ∃ m' T', decodeScalarF s b m (a.add k) = .ok ⟨m', outOf q⟩ ∧ Graph lay T' m' ∧ Later T m T' m' := by
  rcases decodeScalar_out hd with ⟨rfl, rfl, h1⟩ | ⟨h1, q', h2, h3, h4⟩
  · exact ⟨m, T, by rw [h1]; rfl, h, Later.refl _ _⟩
  · obtain ⟨m', T', g1, g2, g3⟩ := graph_storeVal h hp hs h4
    refine ⟨m', T', ?_, g2, g3⟩
    simp only [decodeScalarF, h1, if_false, h2, bind, Except.bind]
    rw [← h3]
    cases q' with
    | ok v n => simp only [valOf] at g1; simp only [g1]; rfl
    | err v e => simp only [valOf] at g1; simp only [g1]; rfl

theorem gsim_scalar (s : Scalar) : GSim lay s.shape (decodeScalar s) (decodeScalarF s) := by
  intro b v q hd T m a h hs
  exact graph_scalar hd h (part_self s) hs

theorem gsim_option (s : Scalar) : GSim lay (.opt s.shape) (decodeOption s) (decodeOptionF s) := by
  intro b v q hd T m a h hs
  have hq : ∃ w q', decodeScalar s b w = .ok q' ∧ outOf q' = outOf q := by
    cases v with
    | opt x w =>
      simp only [decodeOption, bind, Except.bind] at hd
      rcases hw : decodeScalar s b w with e | q' <;> rw [hw] at hd
      · cases hd
      · cases hd
        exact ⟨w, q', hw, by cases q' <;> rfl⟩
    | _ => cases hd
  obtain ⟨w, q', hw, ho⟩ := hq
  have hpos := opt_size_pos s.shape
  have hsound := cellsAt_sound h hs
  obtain ⟨k1, ⟨x, k2⟩, k3⟩ := hsound
  have hoff : 1 ≤ optOff s.shape := by rw [optOff_eq]; exact align_pos _
  obtain ⟨m1, g1, g2, g3, _⟩ := graph_store h hs (k := 0) (al := 1) (new := boolCells true) (by simpa using hpos) (by omega)
    ⟨by rw [splice_length (by simp; omega)]; exact k1,
     ⟨_, by have := splice_same (cs := cellsAt m a.blk a.off (Shape.opt s.shape).size) (new := boolCells true) (o := 0) (by simp; omega)
            rw [List.drop_zero] at this; exact this⟩, by
      rw [cells_apart (cs := cellsAt m a.blk a.off (Shape.opt s.shape).size) (P := region 0 1)
        (fun i hi => by unfold region at hi; rw [splice_get (by simp; omega), if_neg (by simpa using hi)])
        (fun i hi _ => by unfold region; omega)]
      exact k3⟩ trivial
  obtain ⟨m2, T2, f1, f2, f3⟩ := graph_scalar hw g2 (part_opt s) (g3.slot hs)
  refine ⟨m2, T2, ?_, f2, g3.trans f3⟩
  rw [add_zero] at g1
  simp only [decodeOptionF, g1, bind, Except.bind, f1, ho]

/-! ### Byte slices -/

theorem graph_ptr8 (h : Graph lay T m) {a s} (hs : SlotAt T a s) (ha : s.align = 8) {d y}
    (hc : cellsAt m a.blk a.off s.size = ptrCells d ++ y) : loadPtr m a = .ok d := by
  obtain ⟨cs, h1, h2, h3, _⟩ := h.slot hs
  simp only [cellsAt, h1] at hc
  rw [ha] at h3
  exact loadPtr_at h1 h2 hc h3

theorem graph_int (h : Graph lay T m) {a s} (hs : SlotAt T a s) (ha : s.align = 8) {k n x y}
    (hc : cellsAt m a.blk a.off s.size = x ++ (intCells n ++ y)) (hx : x.length = k) (hk : k % 8 = 0) :
    loadInt m (a.add k) = .ok n := by
  obtain ⟨cs, h1, h2, h3, _⟩ := h.slot hs
  simp only [cellsAt, h1] at hc
  rw [ha] at h3
  exact loadInt_slot h1 h2 hc hx (by omega)

/-- A header. -/
theorem graph_header (h : Graph lay T m) {a s} (hs : SlotAt T a s) (ha : s.align = 8) {d n cap}
    (hc : cellsAt m a.blk a.off s.size = sliceCells d n cap) :
    loadPtr m a = .ok d ∧ loadInt m (a.add 8) = .ok n ∧ loadInt m (a.add 16) = .ok cap :=
  ⟨graph_ptr8 h hs ha hc, graph_int h hs ha hc (by simp) rfl,
    graph_int (x := ptrCells d ++ intCells n) (y := []) h hs ha (by rw [hc]; simp [sliceCells]) (by simp) rfl⟩

theorem array_alloc_bytes (N : Nat) (h : Graph lay T m) (bs : Bytes) (hN : bs.length = N) :
    ∃ κ, Graph lay (T ++ [κ]) (m ++ [.mem (byteCells bs)]) ∧ Later T m (T ++ [κ]) (m ++ [.mem (byteCells bs)]) ∧
      ArrayAt (T ++ [κ]) ⟨m.length, 0⟩ .b8 N := by
  have hmem : ∀ q : Nat × Shape, q ∈ elemSlots .b8 0 N → ∃ i, i < N ∧ q = (i, .b8) := by
    intro q hq
    have := elemSlots_mem hq
    simp only [Shape.size] at this
    exact ⟨q.1, by omega, by rw [← this.2.1]⟩
  have hget : ∀ i, i < N → (i, Shape.b8) ∈ elemSlots .b8 0 N := by
    intro i hi
    have := elemSlots_get .b8 N 0 i hi
    simp only [Shape.size, Nat.mul_one, Nat.zero_add] at this
    exact List.mem_of_getElem? this
  obtain ⟨g1, g2⟩ := graph_alloc h (.mem N (elemSlots .b8 0 N)) (.mem (byteCells bs)) (by
    refine ⟨⟨?_, ?_⟩, by simpa using hN, ?_⟩
    · intro q hq
      obtain ⟨i, hi, rfl⟩ := hmem q hq
      simp [Shape.align, Shape.size, Nat.mod_one]; omega
    · intro p hp q hq
      obtain ⟨i, hi, rfl⟩ := hmem p hp
      obtain ⟨j, hj, rfl⟩ := hmem q hq
      simp only [Shape.size, Prod.mk.injEq, and_true]
      omega
    · intro q hq
      obtain ⟨i, hi, rfl⟩ := hmem q hq
      have hi' : i < bs.length := by omega
      refine ⟨bs[i], ?_⟩
      apply List.ext_getElem?
      intro j
      rw [List.getElem?_take, List.getElem?_drop]
      cases j with
      | zero => simp [byteCells, Shape.size, hi']
      | succ j => simp [Shape.size])
  refine ⟨_, g1, g2, N, elemSlots .b8 0 N, by rw [← h.1]; simp, by simp [Shape.align], by simp [Shape.size], ?_⟩
  intro i hi
  simpa [Shape.size] using hget i hi

theorem graph_appendBytes {grow : Nat → Nat → Nat} (hg : ∀ c n, n ≤ grow c n) (h : Graph lay T m) {a} (hs : SlotAt T a .bytes) (v : Bytes)
    {d n cap} (hc : cellsAt m a.blk a.off 24 = sliceCells (some d) n cap) (hd : ArrayAt T d .b8 cap) :
    ∃ m' T', appendBytes grow m a v = .ok m' ∧ Graph lay T' m' ∧ Later T m T' m' := by
  obtain ⟨e1, e2, e3⟩ := graph_header h hs rfl hc
  have hmod : a.off % 8 = 0 := slot_mod h hs
  simp only [appendBytes, e1, e3, bind, Except.bind]
  by_cases hcap : v.length ≤ cap
  · rw [if_pos hcap]
    obtain ⟨m1, g1, g2, g3⟩ := graph_store_bytes h hd v hcap
    obtain ⟨m2, f1, f2, f3, _⟩ := graph_store_slot g2 hs (al := 8) (new := sliceCells (some d) v.length cap) hmod
      (.inr ⟨d, v.length, cap, rfl, hcap, hd⟩) trivial
    exact ⟨m2, T, by rw [g1]; exact f1, f2, g3.trans f3⟩
  · rw [if_neg hcap]
    simp only [alloc]
    have hgr := hg cap v.length
    rw [zeroCells_eq, show byteCells v ++ byteCells (List.replicate (grow cap v.length - v.length) 0#8) =
      byteCells (v ++ List.replicate (grow cap v.length - v.length) 0#8) by simp [byteCells]]
    obtain ⟨κ, g1, g2, g3⟩ := array_alloc_bytes (grow cap v.length) h (v ++ List.replicate (grow cap v.length - v.length) 0#8)
      (by simp; omega)
    obtain ⟨m2, f1, f2, f3, _⟩ := graph_store_slot g1 (hs.ext [κ]) (al := 8)
      (new := sliceCells (some ⟨m.length, 0⟩) v.length (grow cap v.length)) hmod
      (.inr ⟨_, v.length, grow cap v.length, rfl, hgr, g3⟩) trivial
    exact ⟨m2, _, f1, f2, g2.trans f3⟩

theorem gsim_bytes {grow : Nat → Nat → Nat} (hg : ∀ c n, n ≤ grow c n) : GSim lay .bytes decodeBytes (decodeBytesF grow) := by
  intro b v q hd T m a h hs
  simp only [decodeBytes, bind, Except.bind] at hd
  rcases hv : decodeVarlen b with e | ⟨x, n, err⟩ <;> rw [hv] at hd
  · cases hd
  simp only at hd
  have hq : outOf q = outOf (DRes.mk (.bytes (some x)) n err) := by
    cases v with
    | bytes old => cases hd; rfl
    | _ => cases hd
  rw [hq]
  simp only [decodeBytesF, hv, bind, Except.bind]
  have hmod : a.off % 8 = 0 := slot_mod h hs
  rcases cellsAt_sound h hs with hc | ⟨d, k, cap, hc, hle, hd⟩
  · rw [(graph_header h hs rfl hc).1]
    simp only [alloc]
    rw [zeroCells_eq]
    obtain ⟨κ, g1, g2, g3⟩ := array_alloc_bytes x.length h (List.replicate x.length 0#8) (by simp)
    obtain ⟨m1, f1, f2, f3, f4⟩ := graph_store_slot g1 (hs.ext [κ]) (al := 8)
      (new := sliceCells (some ⟨m.length, 0⟩) 0 x.length) hmod
      (.inr ⟨_, 0, x.length, rfl, by omega, g3⟩) trivial
    obtain ⟨m2, T2, k1, k2, k3⟩ := graph_appendBytes hg f2 (f3.slot (hs.ext [κ])) x f4 (f3.array g3)
    refine ⟨m2, T2, ?_, k2, g2.trans (f3.trans k3)⟩
    rw [f1]
    simp only [k1]
    rw [res_mk' m2 (.bytes (some x))]; rfl
  · rw [(graph_header h hs rfl hc).1]
    simp only
    obtain ⟨m2, T2, k1, k2, k3⟩ := graph_appendBytes hg h hs x hc hd
    refine ⟨m2, T2, ?_, k2, k3⟩
    rw [k1]
    simp only
    rw [res_mk' m2 (.bytes (some x))]; rfl

end Pb.Flat
