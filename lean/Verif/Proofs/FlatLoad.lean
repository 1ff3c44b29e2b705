import Verif.Spec.Flat
import Verif.Proofs.Wire
/-
Loads from memory that represents a value (helper lemmas for `Props/Flat.lean`).
-/
namespace Pb.Flat

theorem asPtr_ptrCells (d : Option Addr) : asPtr (ptrCells d) = some d := by
  cases d with
  | none => simp [asPtr]
  | some a => simp [asPtr, ptrCells, zeroCells, List.range, List.range.loop, List.replicate]

theorem asInt_intCells (n : Nat) : asInt (intCells n) = some n := by
  by_cases h : n = 0
  · subst h; simp [asInt]
  · simp [asInt, intCells, zeroCells, List.range, List.range.loop, List.replicate, h]

theorem asBytes_byteCells (s : Bytes) : asBytes (byteCells s) = some s := by
  induction s with
  | nil => rfl
  | cons x s ih =>
    rw [byteCells] at ih ⊢
    simp [asBytes, ih]

@[simp] theorem length_ptrCells (d : Option Addr) : (ptrCells d).length = 8 := by
  cases d <;> simp [ptrCells, zeroCells]

@[simp] theorem length_intCells (n : Nat) : (intCells n).length = 8 := by
  unfold intCells; split <;> simp [zeroCells]

@[simp] theorem length_byteCells (s : Bytes) : (byteCells s).length = s.length := by simp [byteCells]

@[simp] theorem length_boolCells (x : Bool) : (boolCells x).length = 1 := rfl

@[simp] theorem length_sliceCells (d : Option Addr) (n c : Nat) : (sliceCells d n c).length = 24 := by simp [sliceCells]

@[simp] theorem length_zeroCells (n : Nat) : (zeroCells n).length = n := by simp [zeroCells]

/-! ### Alignment -/

theorem align_cases (s : Shape) : s.align = 1 ∨ s.align = 4 ∨ s.align = 8 := by
  induction s <;> simp_all [Shape.align]

theorem align_pos (s : Shape) : 0 < s.align := by have := align_cases s; omega

theorem alignUp_mod {a : Nat} (ha : 0 < a) (n : Nat) : alignUp a n % a = 0 := by
  unfold alignUp
  split
  · simp
  · rename_i h
    by_cases hn : n % a = 0
    · exact hn
    · exact absurd ⟨by omega, hn⟩ h

theorem le_alignUp (a n : Nat) : n ≤ alignUp a n := by
  unfold alignUp
  split
  · rename_i h
    have h1 := Nat.div_add_mod n a
    have h2 := Nat.mod_lt n (Nat.pos_of_ne_zero h.1)
    have h3 : (n / a + 1) * a = a * (n / a) + a := by rw [Nat.add_mul, Nat.one_mul, Nat.mul_comm]
    omega
  · exact Nat.le_refl n

theorem optOff_eq (s : Shape) : optOff s = s.align := by
  unfold optOff alignUp
  rcases align_cases s with h | h | h <;> simp [h]

theorem size_mod (s : Shape) : s.size % s.align = 0 := by
  cases s <;> simp [Shape.size, Shape.align]
  exact alignUp_mod (align_pos _) _

theorem alignedSize_eq (s : Shape) : alignedSize s = s.size := by
  unfold alignedSize alignUp
  simp [size_mod]

theorem opt_size_le (s : Shape) : optOff s + s.size ≤ (Shape.opt s).size := by
  simp only [Shape.size]
  exact le_alignUp _ _

theorem opt_size_pos (s : Shape) : 1 ≤ (Shape.opt s).size := by
  have h1 := opt_size_le s
  have h2 := align_pos s
  rw [optOff_eq] at h1
  omega

theorem mod_of_align {o : Nat} {s : Shape} (h : o % 8 = 0) : o % s.align = 0 := by
  rcases align_cases s with e | e | e <;> rw [e] <;> omega

theorem add_mod_align {o k a : Nat} (h1 : o % a = 0) (h2 : k % a = 0) : (o + k) % a = 0 := by
  rw [Nat.add_mod, h1, h2]; simp

theorem elem_mod (s : Shape) {o : Nat} (h : o % s.align = 0) (i : Nat) : (o + i * s.size) % s.align = 0 := by
  apply add_mod_align h
  rw [Nat.mul_mod, size_mod]; simp

/-! ### The cells of a slot -/

variable {lay : Lay} {m : Mem}

theorem base256_length (k n : Nat) : (Spec.base256 k n).length = k := by
  induction k generalizing n with
  | zero => rfl
  | succ k ih => simp [Spec.base256, ih]

theorem rep_length {s cs v B} (h : Rep lay m s cs v B) : cs.length = s.size := by
  cases h with
  | opt _ _ _ _ _ hl => exact hl
  | _ => simp [Shape.size, base256_length]

/-- The address `a` is that of a slot of shape `s`, which holds `v`. -/
def Slot (lay : Lay) (m : Mem) (a : Addr) (s : Shape) (v : Val) (B : List Nat) : Prop :=
  ∃ cs, m[a.blk]? = some (.mem cs) ∧ a.off + s.size ≤ cs.length ∧ a.off % s.align = 0 ∧
    Rep lay m s ((cs.drop a.off).take s.size) v B

theorem load_sub {b o k n N al : Nat} {cs : List Cell} (hm : m[b]? = some (.mem cs)) (hN : o + N ≤ cs.length)
    (hk : k + n ≤ N) (hal : (o + k) % al = 0) :
    load m ⟨b, o + k⟩ n al = .ok ((((cs.drop o).take N).drop k).take n) := by
  have h1 : o + k + n ≤ cs.length := by omega
  simp only [load, hal, hm, ne_eq, not_true, if_false, h1, if_true]
  rw [List.drop_take, List.take_take, List.drop_drop, Nat.min_eq_left (by omega)]

/-- Loads the cells at offset `k` of the slot at `a`. -/
theorem load_slot {a : Addr} {k n N al : Nat} {cs r : List Cell} (hm : m[a.blk]? = some (.mem cs))
    (hN : a.off + N ≤ cs.length) (hr : (cs.drop a.off).take N = r) (hk : k + n ≤ N) (hal : (a.off + k) % al = 0) :
    load m (a.add k) n al = .ok ((r.drop k).take n) := by
  rw [← hr]
  exact load_sub hm hN hk hal

theorem loadPtr_slot {a : Addr} {k N : Nat} {cs x y : List Cell} {d : Option Addr} (hm : m[a.blk]? = some (.mem cs))
    (hN : a.off + N ≤ cs.length) (hr : (cs.drop a.off).take N = x ++ (ptrCells d ++ y)) (hx : x.length = k)
    (hal : (a.off + k) % 8 = 0) : loadPtr m (a.add k) = .ok d := by
  have hl : ((cs.drop a.off).take N).length = N := by simp; omega
  rw [hr] at hl
  simp at hl
  rw [loadPtr, load_slot hm hN hr (by omega) hal]
  simp only [bind, Except.bind]
  subst hx
  rw [List.drop_left, List.take_left' (by simp), asPtr_ptrCells]
  rfl

theorem loadInt_slot {a : Addr} {k N n : Nat} {cs x y : List Cell} (hm : m[a.blk]? = some (.mem cs))
    (hN : a.off + N ≤ cs.length) (hr : (cs.drop a.off).take N = x ++ (intCells n ++ y)) (hx : x.length = k)
    (hal : (a.off + k) % 8 = 0) : loadInt m (a.add k) = .ok n := by
  have hl : ((cs.drop a.off).take N).length = N := by simp; omega
  rw [hr] at hl
  simp at hl
  rw [loadInt, load_slot hm hN hr (by omega) hal]
  simp only [bind, Except.bind]
  subst hx
  rw [List.drop_left, List.take_left' (by simp), asInt_intCells]
  rfl

theorem add_zero (a : Addr) : a.add 0 = a := rfl

theorem add_add (a : Addr) (i j : Nat) : (a.add i).add j = a.add (i + j) := by simp [Addr.add, Nat.add_assoc]

/-- Loads bytes of a section of memory that holds `s`. -/
theorem load_bytes {d : Addr} {cs : List Cell} {s : Bytes} (hm : m[d.blk]? = some (.mem cs))
    (hs : (cs.drop d.off).take s.length = byteCells s) (hl : d.off + s.length ≤ cs.length) :
    loadData m d s.length = .ok s := by
  simp only [loadData, hm, load, Nat.mod_one, ne_eq, not_true, if_false, hl, if_true, bind, Except.bind, hs,
    asBytes_byteCells, typed]

/-! ### Reading a slot as some scalar type -/

theorem loadBool_of {a s v B x} (hs : s ≠ .opaque) (h : Slot lay m a s v B) (hr : readB8 v = .ok x) : loadBool m a = .ok x := by
  obtain ⟨cs, hm, hl, ha, h⟩ := h
  generalize hc : (cs.drop a.off).take s.size = c at h
  cases h with
  | b8 y =>
    cases hr
    have := load_slot (k := 0) (n := 1) (al := 1) hm hl hc (by simp [Shape.size]) (by omega)
    rw [add_zero] at this
    rw [loadBool, this]
    cases x <;> simp [boolCells, bind, Except.bind, asBytes, typed, pure, Except.pure]
  | _ => first | cases hr | exact absurd rfl hs

theorem take_base256 (x : U64) : (byteCells (Spec.base256 8 x.toNat)).take 4 =
    byteCells (Spec.base256 4 (x.setWidth 32).toNat) := by
  simp only [byteCells, ← List.map_take]
  congr 1
  simp only [Spec.base256, List.take, BitVec.toNat_setWidth]
  simp only [Nat.div_div_eq_div_mul, List.cons.injEq, and_true]
  refine ⟨?_, ?_, ?_, ?_⟩ <;> (apply BitVec.eq_of_toNat_eq; simp; try omega)

theorem decodeLE32_base (x : U32) : (decodeLE32 (Spec.base256 4 x.toNat)).1 = x := by
  have := decodeLE32_base256 x []
  rw [List.append_nil] at this
  rw [this]

theorem decodeLE64_base (x : U64) : (decodeLE64 (Spec.base256 8 x.toNat)).1 = x := by
  have := decodeLE64_base256 x []
  rw [List.append_nil] at this
  rw [this]

theorem load32_of {a s v B x} (hs : s ≠ .opaque) (h : Slot lay m a s v B) (hr : read32 v = .ok x) : load32 m a = .ok x := by
  obtain ⟨cs, hm, hl, ha, h⟩ := h
  generalize hc : (cs.drop a.off).take s.size = c at h
  cases h with
  | w32 y =>
    cases hr
    have := load_slot (k := 0) (n := 4) (al := 4) hm hl hc (by simp [Shape.size]) (by simpa [Shape.align] using ha)
    rw [add_zero, List.drop_zero, List.take_of_length_le (by simp [base256_length])] at this
    rw [load32, this]
    simp only [bind, Except.bind, asBytes_byteCells, typed, pure, Except.pure, decodeLE32_base]
  | w64 y =>
    cases hr
    have := load_slot (k := 0) (n := 4) (al := 4) hm hl hc (by simp [Shape.size])
      (by simp [Shape.align] at ha; omega)
    rw [add_zero, List.drop_zero, take_base256] at this
    rw [load32, this]
    simp only [bind, Except.bind, asBytes_byteCells, typed, pure, Except.pure, decodeLE32_base]
  | _ => first | cases hr | exact absurd rfl hs

theorem load64_of {a s v B x} (hs : s ≠ .opaque) (h : Slot lay m a s v B) (hr : read64 v = .ok x) : load64 m a = .ok x := by
  obtain ⟨cs, hm, hl, ha, h⟩ := h
  generalize hc : (cs.drop a.off).take s.size = c at h
  cases h with
  | w64 y =>
    cases hr
    have := load_slot (k := 0) (n := 8) (al := 8) hm hl hc (by simp [Shape.size]) (by simpa [Shape.align] using ha)
    rw [add_zero, List.drop_zero, List.take_of_length_le (by simp [base256_length])] at this
    rw [load64, this]
    simp only [bind, Except.bind, asBytes_byteCells, typed, pure, Except.pure, decodeLE64_base]
  | _ => first | cases hr | exact absurd rfl hs

theorem loadPtr_at {a : Addr} {N : Nat} {cs y : List Cell} {d : Option Addr} (hm : m[a.blk]? = some (.mem cs))
    (hN : a.off + N ≤ cs.length) (hr : (cs.drop a.off).take N = ptrCells d ++ y) (hal : a.off % 8 = 0) :
    loadPtr m a = .ok d := loadPtr_slot (k := 0) (x := []) hm hN hr rfl hal

theorem loadStr_of {a s v B x} (hs : s ≠ .opaque) (h : Slot lay m a s v B) (hr : readStr v = .ok x) : loadStr m a = .ok x := by
  obtain ⟨cs, hm, hl, ha, h⟩ := h
  generalize hc : (cs.drop a.off).take s.size = c at h
  cases h with
  | strNil d =>
    cases hr
    simp [Shape.align] at ha
    rw [loadStr, loadPtr_at hm hl hc ha,
      loadInt_slot (k := 8) (n := 0) (y := []) hm hl (by rw [hc, List.append_nil]) (by simp) (by omega)]
    rfl
  | str d bs s h1 h2 h3 =>
    cases hr
    simp [Shape.align] at ha
    rw [loadStr, loadPtr_at hm hl hc ha,
      loadInt_slot (k := 8) (y := []) hm hl (by rw [hc, List.append_nil]) (by simp) (by omega)]
    have h4 : x.length ≠ 0 := by simpa using h3
    have h5 : d.off + x.length ≤ bs.length := by
      have := congrArg List.length h2
      simp at this
      omega
    simp only [bind, Except.bind, h4, if_false, loadData, h1, h5, if_true, h2]
  | bytesNil =>
    cases hr
    simp [Shape.align] at ha
    rw [loadStr, loadPtr_at hm hl hc ha,
      loadInt_slot (k := 8) (n := 0) hm hl hc (by simp) (by omega)]
    rfl
  | bytes d cap cs' s h1 h2 h3 h4 =>
    cases hr
    simp [Shape.align] at ha
    rw [loadStr, loadPtr_at hm hl hc ha,
      loadInt_slot (k := 8) hm hl hc (by simp) (by omega)]
    simp only [bind, Except.bind]
    split
    · rename_i h5
      have : x = [] := by simpa using h5
      rw [this]; rfl
    · exact load_bytes h1 h4 (by omega)
  | _ => first | cases hr | exact absurd rfl hs

theorem loadBytes_of {a v B} (h : Slot lay m a .bytes v B) : ∃ x, v = .bytes x ∧ loadBytes m a = .ok x := by
  obtain ⟨cs, hm, hl, ha, h⟩ := h
  generalize hc : (cs.drop a.off).take (Shape.size .bytes) = c at h
  simp [Shape.align] at ha
  cases h with
  | bytesNil =>
    refine ⟨_, rfl, ?_⟩
    rw [loadBytes, loadPtr_at hm hl hc ha,
      loadInt_slot (k := 8) (n := 0) hm hl hc (by simp) (by omega)]
    rfl
  | bytes d cap cs' s h1 h2 h3 h4 =>
    refine ⟨_, rfl, ?_⟩
    rw [loadBytes, loadPtr_at hm hl hc ha,
      loadInt_slot (k := 8) hm hl hc (by simp) (by omega)]
    simp only [bind, Except.bind, load_bytes h1 h4 (by omega)]
    rfl

end Pb.Flat
