import Verif.Proofs.FlatLoad
/-
Size and encode functions on raw memory (helper lemmas for `Props/Flat.lean`).
-/
namespace Pb.Flat

variable {lay : Lay} {m : Mem}

/-! ### Scalars -/

/-- What a scalar function needs of a value of its type. -/
def asShape (s : Shape) (v : Val) : Except Fault Val :=
  match s with
  | .b8 => do return .b8 (← readB8 v)
  | .w32 => do return .w32 (← read32 v)
  | .w64 => do return .w64 (← read64 v)
  | .str => do return .str (← readStr v)
  | _ => .error .confused

theorem scalar_ne (s : Scalar) : s.shape ≠ .opaque := by cases s <;> simp [Scalar.shape]

theorem codec_ne (c : Codec) : c.shape ≠ .opaque := by
  cases c with
  | normal s | required s => exact scalar_ne s
  | _ => simp [Codec.shape]

theorem loadVal_of {a sh s v B x} (hsh : sh ≠ .opaque) (h : Slot lay m a sh v B) (hr : asShape s v = .ok x) : loadVal m a s = .ok x := by
  cases s with
  | b8 =>
    simp only [asShape, bind, Except.bind] at hr
    rcases hq : readB8 v with e | y <;> rw [hq] at hr <;> cases hr
    simp only [loadVal, loadBool_of hsh h hq, bind, Except.bind]; rfl
  | w32 =>
    simp only [asShape, bind, Except.bind] at hr
    rcases hq : read32 v with e | y <;> rw [hq] at hr <;> cases hr
    simp only [loadVal, load32_of hsh h hq, bind, Except.bind]; rfl
  | w64 =>
    simp only [asShape, bind, Except.bind] at hr
    rcases hq : read64 v with e | y <;> rw [hq] at hr <;> cases hr
    simp only [loadVal, load64_of hsh h hq, bind, Except.bind]; rfl
  | str =>
    simp only [asShape, bind, Except.bind] at hr
    rcases hq : readStr v with e | y <;> rw [hq] at hr <;> cases hr
    simp only [loadVal, loadStr_of hsh h hq, bind, Except.bind]; rfl
  | _ => cases hr

theorem sizeNormal_as (s : Scalar) (v : Val) (f : FTag) :
    sizeNormal s v f = (do let x ← asShape s.shape v; sizeNormal s x f) := by
  cases s <;> simp only [sizeNormal, asShape, Scalar.shape, bind, Except.bind, pure, Except.pure] <;>
    split <;> simp_all [readB8, read32, read64, readStr]

theorem sizeRequired_as (s : Scalar) (v : Val) (f : FTag) (hs : s ≠ .bool ∧ s ≠ .float32 ∧ s ≠ .float64 ∧ s ≠ .fixed32 ∧ s ≠ .fixed64) :
    sizeRequired s v f = (do let x ← asShape s.shape v; sizeRequired s x f) := by
  cases s <;> simp only [sizeRequired, asShape, Scalar.shape, bind, Except.bind, pure, Except.pure] <;>
    first | (split <;> simp_all [read32, read64, readStr]) | simp_all

theorem encodeNormal_as (s : Scalar) (b : Bytes) (v : Val) (f : FTag) :
    encodeNormal s b v f = (do let x ← asShape s.shape v; encodeNormal s b x f) := by
  cases s <;> simp only [encodeNormal, asShape, Scalar.shape, bind, Except.bind, pure, Except.pure] <;>
    split <;> simp_all [readB8, read32, read64, readStr]

theorem encodeRequired_as (s : Scalar) (b : Bytes) (v : Val) (f : FTag) :
    encodeRequired s b v f = (do let x ← asShape s.shape v; encodeRequired s b x f) := by
  cases s <;> simp only [encodeRequired, asShape, Scalar.shape, bind, Except.bind, pure, Except.pure] <;>
    split <;> simp_all [readB8, read32, read64, readStr]

theorem sizeNormalF_of {s a sh v B f n} (hsh : sh ≠ .opaque) (h : Slot lay m a sh v B) (he : sizeNormal s v f = .ok n) :
    sizeNormalF m s a f = .ok n := by
  rw [sizeNormal_as] at he
  rcases hx : asShape s.shape v with e | x <;> rw [hx] at he
  · cases he
  · rw [sizeNormalF, loadVal_of hsh h hx]; exact he

theorem sizeRequiredF_of {s a sh v B f n} (hsh : sh ≠ .opaque) (h : Slot lay m a sh v B) (he : sizeRequired s v f = .ok n) :
    sizeRequiredF m s a f = .ok n := by
  have key : (s ≠ .bool ∧ s ≠ .float32 ∧ s ≠ .float64 ∧ s ≠ .fixed32 ∧ s ≠ .fixed64) →
      (do sizeRequired s (← loadVal m a s.shape) f) = Except.ok n := by
    intro hs
    rw [sizeRequired_as _ _ _ hs] at he
    rcases hx : asShape s.shape v with e | x <;> rw [hx] at he
    · cases he
    · rw [loadVal_of hsh h hx]; exact he
  cases s with
  | bool | float32 | float64 | fixed32 | fixed64 => exact he
  | _ => exact key (by simp)

theorem encodeNormalF_of {s a sh v B b f n} (hsh : sh ≠ .opaque) (h : Slot lay m a sh v B) (he : encodeNormal s b v f = .ok n) :
    (do encodeNormal s b (← loadVal m a s.shape) f) = Except.ok n := by
  rw [encodeNormal_as] at he
  rcases hx : asShape s.shape v with e | x <;> rw [hx] at he
  · cases he
  · rw [loadVal_of hsh h hx]; exact he

theorem encodeRequiredF_of {s a sh v B b f n} (hsh : sh ≠ .opaque) (h : Slot lay m a sh v B) (he : encodeRequired s b v f = .ok n) :
    (do encodeRequired s b (← loadVal m a s.shape) f) = Except.ok n := by
  rw [encodeRequired_as] at he
  rcases hx : asShape s.shape v with e | x <;> rw [hx] at he
  · cases he
  · rw [loadVal_of hsh h hx]; exact he

/-! ### Parts of a slot -/

/-- The parts of an `Option`. -/
theorem slot_opt {a s v B} (h : Slot lay m a (.opt s) v B) :
    ∃ x w, v = .opt x w ∧ loadBool m a = .ok x ∧ Slot lay m (a.add (optOff s)) s w B := by
  obtain ⟨cs, hm, hl, ha, h⟩ := h
  generalize hc : (cs.drop a.off).take (Shape.size (.opt s)) = c at h
  simp only [Shape.align] at ha
  cases h with
  | opt _ _ x w _ h1 h2 h3 =>
    have hle := opt_size_le s
    have hp := opt_size_pos s
    refine ⟨x, w, rfl, ?_, cs, hm, ?_, ?_, ?_⟩
    · have := load_slot (k := 0) (n := 1) (al := 1) hm hl hc hp (by omega)
      rw [add_zero, List.drop_zero, h2] at this
      rw [loadBool, this]
      cases x <;> simp [boolCells, bind, Except.bind, asBytes, typed, pure, Except.pure]
    · simp only [Addr.add]; omega
    · simp only [Addr.add]
      exact add_mod_align ha (by rw [optOff_eq]; simp)
    · rw [← hc, List.drop_take, List.take_take, List.drop_drop, Nat.min_eq_left (by omega)] at h3
      exact h3

/-- A pointer to something that is not a message. -/
theorem slot_ptr {a s v B} (h : Slot lay m a (.ptr s) v B) :
    (v = .nilp ∧ loadPtr m a = .ok none ∧ B = []) ∨
    ∃ b w B', v = .ptr w ∧ B = b :: B' ∧ loadPtr m a = .ok (some ⟨b, 0⟩) ∧ Slot lay m ⟨b, 0⟩ s w B' := by
  obtain ⟨cs, hm, hl, ha, h⟩ := h
  generalize hc : (cs.drop a.off).take (Shape.size (.ptr s)) = c at h
  simp only [Shape.align] at ha
  cases h with
  | ptrNil => exact .inl ⟨rfl, loadPtr_at (y := []) hm hl (by rw [hc, List.append_nil]) ha, rfl⟩
  | ptr _ b cs' w B' h1 h2 =>
    refine .inr ⟨b, w, B', rfl, rfl, loadPtr_at (y := []) hm hl (by rw [hc, List.append_nil]) ha, cs', h1, ?_, ?_, ?_⟩
    · simp [rep_length h2]
    · simp
    · rw [List.drop_zero, List.take_of_length_le (by simp [rep_length h2])]; exact h2

/-- The memory of a message. -/
def MsgRep (lay : Lay) (m : Mem) (t : TypeId) (b : Nat) (v : Val) (B : List Nat) : Prop :=
  ∃ vs cs, v = .struct vs ∧ m[b]? = some (.mem cs) ∧ cs.length = lay.size t ∧ RepF lay m (lay.slots t) cs vs B

/-- A pointer to a message. -/
theorem slot_msg {a t v B} (h : Slot lay m a (.msg t) v B) :
    (v = .nilp ∧ loadPtr m a = .ok none ∧ B = []) ∨
    ∃ b w B', v = .ptr w ∧ B = b :: B' ∧ loadPtr m a = .ok (some ⟨b, 0⟩) ∧ MsgRep lay m t b w B' := by
  obtain ⟨cs, hm, hl, ha, h⟩ := h
  generalize hc : (cs.drop a.off).take (Shape.size (.msg t)) = c at h
  simp only [Shape.align] at ha
  cases h with
  | msgNil => exact .inl ⟨rfl, loadPtr_at (y := []) hm hl (by rw [hc, List.append_nil]) ha, rfl⟩
  | msg _ b cs' vs B' h1 h2 h3 =>
    exact .inr ⟨b, _, B', rfl, rfl, loadPtr_at (y := []) hm hl (by rw [hc, List.append_nil]) ha, vs, cs', rfl, h1, h2, h3⟩

/-- A field of a struct. -/
theorem repF_get {slots cs vs B} (h : RepF lay m slots cs vs B) : ∀ (i : Nat) o s v, slots[i]? = some (o, s) → vs[i]? = some v →
    o + s.size ≤ cs.length ∧ ∃ B', Rep lay m s ((cs.drop o).take s.size) v B' := by
  induction slots generalizing vs B with
  | nil => intro i o s v hs; simp at hs
  | cons p slots ih =>
    cases h with
    | cons o' s' _ _ v' vs' B1 B2 h1 h2 h3 =>
      intro i o s v hs hv
      cases i with
      | zero =>
        simp at hs hv
        obtain ⟨rfl, rfl⟩ := hs
        subst hv
        exact ⟨h1, _, h2⟩
      | succ i => exact ih h3 i o s v (by simpa using hs) (by simpa using hv)

theorem repF_length {slots cs vs B} (h : RepF lay m slots cs vs B) : vs.length = slots.length := by
  induction slots generalizing vs B with
  | nil => cases h; rfl
  | cons p slots ih => cases h with | cons _ _ _ _ _ _ _ _ _ _ h3 => simp [ih h3]

theorem elemSlots_get (s : Shape) : ∀ (n o i : Nat), i < n → (elemSlots s o n)[i]? = some (o + i * s.size, s)
  | 0, _, _, h => absurd h (by omega)
  | n + 1, o, 0, _ => by simp [elemSlots]
  | n + 1, o, i + 1, h => by
    simp only [elemSlots, List.getElem?_cons_succ]
    rw [elemSlots_get s n _ i (by omega), Nat.add_mul]
    congr 2
    omega

theorem elemSlots_length (s : Shape) : ∀ (n o : Nat), (elemSlots s o n).length = n
  | 0, _ => rfl
  | n + 1, o => by simp [elemSlots, elemSlots_length s n]

/-- A slice: its header and its elements. -/
theorem slot_slice {a s v B} (h : Slot lay m a (.slice s) v B) :
    ∃ isNil es spare d, v = .slice isNil es spare ∧ loadPtr m a = .ok d ∧ loadInt m (a.add 8) = .ok es.length ∧
      loadInt m (a.add 16) = .ok (es.length + spare.length) ∧
      ∀ i x, es[i]? = some x → ∃ p B', index d i (alignedSize s) = .ok p ∧ Slot lay m p s x B' := by
  obtain ⟨cs, hm, hl, ha, h⟩ := h
  generalize hc : (cs.drop a.off).take (Shape.size (.slice s)) = c at h
  simp only [Shape.align] at ha
  cases h with
  | sliceNil =>
    refine ⟨true, [], [], none, rfl, loadPtr_at hm hl hc ha, loadInt_slot (n := 0) hm hl hc (by simp) (by omega), ?_, ?_⟩
    · exact loadInt_slot (n := 0) (x := ptrCells none ++ intCells 0) (y := []) hm hl
        (by rw [hc]; simp [sliceCells]) (by simp) (by omega)
    · intro i x hx; simp at hx
  | slice _ d cs' es spare B' h1 h2 _ h3 =>
    refine ⟨false, es, spare, some d, rfl, loadPtr_at hm hl hc ha, loadInt_slot hm hl hc (by simp) (by omega), ?_, ?_⟩
    · exact loadInt_slot (x := ptrCells (some d) ++ intCells es.length) (y := []) hm hl
        (by rw [hc]; simp [sliceCells]) (by simp) (by omega)
    · intro i x hx
      have hi : i < es.length := by
        rcases Nat.lt_or_ge i es.length with h | h
        · exact h
        · rw [List.getElem?_eq_none h] at hx; cases hx
      obtain ⟨h4, B1, h5⟩ := repF_get h3 i _ s x (elemSlots_get s _ d.off i (by omega))
        (by rw [List.getElem?_append_left hi]; exact hx)
      refine ⟨_, B1, rfl, cs', h1, ?_, ?_, ?_⟩
      · simpa [Addr.add, alignedSize_eq] using h4
      · simp only [Addr.add, alignedSize_eq]; exact elem_mod s h2 i
      · simpa only [Addr.add, alignedSize_eq] using h5

/-- Entries of a map in memory and their values. -/
inductive Entries (lay : Lay) (m : Mem) (k v : Shape) : List (Nat × Nat) → List (Key × Val) → Prop
  | nil : Entries lay m k v [] []
  | cons (kb vb : Nat) (key : Key) (x : Val) (es kvs B) : Slot lay m ⟨kb, 0⟩ k key.toVal [] → Slot lay m ⟨vb, 0⟩ v x B →
      Entries lay m k v es kvs → Entries lay m k v ((kb, vb) :: es) ((key, x) :: kvs)

theorem slot_of_rep {b s cs v B} (h1 : m[b]? = some (.mem cs)) (h2 : Rep lay m s cs v B) : Slot lay m ⟨b, 0⟩ s v B :=
  ⟨cs, h1, by simp [rep_length h2], by simp, by
    rw [List.drop_zero, List.take_of_length_le (by simp [rep_length h2])]; exact h2⟩

theorem entries_of {k v es kvs B} (h : RepM lay m k v es kvs B) : Entries lay m k v es kvs := by
  induction es generalizing kvs B with
  | nil => cases h; exact .nil
  | cons e es ih =>
    cases h with
    | cons _ _ kb vb kcs vcs key x _ kvs B1 B2 h1 h2 h3 h4 h5 =>
      exact .cons _ _ _ _ _ _ _ (slot_of_rep h1 h2) (slot_of_rep h3 h4) (ih h5)

/-- A map: its entries. -/
theorem slot_map {a k v x B} (h : Slot lay m a (.map k v) x B) :
    ∃ isNil kvs p es, x = .map isNil kvs ∧ loadPtr m a = .ok p ∧ mapEntries m p = .ok es ∧ Entries lay m k v es kvs := by
  obtain ⟨cs, hm, hl, ha, h⟩ := h
  generalize hc : (cs.drop a.off).take (Shape.size (.map k v)) = c at h
  simp only [Shape.align] at ha
  cases h with
  | mapNil => exact ⟨true, [], none, [], rfl, loadPtr_at (y := []) hm hl (by rw [hc, List.append_nil]) ha, rfl, .nil⟩
  | map _ _ b es kvs B' h1 h2 =>
    refine ⟨false, kvs, some ⟨b, 0⟩, es, rfl, loadPtr_at (y := []) hm hl (by rw [hc, List.append_nil]) ha, ?_, entries_of h2⟩
    simp [mapEntries, h1]

/-! ### Loops -/

theorem sumSizes_congr {α β} {f : α → Except Fault Nat} {g : β → Except Fault Nat} : ∀ {xs : List α} {ys : List β} {k n : Nat},
    xs.length = ys.length → (∀ (i : Nat) x y r, xs[i]? = some x → ys[i]? = some y → f x = .ok r → g y = .ok r) →
    sumSizes f k xs = .ok n → sumSizes g k ys = .ok n
  | [], [], _, _, _, _, h => h
  | x :: xs, y :: ys, k, n, hl, hfg, h => by
    simp only [sumSizes, bind, Except.bind] at h ⊢
    rcases hx : f x with e | r <;> rw [hx] at h
    · cases h
    · rw [hfg 0 x y r rfl rfl hx]
      exact sumSizes_congr (by simpa using hl) (fun i x y r h1 h2 => hfg (i + 1) x y r (by simpa using h1) (by simpa using h2)) h
  | [], _ :: _, _, _, hl, _, _ => by simp at hl
  | _ :: _, [], _, _, hl, _, _ => by simp at hl

theorem appendAll_congr {α β} {f : Bytes → α → Except Fault Bytes} {g : Bytes → β → Except Fault Bytes} :
    ∀ {xs : List α} {ys : List β} {k n : Bytes}, xs.length = ys.length →
    (∀ (i : Nat) b x y r, xs[i]? = some x → ys[i]? = some y → f b x = .ok r → g b y = .ok r) →
    appendAll f k xs = .ok n → appendAll g k ys = .ok n
  | [], [], _, _, _, _, h => h
  | x :: xs, y :: ys, k, n, hl, hfg, h => by
    simp only [appendAll, bind, Except.bind] at h ⊢
    rcases hx : f k x with e | r <;> rw [hx] at h
    · cases h
    · rw [hfg 0 k x y r rfl rfl hx]
      exact appendAll_congr (by simpa using hl)
        (fun i b x y r h1 h2 => hfg (i + 1) b x y r (by simpa using h1) (by simpa using h2)) h
  | [], _ :: _, _, _, hl, _, _ => by simp at hl
  | _ :: _, [], _, _, hl, _, _ => by simp at hl

theorem entries_get {k v es kvs} (h : Entries lay m k v es kvs) : es.length = kvs.length ∧
    ∀ (i : Nat) e x, kvs[i]? = some x → es[i]? = some e →
      Slot lay m ⟨e.1, 0⟩ k x.1.toVal [] ∧ ∃ B, Slot lay m ⟨e.2, 0⟩ v x.2 B := by
  induction h with
  | nil => exact ⟨rfl, by simp⟩
  | cons kb vb key x es kvs B h1 h2 _ ih =>
    refine ⟨by simp [ih.1], ?_⟩
    intro i e x hx he
    cases i with
    | zero => simp at hx he; subst hx he; exact ⟨h1, B, h2⟩
    | succ i => exact ih.2 i e x (by simpa using hx) (by simpa using he)

/-! ### size -/

/-- `codecSizeF` reads only what `codecSize` sees of the slot. A scalar codec may be applied to a slot of any shape, as
map.go:80 does. -/
theorem codecSizeF_of {rec : TypeId → Val → Except Fault Nat} {recF : TypeId → Addr → Except Fault Nat}
    (hrec : ∀ t b v B n, MsgRep lay m t b v B → rec t v = .ok n → recF t ⟨b, 0⟩ = .ok n) :
    ∀ (c : Codec) a v B f n, c.WF → Slot lay m a c.shape v B → codecSize rec c v f = .ok n → codecSizeF m recF c a f = .ok n
  | .normal s, a, v, B, f, n, _, h, he => sizeNormalF_of (scalar_ne _) h he
  | .required s, a, v, B, f, n, _, h, he => sizeRequiredF_of (scalar_ne _) h he
  | .option s, a, v, B, f, n, _, h, he => by
    obtain ⟨x, w, rfl, h1, h2⟩ := slot_opt h
    simp only [codecSizeF, h1, bind, Except.bind]
    simp only [codecSize, sizeOption] at he
    cases x with
    | false => exact he
    | true => exact sizeRequiredF_of (scalar_ne _) h2 he
  | .bytes, a, v, B, f, n, _, h, he => by
    obtain ⟨x, rfl, h1⟩ := loadBytes_of h
    simp only [codecSizeF, h1, bind, Except.bind]
    exact he
  | .ptr z c, a, v, B, f, n, hw, h, he => by
    rcases slot_ptr h with ⟨rfl, h1, _⟩ | ⟨b, w, B', rfl, _, h1, h2⟩
    · simp only [codecSizeF, h1, bind, Except.bind]; exact he
    · simp only [codecSizeF, h1, bind, Except.bind]
      exact codecSizeF_of hrec c _ w B' f n hw.2 h2 he
  | .msg t, a, v, B, f, n, hw, h, he => by
    rcases slot_msg h with ⟨rfl, h1, _⟩ | ⟨b, w, B', rfl, _, h1, h2⟩
    · simp only [codecSizeF, h1, bind, Except.bind]; exact he
    · simp only [codecSizeF, h1, bind, Except.bind]
      simp only [codecSize, bind, Except.bind] at he
      rcases hr : rec t w with e | r <;> rw [hr] at he
      · cases he
      · rw [hrec t b w B' r h2 hr]; exact he
  | .slice z c, a, v, B, f, n, hw, h, he => by
    obtain ⟨isNil, es, spare, d, rfl, h1, h2, _, h3⟩ := slot_slice h
    simp only [codecSizeF, h1, h2, bind, Except.bind]
    simp only [codecSize] at he
    refine sumSizes_congr (by simp) ?_ he
    intro i x y r hx hy hr
    have : y = i := by
      rw [List.getElem?_range (by
        rcases Nat.lt_or_ge i es.length with h | h
        · exact h
        · rw [List.getElem?_eq_none h] at hx; cases hx)] at hy
      exact (Option.some.inj hy).symm
    subst this
    obtain ⟨p, B', h4, h5⟩ := h3 y x hx
    rw [h4]
    exact codecSizeF_of hrec c p x B' f r hw.2 h5 hr
  | .map i kc vc kd vd, a, v, B, f, n, hw, h, he => by
    obtain ⟨isNil, kvs, p, es, rfl, h1, h2, h3⟩ := slot_map h
    obtain ⟨h4, h5⟩ := entries_get h3
    simp only [codecSizeF, h1, h2, bind, Except.bind]
    simp only [codecSize, bind, Except.bind] at he
    obtain ⟨_, _, _, _, _, hwk, hwv, _, _⟩ := hw
    split at he
    · cases he
    · rename_i r hr
      have := sumSizes_congr (ys := es) (g := fun (e : Nat × Nat) => do
        let keySize ← codecSizeF m recF kc ⟨e.1, 0⟩ i.key
        let valSize ← codecSizeF m recF vc ⟨e.2, 0⟩ i.val
        return sizeOfVarint i.wiretag + sizeOfVarint (BitVec.ofNat 64 (keySize + valSize)) + keySize + valSize)
        h4.symm ?_ hr
      · simp only [bind, Except.bind] at this
        rw [this]; exact he
      · intro j x y r hx hy hr
        obtain ⟨h6, B', h7⟩ := h5 j y x hx hy
        simp only [bind, Except.bind] at hr ⊢
        rcases hk : codecSize rec kc x.1.toVal i.key with e | ks <;> rw [hk] at hr
        · cases hr
        · rw [codecSizeF_of hrec kc _ _ _ _ _ hwk h6 hk]
          rcases hv : codecSize rec vc x.2 i.val with e | vs <;> simp only [hv] at hr
          · cases hr
          · simp only [codecSizeF_of hrec vc _ _ _ _ _ hwv h7 hv]
            exact hr

/-- map.go:80: the codec of a key on a slot of another shape. -/
theorem codecSizeF_key {rec : TypeId → Val → Except Fault Nat} {recF : TypeId → Addr → Except Fault Nat}
    {c : Codec} {a sh v B f n} (hk : c.shape.isKey) (hsh : sh ≠ .opaque) (h : Slot lay m a sh v B) (he : codecSize rec c v f = .ok n) :
    codecSizeF m recF c a f = .ok n := by
  cases c with
  | normal s => exact sizeNormalF_of hsh h he
  | required s => exact sizeRequiredF_of hsh h he
  | _ => simp [Codec.shape, Shape.isKey] at hk

theorem off_of {t : TypeId} {i o : Nat} {s : Shape} (h : (lay.slots t)[i]? = some (o, s)) : lay.off t i = o := by
  simp [Lay.off, h]

theorem shapes_get {t : TypeId} {i : Nat} {s : Shape} (h : (lay.shapes t)[i]? = some s) : ∃ o, (lay.slots t)[i]? = some (o, s) := by
  rw [Lay.shapes, List.getElem?_map] at h
  rcases hs : (lay.slots t)[i]? with _ | ⟨o, s'⟩ <;> rw [hs] at h
  · cases h
  · simp at h; subst h; exact ⟨o, rfl⟩

/-- A field of a message. -/
theorem msgRep_slot (hlay : lay.OK) {t b v B} {i : Nat} {s x} (h : MsgRep lay m t b v B) (hs : (lay.shapes t)[i]? = some s)
    (hx : slotOf v i = .ok x) : ∃ B', Slot lay m (Addr.add ⟨b, 0⟩ (lay.off t i)) s x B' := by
  obtain ⟨vs, cs, rfl, h1, h2, h3⟩ := h
  obtain ⟨o, hs⟩ := shapes_get hs
  simp only [slotOf] at hx
  split at hx
  · rename_i y hy
    cases hx
    obtain ⟨h4, B', h5⟩ := repF_get h3 i o s x hs hy
    refine ⟨B', cs, h1, ?_, ?_, ?_⟩
    · simpa [off_of hs, Addr.add] using h4
    · simpa [off_of hs, Addr.add] using hlay.aligned t _ (List.mem_of_getElem? hs)
    · simpa [off_of hs, Addr.add] using h5
  · cases hx

theorem sizeMsgF_of {env : Env} (hlay : lay.OK) (hwf : WFEnv lay.shapes env) : ∀ (d : Nat) t b v B n, MsgRep lay m t b v B →
    sizeMsg env d t v = .ok n → sizeMsgF lay env m d t ⟨b, 0⟩ = .ok n
  | 0, _, _, _, _, _, _, he => by cases he
  | d + 1, t, b, v, B, n, h, he => by
    simp only [sizeMsg, structSize] at he
    simp only [sizeMsgF, structSizeF]
    refine sumSizes_congr rfl ?_ he
    intro i f g r hf hg hr
    rw [hf] at hg
    cases hg
    have hmem := List.mem_of_getElem? hf
    simp only [bind, Except.bind] at hr
    rcases hx : slotOf v f.offset with e | x <;> rw [hx] at hr
    · cases hr
    · obtain ⟨B', hs⟩ := msgRep_slot hlay h (hwf.slot t f hmem) hx
      exact codecSizeF_of (fun t b v B n h1 h2 => sizeMsgF_of hlay hwf d t b v B n h1 h2) _ _ _ _ _ _ (hwf.codec t f hmem) hs hr

/-! ### encode -/

theorem codecEncodeF_of {sz : TypeId → Val → Except Fault Nat} {szF : TypeId → Addr → Except Fault Nat}
    {rec : TypeId → Bytes → Val → Except Fault Bytes} {recF : TypeId → Bytes → Addr → Except Fault Bytes}
    (hsz : ∀ t b v B n, MsgRep lay m t b v B → sz t v = .ok n → szF t ⟨b, 0⟩ = .ok n)
    (hrec : ∀ t b v B o n, MsgRep lay m t b v B → rec t o v = .ok n → recF t o ⟨b, 0⟩ = .ok n) :
    ∀ (c : Codec) b a v B f n, c.WF → Slot lay m a c.shape v B → codecEncode sz rec c b v f = .ok n →
      codecEncodeF m szF recF c b a f = .ok n
  | .normal s, b, a, v, B, f, n, _, h, he => encodeNormalF_of (scalar_ne _) h he
  | .required s, b, a, v, B, f, n, _, h, he => encodeRequiredF_of (scalar_ne _) h he
  | .option s, b, a, v, B, f, n, _, h, he => by
    obtain ⟨x, w, rfl, h1, h2⟩ := slot_opt h
    simp only [codecEncode, encodeOption] at he
    simp only [codecEncodeF, h1]
    cases x with
    | false => exact he
    | true => exact encodeRequiredF_of (scalar_ne _) h2 he
  | .bytes, b, a, v, B, f, n, _, h, he => by
    obtain ⟨x, rfl, h1⟩ := loadBytes_of h
    simp only [codecEncodeF, h1, bind, Except.bind]
    exact he
  | .ptr z c, b, a, v, B, f, n, hw, h, he => by
    rcases slot_ptr h with ⟨rfl, h1, _⟩ | ⟨b', w, B', rfl, _, h1, h2⟩
    · simp only [codecEncodeF, h1, bind, Except.bind]; exact he
    · simp only [codecEncodeF, h1, bind, Except.bind]
      exact codecEncodeF_of hsz hrec c b _ w B' f n hw.2 h2 he
  | .msg t, b, a, v, B, f, n, hw, h, he => by
    rcases slot_msg h with ⟨rfl, h1, _⟩ | ⟨b', w, B', rfl, _, h1, h2⟩
    · simp only [codecEncodeF, h1, bind, Except.bind]; exact he
    · simp only [codecEncodeF, h1, bind, Except.bind]
      simp only [codecEncode, bind, Except.bind] at he
      rcases hr : sz t w with e | r <;> rw [hr] at he
      · cases he
      · rw [hsz t b' w B' r h2 hr]
        exact hrec t b' w B' _ n h2 he
  | .slice z c, b, a, v, B, f, n, hw, h, he => by
    obtain ⟨isNil, es, spare, d, rfl, h1, h2, _, h3⟩ := slot_slice h
    simp only [codecEncodeF, h1, h2, bind, Except.bind]
    simp only [codecEncode] at he
    refine appendAll_congr (by simp) ?_ he
    intro i b x y r hx hy hr
    have : y = i := by
      rw [List.getElem?_range (by
        rcases Nat.lt_or_ge i es.length with h | h
        · exact h
        · rw [List.getElem?_eq_none h] at hx; cases hx)] at hy
      exact (Option.some.inj hy).symm
    subst this
    obtain ⟨p, B', h4, h5⟩ := h3 y x hx
    rw [h4]
    exact codecEncodeF_of hsz hrec c b p x B' f r hw.2 h5 hr
  | .map i kc vc kd vd, b, a, v, B, f, n, hw, h, he => by
    obtain ⟨isNil, kvs, p, es, rfl, h1, h2, h3⟩ := slot_map h
    obtain ⟨h4, h5⟩ := entries_get h3
    simp only [codecEncodeF, h1, h2, bind, Except.bind]
    simp only [codecEncode, bind, Except.bind] at he
    obtain ⟨hkey, _, _, _, _, hwk, hwv, _, _⟩ := hw
    split at he
    · cases he
    · rename_i r hr
      have := appendAll_congr (ys := es) (g := fun b (e : Nat × Nat) => do
        let keySize ← codecSizeF m szF kc ⟨e.1, 0⟩ i.key
        let valSize ← codecSizeF m szF kc ⟨e.2, 0⟩ i.val
        let b ← codecEncodeF m szF recF kc
          (appendVarint (b ++ appendVarint [] i.wiretag) (BitVec.ofNat 64 (keySize + valSize))) ⟨e.1, 0⟩ i.key
        codecEncodeF m szF recF vc b ⟨e.2, 0⟩ i.val)
        h4.symm ?_ hr
      · simp only [bind, Except.bind] at this
        rw [this]; exact he
      · intro j b x y r hx hy hr
        obtain ⟨h6, B', h7⟩ := h5 j y x hx hy
        simp only [bind, Except.bind] at hr ⊢
        rcases hk : codecSize sz kc x.1.toVal i.key with e | ks <;> rw [hk] at hr
        · cases hr
        · rw [codecSizeF_of hsz kc _ _ _ _ _ hwk h6 hk]
          rcases hv : codecSize sz kc x.2 i.val with e | vs <;> simp only [hv] at hr
          · cases hr
          · simp only [codecSizeF_key (recF := szF) hkey (codec_ne vc) h7 hv]
            split at hr
            · cases hr
            · rename_i b' hb'
              rw [codecEncodeF_of hsz hrec kc _ _ _ _ _ _ hwk h6 hb']
              exact codecEncodeF_of hsz hrec vc _ _ _ _ _ _ hwv h7 hr

theorem encodeMsgF_of {env : Env} (hlay : lay.OK) (hwf : WFEnv lay.shapes env) : ∀ (d : Nat) t o b v B n, MsgRep lay m t b v B →
    encodeMsg env d t o v = .ok n → encodeMsgF lay env m d t o ⟨b, 0⟩ = .ok n
  | 0, _, _, _, _, _, _, _, he => by cases he
  | d + 1, t, o, b, v, B, n, h, he => by
    simp only [encodeMsg, structEncode] at he
    simp only [encodeMsgF, structEncodeF]
    refine appendAll_congr rfl ?_ he
    intro i o f g r hf hg hr
    rw [hf] at hg
    cases hg
    have hmem := List.mem_of_getElem? hf
    simp only [bind, Except.bind] at hr
    rcases hx : slotOf v f.offset with e | x <;> rw [hx] at hr
    · cases hr
    · obtain ⟨B', hs⟩ := msgRep_slot hlay h (hwf.slot t f hmem) hx
      exact codecEncodeF_of (fun t b v B n h1 h2 => sizeMsgF_of hlay hwf d t b v B n h1 h2)
        (fun t b v B o n h1 h2 => encodeMsgF_of hlay hwf d t o b v B n h1 h2) _ _ _ _ _ _ _ (hwf.codec t f hmem) hs hr

end Pb.Flat
