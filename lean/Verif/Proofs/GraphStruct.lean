import Verif.Proofs.GraphDecode
/-
Pointers, the struct loop, messages and slices in typed memory (helper lemmas for `Props/Graph.lean`).
-/
namespace Pb.Flat

variable {lay : Lay} {T T' : Types} {m m' : Mem}

/-! ### New memory -/

theorem grew_zero (s : Shape) (c : List Cell) : Grew s (zeroCells s.size) c := by
  cases s with
  | slice s =>
    have : capC (zeroCells (Shape.slice s).size) = 0 := by
      rw [capC, Shape.size, zero_drop_take (by omega)]
      rfl
    simp only [Grew, this]
    omega
  | map k v => intro h; exact absurd rfl h
  | _ => trivial

theorem graph_new (h : Graph lay T m) {N : Nat} {sl : List (Nat × Shape)} (hsl : SlotsOK N sl) :
    Graph lay (T ++ [.mem N sl]) (m ++ [.mem (zeroCells N)]) ∧ Later T m (T ++ [.mem N sl]) (m ++ [.mem (zeroCells N)]) ∧
      (T ++ [.mem N sl])[m.length]? = some (.mem N sl) := by
  obtain ⟨g1, g2⟩ := graph_alloc h (.mem N sl) (.mem (zeroCells N)) ⟨hsl, by simp, fun q hq => by
    rw [zero_drop_take (hsl.1 q hq).2]; exact sound_zero _ _ _⟩
  exact ⟨g1, g2, by rw [← h.1]; simp⟩

theorem slotsOK_one (s : Shape) : SlotsOK s.size [(0, s)] := by
  refine ⟨?_, ?_⟩
  · intro q hq
    simp at hq
    subst hq
    simp
  · intro p hp q hq
    simp at hp hq
    exact .inl (hp.trans hq.symm)

theorem slotsOK_pairwise {N : Nat} {sl : List (Nat × Shape)} (h1 : ∀ q ∈ sl, q.1 % q.2.align = 0 ∧ q.1 + q.2.size ≤ N)
    (h2 : sl.Pairwise fun a b => a.1 + a.2.size ≤ b.1) : SlotsOK N sl := by
  refine ⟨h1, ?_⟩
  clear h1
  induction sl with
  | nil => intro p hp; cases hp
  | cons x sl ih =>
    obtain ⟨g1, g2⟩ := List.pairwise_cons.mp h2
    intro p hp q hq
    rcases List.mem_cons.mp hp with e1 | hp' <;> rcases List.mem_cons.mp hq with e2 | hq'
    · exact .inl (e1.trans e2.symm)
    · rw [e1]; exact .inr (.inl (g1 q hq'))
    · rw [e2]; exact .inr (.inr (g1 p hp'))
    · exact ih g2 p hp' q hq'

theorem slotsOK_msg (hlay : lay.OK) (t : TypeId) : SlotsOK (lay.size t) (lay.slots t) :=
  slotsOK_pairwise (fun q hq => ⟨hlay.aligned t q hq, hlay.within t q hq⟩) (hlay.apart t)

theorem mem_elemSlots {s : Shape} {p : Nat × Shape} : ∀ {n o : Nat}, p ∈ elemSlots s o n → ∃ i, i < n ∧ p = (o + i * s.size, s)
  | 0, _, h => by simp [elemSlots] at h
  | n + 1, o, h => by
    rw [elemSlots] at h
    rcases List.mem_cons.mp h with rfl | h
    · exact ⟨0, by omega, by simp⟩
    · obtain ⟨i, h1, h2⟩ := mem_elemSlots h
      refine ⟨i + 1, by omega, ?_⟩
      rw [h2, Nat.add_mul]
      congr 1; omega

theorem slotsOK_elems (s : Shape) (n : Nat) : SlotsOK (n * s.size) (elemSlots s 0 n) := by
  refine slotsOK_pairwise (fun q hq => ?_) (elemSlots_pairwise s n 0)
  have h1 := elemSlots_mem hq
  obtain ⟨i, _, rfl⟩ := mem_elemSlots hq
  exact ⟨elem_mod s (by simp) i, by simpa using h1.2.2⟩

/-! ### Pointers -/

theorem gsim_ptr {s dec decF} (hc : GSim lay s dec decF) :
    GSim lay (.ptr s)
      (fun b p => match p with
        | .nilp => do return (← dec b s.zero).wrap .ptr
        | .ptr v => do return (← dec b v).wrap .ptr
        | _ => .error .confused)
      (fun b m a => do
        match ← loadPtr m a with
        | none =>
          match alloc m (.mem (zeroCells s.size)) with
          | (p, m) =>
            let m ← store m a (ptrCells (some p)) 8
            decF b m p
        | some p => decF b m p) := by
  intro b v q hd T m a h hs
  have hq : ∃ w q', dec b w = .ok q' ∧ outOf q' = outOf q := by
    have key : ∀ w, (do return (← dec b w).wrap .ptr : Except Fault DRes) = .ok q → ∃ w q', dec b w = .ok q' ∧ outOf q' = outOf q := by
      intro w hw
      simp only [bind, Except.bind] at hw
      rcases hx : dec b w with e | q' <;> rw [hx] at hw
      · cases hw
      · cases hw
        exact ⟨w, q', hx, by cases q' <;> rfl⟩
    cases v with
    | nilp => exact key _ hd
    | ptr w => exact key _ hd
    | _ => cases hd
  obtain ⟨w, q', hw, ho⟩ := hq
  rw [← ho]
  have hmod : a.off % 8 = 0 := slot_mod h hs
  rcases cellsAt_sound h hs with hcell | ⟨p, hcell, hp⟩
  · have hl := graph_ptr8 (d := none) (y := []) h hs rfl (by rw [hcell]; simp)
    obtain ⟨g1, g2, g3⟩ := graph_new h (slotsOK_one s)
    have hp : SlotAt (T ++ [.mem s.size [(0, s)]]) ⟨m.length, 0⟩ s := ⟨_, _, g3, by simp⟩
    obtain ⟨m1, f1, f2, f3, _⟩ := graph_store_slot g1 (g2.slot hs) (al := 8) (new := ptrCells (some ⟨m.length, 0⟩)) hmod
      (.inr ⟨_, rfl, hp⟩) trivial
    obtain ⟨m2, T2, k1, k2, k3⟩ := hc b w q' hw _ m1 _ f2 (f3.slot hp)
    refine ⟨m2, T2, ?_, k2, g2.trans (f3.trans k3)⟩
    simp only [hl, alloc, bind, Except.bind, f1, k1]
  · have hl := graph_ptr8 (d := some p) (y := []) h hs rfl (by rw [hcell]; simp)
    obtain ⟨m2, T2, k1, k2, k3⟩ := hc b w q' hw T m p h hp
    refine ⟨m2, T2, ?_, k2, k3⟩
    simp only [hl, bind, Except.bind, k1]

/-! ### The struct loop -/

/-- The two field indices describe the same fields. -/
def GIdx (lay : Lay) (slots : List (Nat × Shape)) (idx : Nat → Option DField) (idxF : Nat → Option DFieldF) : Prop :=
  ∀ num, (idx num = none ∧ idxF num = none) ∨
    ∃ f g s, idx num = some f ∧ idxF num = some g ∧ g.wt = f.wt ∧ (g.off, s) ∈ slots ∧ GSim lay s f.dec g.dec

theorem structLoop_graph {slots idx idxF bs a} (hidx : GIdx lay slots idx idxF) : ∀ fuel off vs q,
    structLoop idx bs fuel off vs = .ok q → ∀ T m, Graph lay T m → (∀ p ∈ slots, SlotAt T (a.add p.1) p.2) →
    ∃ m' T', structLoopF idxF bs a fuel off m = .ok ⟨m', outOf q⟩ ∧ Graph lay T' m' ∧ Later T m T' m' := by
  intro fuel
  induction fuel with
  | zero =>
    intro off vs q hr T m h hs
    unfold structLoop at hr
    unfold structLoopF
    split at hr
    · cases hr
    · rename_i h'
      rw [if_neg h']
      cases hr
      exact ⟨m, T, rfl, h, Later.refl _ _⟩
  | succ fuel ih =>
    intro off vs q hr T m h hs
    have stop : ∀ e : Err, ∃ m' T', (Except.ok ⟨m, .error e⟩ : Except Fault Res) = .ok ⟨m', outOf (.err (.struct vs) e)⟩ ∧
        Graph lay T' m' ∧ Later T m T' m' := fun e => ⟨m, T, rfl, h, Later.refl _ _⟩
    unfold structLoop at hr
    unfold structLoopF
    split at hr
    case isFalse h' =>
      rw [if_neg h']
      cases hr
      exact ⟨m, T, rfl, h, Later.refl _ _⟩
    case isTrue h' =>
    rw [if_pos h']
    simp only [bind, Except.bind] at hr ⊢
    rcases hg : goFrom bs off with e | tl <;> rw [hg] at hr
    · cases hr
    simp only at hr ⊢
    rcases ht : decodeTag tl with ⟨num, wt, n, err⟩
    rw [ht] at hr
    simp only at hr ⊢
    cases err with
    | some e => cases hr; exact stop e
    | none =>
    simp only at hr ⊢
    rcases hidx num with ⟨h1, h2⟩ | ⟨f, g, s, h1, h2, h3, h4, h5⟩
    · rw [h1] at hr
      rw [h2]
      simp only at hr ⊢
      rcases hk : skipUnknown bs (off + n) wt with e | ⟨off', err⟩ <;> rw [hk] at hr
      · cases hr
      simp only at hr ⊢
      cases err with
      | some e => cases hr; exact stop _
      | none => exact ih off' vs q hr T m h hs
    · rw [h1] at hr
      rw [h2]
      simp only at hr ⊢
      rw [h3]
      split at hr
      case isTrue hw => rw [if_pos hw]; cases hr; exact stop _
      case isFalse hw =>
      rw [if_neg hw]
      rcases hf : fieldData bs (off + n) wt with e | r <;> rw [hf] at hr
      · cases hr
      simp only at hr ⊢
      cases r with
      | error e => cases hr; exact stop _
      | ok data =>
      simp only at hr ⊢
      rcases hv : slotOf (.struct vs) f.offset with e | v <;> rw [hv] at hr
      · cases hr
      simp only at hr
      rcases hd : f.dec data v with e | r <;> rw [hd] at hr
      · cases hr
      obtain ⟨m1, T1, f1, f2, f3⟩ := h5 data v r hd T m _ h (hs _ h4)
      rw [f1]
      cases r with
      | err v' e =>
        cases hr
        exact ⟨m1, T1, rfl, f2, f3⟩
      | ok v' n' =>
        simp only at hr ⊢
        obtain ⟨m2, T2, d1, d2, d3⟩ := ih _ _ q hr T1 m1 f2 fun p hp => f3.slot (hs p hp)
        exact ⟨m2, T2, d1, d2, f3.trans d3⟩

/-- Fields that describe the same. -/
inductive GFields (lay : Lay) (slots : List (Nat × Shape)) : List DField → List DFieldF → Prop
  | nil : GFields lay slots [] []
  | cons (f : DField) (g : DFieldF) (s : Shape) (fs gs) : g.num = f.num → g.wt = f.wt → (g.off, s) ∈ slots →
      GSim lay s f.dec g.dec → GFields lay slots fs gs → GFields lay slots (f :: fs) (g :: gs)

theorem gidx_foldl {slots fs gs} (h : GFields lay slots fs gs) : ∀ idx idxF, GIdx lay slots idx idxF →
    GIdx lay slots (fs.foldl (fun m f => fun n => if n = f.num then some f else m n) idx)
      (gs.foldl (fun m f => fun n => if n = f.num then some f else m n) idxF) := by
  induction h with
  | nil => intro idx idxF h; exact h
  | cons f g s fs gs h1 h2 h3 h4 _ ih =>
    intro idx idxF h
    rw [List.foldl_cons, List.foldl_cons]
    apply ih
    intro num
    rw [h1]
    by_cases hn : num = f.num
    · simp only [hn, if_true]
      exact .inr ⟨f, g, s, rfl, rfl, h2, h3, h4⟩
    · simp only [hn, if_false]
      exact h num

theorem structDecode_graph {slots fs gs bs a v q} (hf : GFields lay slots fs gs) (hr : structDecode fs bs v = .ok q)
    (h : Graph lay T m) (hs : ∀ p ∈ slots, SlotAt T (a.add p.1) p.2) :
    ∃ m' T', structDecodeF gs bs m a = .ok ⟨m', outOf q⟩ ∧ Graph lay T' m' ∧ Later T m T' m' := by
  cases v with
  | struct vs => exact structLoop_graph (gidx_foldl hf _ _ fun _ => .inl ⟨rfl, rfl⟩) _ _ vs q hr T m h hs
  | _ => cases hr

/-! ### Messages -/

/-- `GSim` for messages. -/
def GMsg (lay : Lay) (t : TypeId) (dec : Bytes → Val → Except Fault DRes) (decF : DecF) : Prop :=
  ∀ b v q, dec b v = .ok q → ∀ T m a, Graph lay T m → MsgAt lay T a t →
    ∃ m' T', decF b m a = .ok ⟨m', outOf q⟩ ∧ Graph lay T' m' ∧ Later T m T' m'

theorem graph_newMsg (hlay : lay.OK) (h : Graph lay T m) (t : TypeId) :
    ∃ κ, Graph lay (T ++ [κ]) (m ++ [.mem (zeroCells (lay.size t))]) ∧
      Later T m (T ++ [κ]) (m ++ [.mem (zeroCells (lay.size t))]) ∧ MsgAt lay (T ++ [κ]) ⟨m.length, 0⟩ t := by
  obtain ⟨g1, g2, g3⟩ := graph_new h (slotsOK_msg hlay t)
  exact ⟨_, g1, g2, _, _, g3, fun q hq => by simpa using hq⟩

theorem gsim_msg (hlay : lay.OK) {t zeros rec recF} (hc : GMsg lay t (rec t) (recF t)) (grow : Nat → Nat → Nat) :
    GSim lay (.msg t) (codecDecode zeros rec (.msg t)) (codecDecodeF grow lay.size recF (.msg t)) := by
  intro b v q hr T m a h hs
  have hmod : a.off % 8 = 0 := slot_mod h hs
  -- both kinds of pointers at once
  have main : ∀ T1 m1 p w, Graph lay T1 m1 → Later T m T1 m1 → MsgAt lay T1 p t →
      (do
        let (_, n, err) := decodeVarint b
        match err with
        | some e => return .err (.ptr w) e
        | none =>
          match ← rec t (← goFrom b n) w with
          | .ok v l => return .ok (.ptr v) (n + l)
          | .err v e => return .err (.ptr v) e : Except Fault DRes) = .ok q →
      ∃ m' T', (do
        let (_, n, err) := decodeVarint b
        match err with
        | some e => return ⟨m1, .error e⟩
        | none =>
          match ← recF t (← goFrom b n) m1 p with
          | ⟨m, .ok l⟩ => return ⟨m, .ok (n + l)⟩
          | ⟨m, .error e⟩ => return ⟨m, .error e⟩ : Except Fault Res) = .ok ⟨m', outOf q⟩ ∧ Graph lay T' m' ∧ Later T m T' m' := by
    intro T1 m1 p w h1 hl hp hr
    rcases hv : decodeVarint b with ⟨x, n, err⟩
    rw [hv] at hr
    simp only at hr ⊢
    cases err with
    | some e =>
      cases hr
      exact ⟨m1, T1, rfl, h1, hl⟩
    | none =>
    simp only [bind, Except.bind] at hr ⊢
    rcases hg : goFrom b n with e | tl <;> rw [hg] at hr
    · cases hr
    simp only at hr ⊢
    rcases hd : rec t tl w with e | r <;> rw [hd] at hr
    · cases hr
    obtain ⟨m2, T2, f1, f2, f3⟩ := hc tl w r hd T1 m1 p h1 hp
    rw [f1]
    cases r with
    | ok v l => cases hr; exact ⟨m2, T2, rfl, f2, hl.trans f3⟩
    | err v e => cases hr; exact ⟨m2, T2, rfl, f2, hl.trans f3⟩
  have hw : ∃ w, (do
        let (_, n, err) := decodeVarint b
        match err with
        | some e => return .err (.ptr w) e
        | none =>
          match ← rec t (← goFrom b n) w with
          | .ok v l => return .ok (.ptr v) (n + l)
          | .err v e => return .err (.ptr v) e : Except Fault DRes) = .ok q := by
    cases v with
    | nilp => exact ⟨zeros t, hr⟩
    | ptr w => exact ⟨w, hr⟩
    | _ => cases hr
  obtain ⟨w, hw⟩ := hw
  rcases cellsAt_sound h hs with hcell | ⟨p, hcell, hp⟩
  · have hl := graph_ptr8 (d := none) (y := []) h hs rfl (by rw [hcell]; simp)
    obtain ⟨κ, g1, g2, g3⟩ := graph_newMsg hlay h t
    obtain ⟨m1, f1, f2, f3, _⟩ := graph_store_slot g1 (g2.slot hs) (al := 8) (new := ptrCells (some ⟨m.length, 0⟩)) hmod
      (.inr ⟨_, rfl, g3⟩) trivial
    simp only [codecDecodeF, hl, alloc, f1, pure, Except.pure, bind, Except.bind]
    exact main _ m1 _ w f2 (g2.trans f3) (f3.msg g3) hw
  · have hl := graph_ptr8 (d := some p) (y := []) h hs rfl (by rw [hcell]; simp)
    simp only [codecDecodeF, hl, pure, Except.pure, bind, Except.bind]
    exact main T m p w h (Later.refl _ _) hp hw

/-! ### Slices -/

theorem capC_sliceCells (d : Option Addr) (n cap : Nat) : capC (sliceCells d n cap) = cap := by
  have : ((sliceCells d n cap).drop 16).take 8 = intCells cap := by
    rw [sliceCells, ← List.append_assoc, List.drop_left' (by simp), List.take_of_length_le (by simp)]
  rw [capC, this, asInt_intCells]
  rfl

/-- A header, whichever kind of slice. -/
theorem sound_slice {s : Shape} {c} (h : Sound lay T (.slice s) c) : ∃ d n cap, c = sliceCells d n cap ∧ n ≤ cap ∧
    (∀ a, d = some a → ArrayAt T a s cap) ∧ (d = none → cap = 0) := by
  rcases h with e | ⟨a, n, cap, e, h1, h2⟩
  · exact ⟨none, 0, 0, e, Nat.le_refl _, ⟨by simp, fun _ => rfl⟩⟩
  · exact ⟨some a, n, cap, e, h1, ⟨fun a' h => by cases h; exact h2, by simp⟩⟩

theorem graph_growSlice (h : Graph lay T m) {a s} (hs : SlotAt T a (.slice s)) {d n cap}
    (hc : cellsAt m a.blk a.off 24 = sliceCells d n cap) (hle : n ≤ cap) (hd : ∀ p, d = some p → ArrayAt T p s cap) :
    ∃ m' T' p, growSliceF m a (alignedSize s) s.align = .ok m' ∧ Graph lay T' m' ∧ Later T m T' m' ∧
      cellsAt m' a.blk a.off 24 = sliceCells (some p) n (if 2 * cap = 0 then 10 else 2 * cap) ∧
      ArrayAt T' p s (if 2 * cap = 0 then 10 else 2 * cap) := by
  obtain ⟨e1, e2, e3⟩ := graph_header h hs rfl hc
  have hmod : a.off % 8 = 0 := slot_mod h hs
  rw [alignedSize_eq]
  generalize hN : (if 2 * cap = 0 then 10 else 2 * cap) = N
  have hNle : cap ≤ N := by rw [← hN]; split <;> omega
  obtain ⟨g1, g2, g3⟩ := graph_new h (slotsOK_elems s N)
  have hp : ArrayAt (T ++ [.mem (N * s.size) (elemSlots s 0 N)]) ⟨m.length, 0⟩ s N :=
    ⟨_, _, g3, by simp, by simp, fun i hi => List.mem_of_getElem? (elemSlots_get s N 0 i hi)⟩
  -- the new header
  have finish : ∀ m1, Graph lay (T ++ [.mem (N * s.size) (elemSlots s 0 N)]) m1 →
      Later (T ++ [.mem (N * s.size) (elemSlots s 0 N)]) (m ++ [.mem (zeroCells (N * s.size))])
        (T ++ [.mem (N * s.size) (elemSlots s 0 N)]) m1 → cellsAt m1 a.blk a.off 24 = cellsAt m a.blk a.off 24 →
      ∃ m' T' p, store m1 a (sliceCells (some ⟨m.length, 0⟩) n N) 8 = .ok m' ∧ Graph lay T' m' ∧ Later T m T' m' ∧
        cellsAt m' a.blk a.off 24 = sliceCells (some p) n N ∧ ArrayAt T' p s N := by
    intro m1 h1 hl1 hsame
    obtain ⟨m2, f1, f2, f3, f4⟩ := graph_store_slot h1 (g2.slot hs) (al := 8) (new := sliceCells (some ⟨m.length, 0⟩) n N) hmod
      (.inr ⟨_, n, N, rfl, by omega, hp⟩) (by
        show capC _ ≤ capC _
        rw [Shape.size, hsame, hc, capC_sliceCells, capC_sliceCells]; exact hNle)
    exact ⟨m2, _, _, f1, f2, g2.trans (hl1.trans f3), f4, f3.array hp⟩
  have hlta : a.blk < m.length := by
    obtain ⟨cs, k, _⟩ := h.slot hs
    exact lt_of_get k
  have hkeep : ∀ m1 : Mem, m1[a.blk]? = m[a.blk]? → cellsAt m1 a.blk a.off 24 = cellsAt m a.blk a.off 24 := by
    intro m1 hm1
    simp only [cellsAt, hm1]
  cases d with
  | none =>
    simp only [growSliceF, e1, e2, e3, bind, Except.bind, hN, alloc, pure, Except.pure]
    exact finish _ g1 (Later.refl _ _) (hkeep _ (List.getElem?_append_left hlta))
  | some d =>
    simp only [growSliceF, e1, e2, e3, bind, Except.bind, hN, alloc, assign]
    obtain ⟨N0, sl, k1, k2, k3, k4⟩ := hd d rfl
    obtain ⟨cs, i1, i2, i3, i4⟩ := h.mem k1
    have hltd := lt_of_get i1
    have hm1 : (m ++ [Obj.mem (zeroCells (N * s.size))])[d.blk]? = some (.mem cs) := by
      rw [List.getElem?_append_left hltd]; exact i1
    have hns : n * s.size ≤ cap * s.size := Nat.mul_le_mul_right _ hle
    have hNs : cap * s.size ≤ N * s.size := Nat.mul_le_mul_right _ hNle
    have hin : d.off + n * s.size ≤ cs.length := by omega
    have hload : load (m ++ [Obj.mem (zeroCells (N * s.size))]) d (n * s.size) s.align =
        .ok ((cs.drop d.off).take (n * s.size)) := by
      simp only [load, k2, ne_eq, not_true, if_false, hm1, hin, if_true]
    rw [hload]
    simp only
    have hcl : ((cs.drop d.off).take (n * s.size)).length = n * s.size := by simp; omega
    have hzl : (zeroCells (N * s.size)).length = N * s.size := length_zeroCells _
    have hfit : 0 + ((cs.drop d.off).take (n * s.size)).length ≤ (zeroCells (N * s.size)).length := by omega
    have hnew : (m ++ [Obj.mem (zeroCells (N * s.size))])[m.length]? = some (.mem (zeroCells (N * s.size))) := alloc_get m _
    obtain ⟨f1, f2⟩ := graph_put g1 g3 (cs' := splice (zeroCells (N * s.size)) 0 ((cs.drop d.off).take (n * s.size))) hnew
      (splice_length hfit)
      (fun q hq => by
        obtain ⟨i, hi, rfl⟩ := mem_elemSlots hq
        simp only [Nat.zero_add]
        have hie : i * s.size + s.size = (i + 1) * s.size := by rw [Nat.add_mul, Nat.one_mul]
        have hiN : (i + 1) * s.size ≤ N * s.size := Nat.mul_le_mul_right _ hi
        by_cases hin' : i < n
        · have hi2 : (i + 1) * s.size ≤ n * s.size := Nat.mul_le_mul_right _ hin'
          have : ((splice (zeroCells (N * s.size)) 0 ((cs.drop d.off).take (n * s.size))).drop (i * s.size)).take s.size =
              (cs.drop (d.off + i * s.size)).take s.size := by
            apply List.ext_getElem?
            intro j
            rw [List.getElem?_take, List.getElem?_take]
            split
            · rw [List.getElem?_drop, splice_get hfit, if_pos (by omega), List.getElem?_drop, Nat.sub_zero,
                List.getElem?_take, if_pos (by omega), List.getElem?_drop, Nat.add_assoc]
            · rfl
          rw [this]
          exact (i4 _ (k4 i (by omega))).ext _
        · have hi2 : n * s.size ≤ i * s.size := Nat.mul_le_mul_right _ (by omega)
          rw [cells_apart (cs := zeroCells (N * s.size)) (P := region 0 (n * s.size))
            (fun j hj => by unfold region at hj; rw [splice_get hfit, if_neg (by omega)])
            (fun j hj _ => by unfold region; omega), zero_drop_take (by omega)]
          exact sound_zero _ _ _)
      (fun q hq => by
        obtain ⟨i, hi, rfl⟩ := mem_elemSlots hq
        simp only [Nat.zero_add]
        have hie : i * s.size + s.size = (i + 1) * s.size := by rw [Nat.add_mul, Nat.one_mul]
        have hiN : (i + 1) * s.size ≤ N * s.size := Nat.mul_le_mul_right _ hi
        rw [zero_drop_take (by omega)]
        exact grew_zero _ _)
    have hst : store (m ++ [Obj.mem (zeroCells (N * s.size))]) ⟨m.length, 0⟩ ((cs.drop d.off).take (n * s.size)) s.align =
        .ok ((m ++ [Obj.mem (zeroCells (N * s.size))]).set m.length
          (.mem (splice (zeroCells (N * s.size)) 0 ((cs.drop d.off).take (n * s.size))))) := by
      simp only [store, Nat.zero_mod, ne_eq, not_true, if_false, hnew, hfit, if_true]
    rw [hst]
    exact finish _ f1 f2 (hkeep _ (by rw [List.getElem?_set_ne (by omega), List.getElem?_append_left hlta]))

theorem gsim_slice {c : Codec} {z zeros rec recF} {grow : Nat → Nat → Nat}
    (hc : GSim lay c.shape (codecDecode zeros rec c) (codecDecodeF grow lay.size recF c)) :
    GSim lay (.slice c.shape) (codecDecode zeros rec (.slice z c)) (codecDecodeF grow lay.size recF (.slice z c)) := by
  intro b v q hr T m a h hs
  -- the element
  have hq : ∃ w r, codecDecode zeros rec c b w = .ok r ∧ outOf r = outOf q := by
    cases v with
    | slice isNil es spare =>
      simp only [codecDecode] at hr
      generalize growIfFull z es spare = sp at hr
      cases sp with
      | nil => cases hr
      | cons w sp =>
        simp only [bind, Except.bind] at hr
        rcases hx : codecDecode zeros rec c b w with e | r <;> rw [hx] at hr
        · cases hr
        · refine ⟨w, r, hx, ?_⟩
          cases r <;> cases hr <;> rfl
    | _ => cases hr
  obtain ⟨w, r, hw, ho⟩ := hq
  have hmod : a.off % 8 = 0 := slot_mod h hs
  obtain ⟨d, n, cap, hcell, hle, hd, hnil⟩ := sound_slice (cellsAt_sound h hs)
  obtain ⟨e1, e2, e3⟩ := graph_header h hs rfl hcell
  -- there is room
  have room : ∃ m1 T1 p cap1, (if n = cap then growSliceF m a (alignedSize c.shape) c.shape.align else pure m) = .ok m1 ∧
      Graph lay T1 m1 ∧ Later T m T1 m1 ∧ cellsAt m1 a.blk a.off 24 = sliceCells (some p) n cap1 ∧ n < cap1 ∧
      ArrayAt T1 p c.shape cap1 := by
    by_cases hf : n = cap
    · rw [if_pos hf]
      obtain ⟨m1, T1, p, f1, f2, f3, f4, f5⟩ := graph_growSlice h hs hcell hle hd
      exact ⟨m1, T1, p, _, f1, f2, f3, f4, by split <;> omega, f5⟩
    · rw [if_neg hf]
      cases d with
      | none => have := hnil rfl; omega
      | some p => exact ⟨m, T, p, cap, rfl, h, Later.refl _ _, hcell, by omega, hd p rfl⟩
  obtain ⟨m1, T1, p, cap1, f1, f2, f3, f4, f5, f6⟩ := room
  have hs1 := f3.slot hs
  have hp1 := (graph_header f2 hs1 rfl f4).1
  obtain ⟨m2, T2, k1, k2, k3⟩ := hc b w r hw T1 m1 _ f2 (f6.slot f5)
  have heq : codecDecodeF grow lay.size recF (.slice z c) b m a =
      (do
        let m ← (if n = cap then growSliceF m a (alignedSize c.shape) c.shape.align else pure m)
        let d ← loadPtr m a
        match ← codecDecodeF grow lay.size recF c b m (← index d n (alignedSize c.shape)) with
        | ⟨m, .ok l⟩ => return ⟨← store m (a.add 8) (intCells (n + 1)) 8, .ok l⟩
        | ⟨m, .error e⟩ => return ⟨m, .error e⟩) := by
    simp only [codecDecodeF, e2, e3, bind, Except.bind]
    split <;> rfl
  rw [heq, f1]
  simp only [bind, Except.bind, hp1, index, alignedSize_eq, k1]
  cases r with
  | err w' e =>
    refine ⟨m2, T2, ?_, k2, f3.trans k3⟩
    rw [← ho]; rfl
  | ok w' l =>
    -- the length
    have hs2 := k3.slot hs1
    obtain ⟨d2, n2, cap2, hcell2, hle2, hd2, hnil2⟩ := sound_slice (cellsAt_sound k2 hs2)
    have hcap : cap1 ≤ cap2 := by
      obtain ⟨N, sl, t1, t2⟩ := hs1
      have := k3.grew _ N sl _ t1 t2
      simp only at this
      rw [hcell2] at this
      have h2 : cellsAt m1 a.blk a.off (Shape.slice c.shape).size = sliceCells (some p) n cap1 := f4
      rw [h2] at this
      simpa only [Grew, capC_sliceCells] using this
    have hspl : splice (sliceCells d2 n2 cap2) 8 (intCells (n + 1)) = sliceCells d2 (n + 1) cap2 := by
      simp only [splice, sliceCells, length_intCells]
      rw [List.take_left' (by simp), ← List.append_assoc, ← List.append_assoc, List.drop_left' (by simp), List.append_assoc]
    obtain ⟨m3, j1, j2, j3, _⟩ := graph_store k2 hs2 (k := 8) (al := 8) (new := intCells (n + 1)) (by simp [Shape.size]) (by omega)
      (by
        rw [hcell2, hspl]
        cases d2 with
        | none => have := hnil2 rfl; omega
        | some p2 => exact .inr ⟨p2, n + 1, cap2, rfl, by omega, hd2 p2 rfl⟩)
      (by rw [hcell2, hspl]; simp only [Grew, capC_sliceCells]; exact Nat.le_refl _)
    refine ⟨m3, T2, ?_, j2, f3.trans (k3.trans j3)⟩
    simp only [outOf] at ho ⊢
    rw [j1, ← ho]; rfl

end Pb.Flat
