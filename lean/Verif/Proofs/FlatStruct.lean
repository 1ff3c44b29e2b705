import Verif.Proofs.FlatDecode
/-
The struct loop, messages, byte slices and slices on raw memory (helper lemmas for `Props/Flat.lean`).
-/
namespace Pb.Flat

variable {lay : Lay} {m m' : Mem}

/-- Allocation `b` is a struct with the given fields. -/
def StructAt (lay : Lay) (m : Mem) (slots : List (Nat × Shape)) (N b : Nat) (vs : List Val) (B : List Nat) : Prop :=
  ∃ cs, m[b]? = some (.mem cs) ∧ cs.length = N ∧ RepF lay m slots cs vs B

/-- The two field indices describe the same fields. -/
def IdxSim (lay : Lay) (slots : List (Nat × Shape)) (idx : Nat → Option DField) (idxF : Nat → Option DFieldF) : Prop :=
  ∀ num, (idx num = none ∧ idxF num = none) ∨
    ∃ f g s, idx num = some f ∧ idxF num = some g ∧ g.wt = f.wt ∧ slots[f.offset]? = some (g.off, s) ∧ Sim lay s f.dec g.dec

/-- The cells of the fields in an index. -/
def Touched (slots : List (Nat × Shape)) (idxF : Nat → Option DFieldF) (i : Nat) : Prop :=
  ∃ num g, ∃ s : Shape, ∃ k : Nat, idxF num = some g ∧ slots[k]? = some (g.off, s) ∧ region g.off s.size i

theorem structLoop_sim {slots idx idxF N bs b} (hp : slots.Pairwise fun a b => a.1 + a.2.size ≤ b.1)
    (hal : ∀ s ∈ slots, s.1 % s.2.align = 0) (hidx : IdxSim lay slots idx idxF) : ∀ fuel off m vs B r,
    StructAt lay m slots N b vs B → (b :: B).Nodup → structLoop idx bs fuel off vs = .ok r →
    ∃ m' vs' B', structLoopF idxF bs ⟨b, 0⟩ fuel off m = .ok ⟨m', outOf r⟩ ∧ valOf r = .struct vs' ∧
      StructAt lay m' slots N b vs' B' ∧ (b :: B').Nodup ∧ Upd m m' b (Touched slots idxF) B ∧
      ∀ x ∈ B', x ∈ B ∨ m.length ≤ x := by
  intro fuel
  induction fuel with
  | zero =>
    intro off m vs B r hs hn hr
    unfold structLoop at hr
    unfold structLoopF
    split at hr
    · cases hr
    · rename_i h
      rw [if_neg h]
      cases hr
      exact ⟨m, vs, B, rfl, rfl, hs, hn, Upd.refl _ _ _ _, fun _ h => .inl h⟩
  | succ fuel ih =>
    intro off m vs B r hs hn hr
    have stop : ∀ e : Err, ∃ m' vs' B', (Except.ok ⟨m, .error e⟩ : Except Fault Res) = .ok ⟨m', outOf (.err (.struct vs) e)⟩ ∧
        valOf (.err (.struct vs) e) = .struct vs' ∧ StructAt lay m' slots N b vs' B' ∧ (b :: B').Nodup ∧
        Upd m m' b (Touched slots idxF) B ∧ ∀ x ∈ B', x ∈ B ∨ m.length ≤ x :=
      fun e => ⟨m, vs, B, rfl, rfl, hs, hn, Upd.refl _ _ _ _, fun _ h => .inl h⟩
    unfold structLoop at hr
    unfold structLoopF
    split at hr
    case isFalse h =>
      rw [if_neg h]
      cases hr
      exact ⟨m, vs, B, rfl, rfl, hs, hn, Upd.refl _ _ _ _, fun _ h => .inl h⟩
    case isTrue h =>
    rw [if_pos h]
    simp only [bind, Except.bind] at hr ⊢
    rcases hg : goFrom bs off with e | tl <;> rw [hg] at hr
    · cases hr
    simp only at hr ⊢
    rcases ht : decodeTag tl with ⟨num, wt, n, err⟩
    rw [ht] at hr
    simp only at hr ⊢
    cases err with
    | some e => cases hr; exact stop e
    | none =>
    simp only at hr ⊢
    rcases hidx num with ⟨h1, h2⟩ | ⟨f, g, s, h1, h2, h3, h4, h5⟩
    · rw [h1] at hr
      rw [h2]
      simp only at hr ⊢
      rcases hk : skipUnknown bs (off + n) wt with e | ⟨off', err⟩ <;> rw [hk] at hr
      · cases hr
      simp only at hr ⊢
      cases err with
      | some e => cases hr; exact stop _
      | none => exact ih off' m vs B r hs hn hr
    · rw [h1] at hr
      rw [h2]
      simp only at hr ⊢
      rw [h3]
      split at hr
      case isTrue hw => rw [if_pos hw]; cases hr; exact stop _
      case isFalse hw =>
      rw [if_neg hw]
      rcases hf : fieldData bs (off + n) wt with e | q <;> rw [hf] at hr
      · cases hr
      simp only at hr ⊢
      cases q with
      | error e => cases hr; exact stop _
      | ok data =>
      simp only at hr ⊢
      rcases hv : slotOf (.struct vs) f.offset with e | v <;> rw [hv] at hr
      · cases hr
      simp only at hr
      have hv' : vs[f.offset]? = some v := by
        simp only [slotOf] at hv
        split at hv
        · rename_i w hw; cases hv; exact hw
        · cases hv
      rcases hd : f.dec data v with e | q <;> rw [hd] at hr
      · cases hr
      -- the field
      obtain ⟨cs, e1, e2, e3⟩ := hs
      have hlt := lt_of_get e1
      have hltB := repF_lt e3
      obtain ⟨hnb, hnB⟩ := List.nodup_cons.mp hn
      obtain ⟨Bx, k1, k2, k3, k4, k5⟩ := repF_update e3 hp hnB h4 hv'
      have hbx : b ∉ Bx := fun h => hnb (k3 b h)
      have hslot : Slot lay m (Addr.add ⟨b, 0⟩ g.off) s v Bx := by
        refine ⟨cs, e1, by simpa [Addr.add] using k2, ?_, by simpa [Addr.add] using k1⟩
        simpa [Addr.add] using hal _ (List.mem_of_getElem? h4)
      obtain ⟨m1, f1, Bx', f2, f3, f4, f5⟩ := h5 data m _ v Bx q hslot (List.nodup_cons.mpr ⟨hbx, k4⟩) hd
      simp only [Addr.add, Nat.zero_add] at f2 f3 f4
      obtain ⟨cs1, c1, c2, c3⟩ := f4.here cs e1
      obtain ⟨hnb', hnB'⟩ := List.nodup_cons.mp f3
      have hrep : Rep lay m1 s ((cs1.drop g.off).take s.size) (valOf q) Bx' := by
        obtain ⟨cs0, a1, _, _, a4⟩ := f2
        have : cs0 = cs1 := by
          have := a1.symm.trans c1
          cases this; rfl
        subst this
        exact a4
      obtain ⟨B1, b1, b2, b3⟩ := k5 f4.ro c2 c3 hrep hnB' f5
        (fun x hx hxB => f4.same x (hltB x hx) (fun e => hnb (e ▸ hx)) hxB)
      have hb1 : b ∉ B1 := by
        intro hx
        rcases b3 b hx with h | h
        · exact hnb h
        · omega
      have hs1 : StructAt lay m1 slots N b (vs.set f.offset (valOf q)) B1 := ⟨cs1, c1, c2.trans e2, b1⟩
      have hn1 : (b :: B1).Nodup := List.nodup_cons.mpr ⟨hb1, b2⟩
      have hu : Upd m m1 b (Touched slots idxF) B :=
        f4.weaken (fun i hi => ⟨num, g, s, f.offset, h2, h4, hi⟩) k3
      rw [f1]
      cases q with
      | err v' e =>
        cases hr
        exact ⟨m1, _, B1, rfl, rfl, hs1, hn1, hu, b3⟩
      | ok v' n' =>
        simp only at hr ⊢
        obtain ⟨m2, vs2, B2, d1, d2, d3, d4, d5, d6⟩ := ih _ m1 _ B1 r hs1 hn1 hr
        refine ⟨m2, vs2, B2, d1, d2, d3, d4, hu.trans d5 b3, ?_⟩
        intro x hx
        rcases d6 x hx with h | h
        · exact b3 x h
        · exact .inr (Nat.le_trans hu.len h)

/-- Fields that describe the same. -/
inductive FieldsSim (lay : Lay) (slots : List (Nat × Shape)) : List DField → List DFieldF → Prop
  | nil : FieldsSim lay slots [] []
  | cons (f : DField) (g : DFieldF) (s : Shape) (fs gs) : g.num = f.num → g.wt = f.wt → slots[f.offset]? = some (g.off, s) →
      Sim lay s f.dec g.dec → FieldsSim lay slots fs gs → FieldsSim lay slots (f :: fs) (g :: gs)

theorem idxSim_foldl {slots fs gs} (h : FieldsSim lay slots fs gs) : ∀ idx idxF, IdxSim lay slots idx idxF →
    IdxSim lay slots (fs.foldl (fun m f => fun n => if n = f.num then some f else m n) idx)
      (gs.foldl (fun m f => fun n => if n = f.num then some f else m n) idxF) := by
  induction h with
  | nil => intro idx idxF h; exact h
  | cons f g s fs gs h1 h2 h3 h4 _ ih =>
    intro idx idxF h
    rw [List.foldl_cons, List.foldl_cons]
    apply ih
    intro num
    rw [h1]
    by_cases hn : num = f.num
    · simp only [hn, if_true]
      exact .inr ⟨f, g, s, rfl, rfl, h2, h3, h4⟩
    · simp only [hn, if_false]
      exact h num

theorem idxSim_of {slots fs gs} (h : FieldsSim lay slots fs gs) : IdxSim lay slots (fieldIndex fs) (fieldIndexF gs) :=
  idxSim_foldl h _ _ fun _ => .inl ⟨rfl, rfl⟩

theorem fieldIndexF_mem {gs : List DFieldF} {num g} (h : fieldIndexF gs num = some g) : g ∈ gs := by
  have key : ∀ (gs : List DFieldF) (idx : Nat → Option DFieldF), 
      gs.foldl (fun m f => fun n => if n = f.num then some f else m n) idx num = some g → g ∈ gs ∨ idx num = some g := by
    intro gs
    induction gs with
    | nil => intro idx h; exact .inr h
    | cons f gs ih =>
      intro idx h
      rw [List.foldl_cons] at h
      rcases ih _ h with h | h
      · exact .inl (by simp [h])
      · split at h
        · cases h; exact .inl (by simp)
        · exact .inr h
  rcases key gs _ h with h | h
  · exact h
  · cases h

theorem structDecode_sim {slots fs gs N bs b m vs B r} (hp : slots.Pairwise fun a b => a.1 + a.2.size ≤ b.1)
    (hal : ∀ s ∈ slots, s.1 % s.2.align = 0) (hf : FieldsSim lay slots fs gs)
    (hs : StructAt lay m slots N b vs B) (hn : (b :: B).Nodup) (hr : structDecode fs bs (.struct vs) = .ok r) :
    ∃ m' vs' B', structDecodeF gs bs m ⟨b, 0⟩ = .ok ⟨m', outOf r⟩ ∧ valOf r = .struct vs' ∧
      StructAt lay m' slots N b vs' B' ∧ (b :: B').Nodup ∧ Upd m m' b (Touched slots (fieldIndexF gs)) B ∧
      ∀ x ∈ B', x ∈ B ∨ m.length ≤ x :=
  structLoop_sim hp hal (idxSim_of hf) _ _ m vs B r hs hn hr

/-! ### Messages -/

/-- The decode function `decF` of a message type does what `dec` does; it changes only the cells `P` of the struct. -/
def SimMsg (lay : Lay) (t : TypeId) (P : Nat → Prop) (dec : Bytes → Val → Except Fault DRes) (decF : DecF) : Prop :=
  ∀ bs m b v B r, MsgRep lay m t b v B → (b :: B).Nodup → dec bs v = .ok r →
    ∃ m' B', decF bs m ⟨b, 0⟩ = .ok ⟨m', outOf r⟩ ∧ MsgRep lay m' t b (valOf r) B' ∧ (b :: B').Nodup ∧
      Upd m m' b P B ∧ ∀ x ∈ B', x ∈ B ∨ m.length ≤ x

/-- The slot of a pointer whose message has been decoded into. -/
theorem after_msg {a b t w B q P B'} (h : Slot lay m a (.msg t) (.ptr w) (b :: B)) (hn : (a.blk :: b :: B).Nodup)
    (f1 : MsgRep lay m' t b q B') (f2 : (b :: B').Nodup) (f3 : Upd m m' b P B) (f4 : ∀ x ∈ B', x ∈ B ∨ m.length ≤ x) :
    After lay m m' a (.msg t) (.ptr q) (b :: B) := by
  have hlta := slot_lt h
  simp only [List.nodup_cons, List.mem_cons, not_or] at hn f2
  obtain ⟨⟨n1, n2⟩, n3, n4⟩ := hn
  obtain ⟨cs, hm, hl, ha, hr⟩ := h
  obtain ⟨vs, cs', rfl, k1, k2, k3⟩ := f1
  have hc : (cs.drop a.off).take (Shape.size (.msg t)) = ptrCells (some ⟨b, 0⟩) := by
    generalize hc : (cs.drop a.off).take (Shape.size (.msg t)) = c at hr
    cases hr with
    | msg => rfl
  refine ⟨b :: B', ⟨cs, f3.get hm n1 n2, hl, ha, ?_⟩, ?_, ?_, ?_⟩
  · rw [hc]
    exact .msg t b cs' vs B' k1 k2 k3
  · simp only [List.nodup_cons, List.mem_cons, not_or]
    refine ⟨⟨n1, fun hx => ?_⟩, f2.1, f2.2⟩
    rcases f4 _ hx with h | h
    · exact n2 h
    · omega
  · exact f3.inner n1 n2 (by simp) fun x hx => by simp [hx]
  · intro x hx
    rcases List.mem_cons.mp hx with rfl | hx
    · exact .inl (by simp)
    · rcases f4 x hx with h | h
      · exact .inl (by simp [h])
      · exact .inr h

theorem new_msg (hlay : lay.OK) {a t} (h : Slot lay m a (.msg t) .nilp []) :
    ∃ m1, store (m ++ [.mem (zeroCells (lay.size t))]) a (ptrCells (some ⟨m.length, 0⟩)) 8 = .ok m1 ∧
      Slot lay m1 a (.msg t) (.ptr (.struct ((lay.shapes t).map Shape.zero))) [m.length] ∧
      MsgRep lay m1 t m.length (.struct ((lay.shapes t).map Shape.zero)) [] ∧
      Upd m m1 a.blk (region a.off 8) [] := by
  have hlta := slot_lt h
  have ha := slot_aligned8 h rfl
  have hz : ∀ m', RepF lay m' (lay.slots t) (zeroCells (lay.size t)) ((lay.shapes t).map Shape.zero) [] := by
    intro m'
    have := repF_zero lay m' (lay.size t) (lay.slots t) (hlay.within t)
    simpa [Lay.shapes, Function.comp_def] using this
  obtain ⟨m1, g1, g2, g3, g4⟩ := store_slot (al := 8) (new := ptrCells (some ⟨m.length, 0⟩))
    (v' := .ptr (.struct ((lay.shapes t).map Shape.zero))) (B' := [m.length])
    (slot_alloc h (.mem (zeroCells (lay.size t)))) (by simp [Shape.size]) ha fun m' hu _ =>
      .msg t m.length (zeroCells (lay.size t)) _ [] (hu.get (alloc_get m _) (by omega) (by simp)) (by simp) (hz m')
  refine ⟨m1, g1, g2, ?_, (alloc_upd m _ _ _).trans g3 (by simp)⟩
  exact ⟨_, _, rfl, g3.get (alloc_get m _) (by omega) (by simp), by simp, hz m1⟩

theorem sim_msg (hlay : lay.OK) {t P zeros rec recF} (hz : zeros t = .struct ((lay.shapes t).map Shape.zero))
    (hc : SimMsg lay t P (rec t) (recF t)) (grow : Nat → Nat → Nat) :
    Sim lay (.msg t) (codecDecode zeros rec (.msg t)) (codecDecodeF grow lay.size recF (.msg t)) := by
  intro b m a v B r h hn hr
  -- both kinds of pointers at once
  have main : ∀ m1 p w B1, Slot lay m1 a (.msg t) (.ptr w) (p :: B1) → (a.blk :: p :: B1).Nodup →
      MsgRep lay m1 t p w B1 → Upd m m1 a.blk (region a.off 8) B → (∀ x ∈ p :: B1, x ∈ B ∨ m.length ≤ x) →
      (do
        let (_, n, err) := decodeVarint b
        match err with
        | some e => return .err (.ptr w) e
        | none =>
          match ← rec t (← goFrom b n) w with
          | .ok v l => return .ok (.ptr v) (n + l)
          | .err v e => return .err (.ptr v) e : Except Fault DRes) = .ok r →
      ∃ m', (do
        let (_, n, err) := decodeVarint b
        match err with
        | some e => return ⟨m1, .error e⟩
        | none =>
          match ← recF t (← goFrom b n) m1 ⟨p, 0⟩ with
          | ⟨m, .ok l⟩ => return ⟨m, .ok (n + l)⟩
          | ⟨m, .error e⟩ => return ⟨m, .error e⟩ : Except Fault Res) = .ok ⟨m', outOf r⟩ ∧
        After lay m m' a (.msg t) (valOf r) B := by
    intro m1 p w B1 hs hn1 hmr hu hsub hr
    rcases hv : decodeVarint b with ⟨x, n, err⟩
    rw [hv] at hr
    simp only at hr ⊢
    cases err with
    | some e =>
      cases hr
      exact ⟨m1, rfl, After.trans hu hsub (After.refl hs hn1)⟩
    | none =>
    simp only [bind, Except.bind] at hr ⊢
    rcases hg : goFrom b n with e | tl <;> rw [hg] at hr
    · cases hr
    simp only at hr ⊢
    rcases hd : rec t tl w with e | q <;> rw [hd] at hr
    · cases hr
    obtain ⟨m2, B2, f1, f2, f3, f4, f5⟩ := hc tl m1 p w B1 q hmr (List.nodup_cons.mp hn1).2 hd
    rw [f1]
    have haf := After.trans hu hsub (after_msg hs hn1 f2 f3 f4 f5)
    cases q with
    | ok v l => cases hr; exact ⟨m2, rfl, haf⟩
    | err v e => cases hr; exact ⟨m2, rfl, haf⟩
  rcases slot_msg h with ⟨rfl, h1, rfl⟩ | ⟨b', w, B', rfl, rfl, h1, h2⟩
  · obtain ⟨m1, g1, g2, g3, g4⟩ := new_msg hlay h
    have hlt := slot_lt h
    simp only [codecDecode, hz, pure, Except.pure, bind, Except.bind] at hr
    simp only [codecDecodeF, h1, alloc, g1, pure, Except.pure, bind, Except.bind]
    exact main m1 m.length _ [] g2 (by simp; omega) g3 g4 (by simp) hr
  · simp only [codecDecode, pure, Except.pure, bind, Except.bind] at hr
    simp only [codecDecodeF, h1, pure, Except.pure, bind, Except.bind]
    exact main m b' w B' h hn h2 (Upd.refl _ _ _ _) (fun x hx => .inl hx)
      hr

end Pb.Flat
