import Verif.Proofs.ConcRel
/-
What is true of a process with calls under way, after any number of steps.
-/
namespace Pb.Flat

/-- Memory as a call sees it that may use the allocations `given`: of the others only text is left. -/
def view (m : Mem) (given : List Nat) : Mem :=
  m.mapIdx fun b o =>
    match o with
    | .ro t => .ro t
    | o => if b ∈ given then o else .ro []

/-- Not text. -/
def Obj.live : Obj → Prop
  | .ro _ => False
  | _ => True

/-- `Alike ms H S m c`: the memory `ms` of a call that runs alone is, up to names, the part of the process' memory `m` that the call
`c` uses. -/
structure Alike (ms : Mem) (H : Ren) (S : Scr) (m : Mem) (c : Task) : Prop where
  inj : ∀ b1 b2 b', H b1 = some b' → H b2 = some b' → b1 = b2
  dom : ∀ b b', H b = some b' → b < ms.length ∧ b' < m.length
  obj : ∀ b b' o, H b = some b' → ms[b]? = some o → o ≠ .ro [] → ∃ o', m[b']? = some o' ∧ ObjRel H o o'
  live : ∀ b b' o, H b = some b' → ms[b]? = some o → o.live → b' ∈ c.own ∨ b' ∈ c.rd
  scr : ∀ s s' n, (s, s', n) ∈ S → H s = none ∧ s' ∈ c.own ∧
    ∃ cs cs', ms[s]? = some (.mem cs) ∧ m[s']? = some (.mem cs') ∧ CellsRel H cs cs' ∧ cs.length = n
  sep : ∀ b b' o, H b = some b' → ms[b]? = some o → o.live → ∀ s s' n, (s, s', n) ∈ S → b' ≠ s'
  fst : (S.map (·.1)).Nodup
  snd : (S.map (·.2.1)).Nodup

/-- The state of a call: what is left to do leads to what the call gives when it runs alone. -/
structure TaskOK (grow : Nat → Nat → Nat) (lay : Lay) (env : Env) (m : Mem) (c : Task) : Prop where
  cl : Closed c.start
  only : c.req.writer = true → c.rd = []
  sim : ∃ ms H S p y m', Alike ms H S m c ∧ ActRel c.req.writer (fun _ _ x x' => x = x') H S p c.act ∧ exec p ms = .ok (y, m') ∧
    callF grow lay env (view c.start c.given) c.req = .ok (y, m') ∧ (∀ b, b < c.start.length → H b = some b)
  bound : ∀ b, b ∈ c.own ∨ b ∈ c.rd → b < m.length

theorem nodup_erase {α β : Type} [BEq α] [LawfulBEq α] {f : α → β} {xs : List α} {x y : α} (h : (xs.map f).Nodup) (hx : x ∈ xs)
    (hy : y ∈ xs.erase x) : f y ≠ f x := by
  have h1 := (List.perm_cons_erase hx).map f
  have h2 := h1.nodup_iff.mp h
  rw [List.map_cons, List.nodup_cons] at h2
  intro he
  exact h2.1 (he ▸ List.mem_map_of_mem hy)

section
variable {grow : Nat → Nat → Nat} {lay : Lay} {env : Env} {m m1 : Mem} {c : Task} {ms : Mem} {H : Ren} {S : Scr}

/-- Steps that leave alone what the call uses. -/
theorem Alike.frame (h : Alike ms H S m c) (hlen : m.length ≤ m1.length) (hown : ∀ b, b ∈ c.own ∨ b ∈ c.rd → m1[b]? = m[b]?)
    (htxt : ∀ (b : Nat) t, m[b]? = some (.ro t) → m1[b]? = some (.ro t)) : Alike ms H S m1 c where
  inj := h.inj
  dom b b' hb := ⟨(h.dom b b' hb).1, Nat.lt_of_lt_of_le (h.dom b b' hb).2 hlen⟩
  obj b b' o hb ho hne := by
    obtain ⟨o', h1, h2⟩ := h.obj b b' o hb ho hne
    cases o with
    | ro t =>
      cases o' <;> simp only [ObjRel] at h2
      exact ⟨_, htxt _ _ h1, h2⟩
    | mem cs => exact ⟨o', by rw [hown _ (h.live b b' _ hb ho trivial)]; exact h1, h2⟩
    | map es => exact ⟨o', by rw [hown _ (h.live b b' _ hb ho trivial)]; exact h1, h2⟩
  live := h.live
  scr s s' n hs := by
    obtain ⟨h1, h2, cs, cs', h3, h4, h5⟩ := h.scr s s' n hs
    exact ⟨h1, h2, cs, cs', h3, by rw [hown _ (.inl h2)]; exact h4, h5⟩
  sep := h.sep
  fst := h.fst
  snd := h.snd

theorem TaskOK.frame (h : TaskOK grow lay env m c) (hlen : m.length ≤ m1.length) (hown : ∀ b, b ∈ c.own ∨ b ∈ c.rd → m1[b]? = m[b]?)
    (htxt : ∀ (b : Nat) t, m[b]? = some (.ro t) → m1[b]? = some (.ro t)) : TaskOK grow lay env m1 c := by
  obtain ⟨ms, H, S, p, y, m', h1, h2⟩ := h.sim
  exact ⟨h.cl, h.only, ⟨ms, H, S, p, y, m', h1.frame hlen hown htxt, h2⟩, fun b hb => Nat.lt_of_lt_of_le (h.bound b hb) hlen⟩

/-! ### Accesses -/

theorem Alike.at_mem (h : Alike ms H S m c) {a a' : Addr} (ha : AddrRel H S a a') {cs : List Cell} (hm : ms[a.blk]? = some (.mem cs)) :
    ∃ cs', m[a'.blk]? = some (.mem cs') ∧ CellsRel H cs cs' ∧ (a'.blk ∈ c.own ∨ a'.blk ∈ c.rd) := by
  rcases ha.1 with hb | ⟨n, hs⟩
  · obtain ⟨o', h1, h2⟩ := h.obj _ _ _ hb hm (by simp)
    cases o' <;> simp only [ObjRel] at h2
    exact ⟨_, h1, h2, h.live _ _ _ hb hm trivial⟩
  · obtain ⟨_, h2, cs0, cs', h3, h4, h5, _⟩ := h.scr _ _ _ hs
    rw [hm] at h3; cases h3
    exact ⟨cs', h4, h5, .inl h2⟩

theorem Alike.load (h : Alike ms H S m c) {a a' : Addr} (ha : AddrRel H S a a') {n al : Nat} {cs : List Cell}
    (hl : Flat.load ms a n al = .ok cs) :
    ∃ cs', Flat.load m a' n al = .ok cs' ∧ CellsRel H cs cs' ∧ (a'.blk ∈ c.own ∨ a'.blk ∈ c.rd) := by
  unfold Flat.load at hl ⊢
  rw [← ha.2]
  split at hl
  · cases hl
  rename_i hal
  rw [if_neg hal]
  split at hl
  · rename_i x hx
    obtain ⟨x', h1, h2, h3⟩ := h.at_mem ha hx
    rw [h1]
    dsimp only
    split at hl
    · rename_i hn
      cases hl
      rw [if_pos (by rw [← h2.length]; exact hn)]
      exact ⟨_, rfl, (h2.drop _).take _, h3⟩
    · cases hl
  · cases hl

theorem Alike.data (h : Alike ms H S m c) {a a' : Addr} (ha : HAddr H a a') {n : Nat} (hn : n ≠ 0) {bs : Bytes}
    (hl : loadData ms a n = .ok bs) :
    loadData m a' n = .ok bs ∧ ((a'.blk ∈ c.own ∨ a'.blk ∈ c.rd) ∨ ∃ t, m[a'.blk]? = some (.ro t)) := by
  unfold loadData at hl ⊢
  split at hl
  · rename_i t ht
    split at hl
    · rename_i hle
      have : Obj.ro t ≠ .ro [] := by
        intro he; cases he
        simp at hle; omega
      obtain ⟨o', h1, h2⟩ := h.obj _ _ _ ha.1 ht this
      cases o' <;> simp only [ObjRel] at h2
      subst h2
      rw [h1]
      dsimp only
      rw [← ha.2, if_pos hle]
      exact ⟨hl, .inr ⟨_, rfl⟩⟩
    · cases hl
  · rename_i x hx
    simp only [bind, Except.bind] at hl
    rcases hr : Flat.load ms a n 1 with e | cs <;> rw [hr] at hl
    · cases hl
    obtain ⟨cs', h1, h2, h3⟩ := h.load (ha.rel (S := S)) hr
    obtain ⟨x', h4, _⟩ := h.at_mem (ha.rel (S := S)) hx
    rw [h4]
    simp only [h1, bind, Except.bind]
    simp only at hl
    rcases hb : asBytes cs with _ | y <;> rw [hb] at hl
    · cases hl
    rw [asBytes_rel h2 hb]
    exact ⟨hl, .inl h3⟩
  · cases hl

theorem Alike.entries (h : Alike ms H S m c) {a a' : Addr} (ha : HAddr H a a') {es : List (Nat × Nat)}
    (hl : mapEntries ms (some a) = .ok es) :
    ∃ es', mapEntries m (some a') = .ok es' ∧ All2 (EntryRel H) es es' ∧ (a'.blk ∈ c.own ∨ a'.blk ∈ c.rd) := by
  simp only [mapEntries] at hl ⊢
  split at hl
  · rename_i x hx
    split at hl
    · rename_i h0
      cases hl
      obtain ⟨o', h1, h2⟩ := h.obj _ _ _ ha.1 hx (by simp)
      cases o' <;> simp only [ObjRel] at h2
      rw [h1]
      dsimp only
      rw [← ha.2, if_pos h0]
      exact ⟨_, rfl, h2, h.live _ _ _ ha.1 hx trivial⟩
    · cases hl
  · cases hl

theorem getElem?_set_or {α : Type} (xs : List α) (i j : Nat) (x : α) :
    (xs.set i x)[j]? = xs[j]? ∨ (i = j ∧ (xs.set i x)[j]? = some x) := by
  by_cases h : i = j
  · subst h
    by_cases hi : i < xs.length
    · exact .inr ⟨rfl, by simp [hi]⟩
    · left; rw [List.getElem?_eq_none (by simp; omega), List.getElem?_eq_none (by omega)]
  · left; exact List.getElem?_set_ne h

/-- An allocation both sides write to. -/
theorem Alike.set (h : Alike ms H S m c) {b b' : Nat} {o o' x x' : Obj} (hb : H b = some b' ∨ ∃ n, (b, b', n) ∈ S)
    (hm : ms[b]? = some o) (hl : o.live) (hm' : m[b']? = some o')
    (hx : ObjRel H x x') (hk : ∀ n, (b, b', n) ∈ S → ∃ cs cs', x = .mem cs ∧ x' = .mem cs' ∧ cs.length = n) :
    Alike (ms.set b x) H S (m.set b' x') c := by
  have hbm : b < ms.length := (List.getElem?_eq_some_iff.mp hm).1
  have hbm' : b' < m.length := (List.getElem?_eq_some_iff.mp hm').1
  have get1 : (ms.set b x)[b]? = some x := by simp [hbm]
  have get2 : (m.set b' x')[b']? = some x' := by simp [hbm']
  refine ⟨h.inj, fun d d' hd => by simpa using h.dom d d' hd, ?_, ?_, ?_, ?_, h.fst, h.snd⟩
  · intro d d' y hd hy hne
    by_cases he : b = d
    · subst he
      rw [get1] at hy; cases hy
      rcases hb with hb | ⟨n, hs⟩
      · rw [hd] at hb; cases hb
        exact ⟨x', get2, hx⟩
      · rw [(h.scr _ _ _ hs).1] at hd; cases hd
    · rw [List.getElem?_set_ne he] at hy
      obtain ⟨y', h1, h2⟩ := h.obj d d' y hd hy hne
      by_cases he' : b' = d'
      · subst he'
        rcases hb with hb | ⟨n, hs⟩
        · exact absurd (h.inj _ _ _ hb hd) he
        · obtain ⟨_, _, cs, cs', _, h4, _⟩ := h.scr _ _ _ hs
          rw [h1] at h4; cases h4
          cases y <;> simp only [ObjRel] at h2
          exact absurd rfl (h.sep _ _ _ hd hy trivial _ _ _ hs)
      · exact ⟨y', by rw [List.getElem?_set_ne he']; exact h1, h2⟩
  · intro d d' y hd hy hlv
    by_cases he : b = d
    · subst he; exact h.live _ _ _ hd hm hl
    · rw [List.getElem?_set_ne he] at hy; exact h.live _ _ _ hd hy hlv
  · intro s s' n hs
    obtain ⟨h1, h2, cs, cs', h3, h4, h5, h6⟩ := h.scr s s' n hs
    refine ⟨h1, h2, ?_⟩
    by_cases he : b = s
    · subst he
      rcases hb with hb | ⟨n', hs'⟩
      · rw [h1] at hb; cases hb
      · have : (b, b', n') = (b, s', n) := nodup_inj h.fst hs' hs rfl
        cases this
        obtain ⟨ds, ds', e1, e2, e3⟩ := hk _ hs
        subst e1 e2
        exact ⟨ds, ds', get1, get2, hx, e3⟩
    · have he' : b' ≠ s' := by
        rintro rfl
        rcases hb with hb | ⟨n', hs'⟩
        · exact h.sep _ _ _ hb hm hl _ _ _ hs rfl
        · exact he (congrArg (·.1) (nodup_inj h.snd hs' hs rfl))
      exact ⟨cs, cs', by rw [List.getElem?_set_ne he]; exact h3, by rw [List.getElem?_set_ne he']; exact h4, h5, h6⟩
  · intro d d' y hd hy hlv
    by_cases he : b = d
    · subst he; exact h.sep _ _ _ hd hm hl
    · rw [List.getElem?_set_ne he] at hy; exact h.sep _ _ _ hd hy hlv
where
  nodup_inj {α β : Type} {f : α → β} {xs : List α} {x y : α} (h : (xs.map f).Nodup) (hx : x ∈ xs) (hy : y ∈ xs) (he : f x = f y) :
      x = y := by
    induction xs with
    | nil => cases hx
    | cons z zs ih =>
      rw [List.map_cons, List.nodup_cons] at h
      rcases List.mem_cons.mp hx with e1 | h1 <;> rcases List.mem_cons.mp hy with e2 | h2
      · rw [e1, e2]
      · exact absurd (e1 ▸ he ▸ List.mem_map_of_mem h2) h.1
      · exact absurd (e2 ▸ he ▸ List.mem_map_of_mem h1) h.1
      · exact ih h.2 h1 h2

theorem length_splice {cs new : List Cell} {o : Nat} (h : o + new.length ≤ cs.length) : (splice cs o new).length = cs.length := by
  simp only [splice, List.length_append, List.length_take, List.length_drop]
  omega

theorem Alike.store (h : Alike ms H S m c) {a a' : Addr} (ha : AddrRel H S a a') {cs cs' : List Cell} (hc : CellsRel H cs cs') {al : Nat}
    {m2 : Mem} (hl : Flat.store ms a cs al = .ok m2) :
    ∃ x', Flat.store m a' cs' al = .ok (m.set a'.blk x') ∧ Alike m2 H S (m.set a'.blk x') c ∧ (a'.blk ∈ c.own ∨ a'.blk ∈ c.rd) ∧
      (∃ o', m[a'.blk]? = some o' ∧ o'.live) ∧ ∃ x, ObjRel H x x' := by
  unfold Flat.store at hl ⊢
  rw [← ha.2]
  split at hl
  · cases hl
  rename_i hal
  rw [if_neg hal]
  split at hl
  · rename_i x hx
    obtain ⟨x', h1, h2, h3⟩ := h.at_mem ha hx
    rw [h1]
    dsimp only
    split at hl
    · rename_i hn
      cases hl
      rw [if_pos (by rw [← h2.length, ← hc.length]; exact hn)]
      refine ⟨_, rfl, ?_, h3, ⟨_, rfl, trivial⟩, ⟨_, obj_mem (cells_splice h2 hc _)⟩⟩
      refine h.set ha.1 hx trivial h1 (obj_mem (cells_splice h2 hc _)) ?_
      intro n hs
      obtain ⟨_, _, ds, _, h5, _, _, h6⟩ := h.scr _ _ _ hs
      rw [hx] at h5; cases h5
      exact ⟨_, _, rfl, rfl, by rw [length_splice hn]; exact h6⟩
    · cases hl
  · cases hl

theorem All2.concat {α β : Type} {R : α → β → Prop} {xs : List α} {ys : List β} {x : α} {y : β} (h : All2 R xs ys) (hr : R x y) :
    All2 R (xs ++ [x]) (ys ++ [y]) := h.append (.cons _ _ _ _ hr .nil)

theorem Alike.insert (h : Alike ms H S m c) {b b' : Nat} (hb : H b = some b') {e e' : Nat × Nat} (he : EntryRel H e e')
    {m2 : Mem} (hl : insertEntry ms b e = .ok m2) :
    ∃ x', insertEntry m b' e' = .ok (m.set b' x') ∧ Alike m2 H S (m.set b' x') c ∧ (b' ∈ c.own ∨ b' ∈ c.rd) ∧
      (∃ o', m[b']? = some o' ∧ o'.live) ∧ ∃ x, ObjRel H x x' := by
  unfold insertEntry at hl ⊢
  split at hl
  · rename_i x hx
    cases hl
    obtain ⟨o', h1, h2⟩ := h.obj _ _ _ hb hx (by simp)
    cases o' <;> simp only [ObjRel] at h2
    rename_i es'
    rw [h1]
    have hr : ObjRel H (.map (x ++ [e])) (.map (es' ++ [e'])) := h2.concat he
    refine ⟨_, rfl, ?_, h.live _ _ _ hb hx trivial, ⟨_, rfl, trivial⟩, ⟨_, hr⟩⟩
    refine h.set (.inl hb) hx trivial h1 hr ?_
    intro n hs
    rw [(h.scr _ _ _ hs).1] at hb; cases hb
  · cases hl

/-- What the renaming knows is in memory. -/
theorem Alike.closed_obj (h : Alike ms H S m c) {o o' : Obj} (hr : ObjRel H o o') : o'.closed m.length := by
  cases o <;> cases o' <;> simp only [ObjRel] at hr
  · intro x hx a k hk
    subst hk
    obtain ⟨y, _, hy⟩ := hr.mem_right hx
    cases y <;> simp only [CellRel] at hy
    exact (h.dom _ _ hy.1.1).2
  · trivial
  · intro e he
    obtain ⟨y, _, hy⟩ := hr.mem_right he
    exact ⟨(h.dom _ _ hy.1).2, (h.dom _ _ hy.2).2⟩

theorem Alike.alloc (h : Alike ms H S m c) (hbound : ∀ b, b ∈ c.own ∨ b ∈ c.rd → b < m.length) {o o' : Obj} (hr : ObjRel H o o') :
    Alike (ms ++ [o]) (H.add ms.length m.length) S (m ++ [o']) { c with own := m.length :: c.own } := by
  have hnone : H ms.length = none := by
    cases hh : H ms.length with
    | none => rfl
    | some x => exact absurd (h.dom _ _ hh).1 (by omega)
  have hext : More H S (H.add ms.length m.length) S := .add hnone
  have cases' : ∀ b b', H.add ms.length m.length b = some b' → (b = ms.length ∧ b' = m.length) ∨ (b ≠ ms.length ∧ H b = some b') := by
    intro b b' hb
    simp only [Ren.add] at hb
    split at hb
    · cases hb; exact .inl ⟨by assumption, rfl⟩
    · exact .inr ⟨by assumption, hb⟩
  have old : ∀ b b' (y : Obj), H b = some b' → (ms ++ [o])[b]? = some y → ms[b]? = some y := by
    intro b b' y hb hy
    rwa [List.getElem?_append_left (h.dom _ _ hb).1] at hy
  refine ⟨?_, ?_, ?_, ?_, ?_, ?_, h.fst, h.snd⟩
  · intro b1 b2 b' h1 h2
    rcases cases' _ _ h1 with ⟨e1, e2⟩ | ⟨e1, e2⟩ <;> rcases cases' _ _ h2 with ⟨e3, e4⟩ | ⟨e3, e4⟩
    · rw [e1, e3]
    · have := (h.dom _ _ e4).2; omega
    · have := (h.dom _ _ e2).2; omega
    · exact h.inj _ _ _ e2 e4
  · intro b b' hb
    simp only [List.length_append, List.length_singleton]
    rcases cases' _ _ hb with ⟨rfl, rfl⟩ | ⟨_, e2⟩
    · omega
    · have := h.dom _ _ e2; omega
  · intro b b' y hb hy hne
    rcases cases' _ _ hb with ⟨rfl, rfl⟩ | ⟨_, e2⟩
    · simp at hy; subst hy
      exact ⟨o', by simp, hr.ext hext⟩
    · obtain ⟨y', h1, h2⟩ := h.obj b b' y e2 (old _ _ _ e2 hy) hne
      exact ⟨y', by rw [List.getElem?_append_left (h.dom _ _ e2).2]; exact h1, h2.ext hext⟩
  · intro b b' y hb hy hlv
    rcases cases' _ _ hb with ⟨rfl, rfl⟩ | ⟨_, e2⟩
    · left; simp
    · rcases h.live _ _ _ e2 (old _ _ _ e2 hy) hlv with h1 | h1
      · left; simp [h1]
      · exact .inr h1
  · intro s s' n hs
    obtain ⟨h1, h2, cs, cs', h3, h4, h5, h6⟩ := h.scr s s' n hs
    have l1 : s < ms.length := (List.getElem?_eq_some_iff.mp h3).1
    have l2 : s' < m.length := (List.getElem?_eq_some_iff.mp h4).1
    refine ⟨?_, by simp [h2], cs, cs', ?_, ?_, h5.mono fun _ _ hc => hc.ext hext, h6⟩
    · simp only [Ren.add]; rw [if_neg (by omega)]; exact h1
    · rw [List.getElem?_append_left l1]; exact h3
    · rw [List.getElem?_append_left l2]; exact h4
  · intro b b' y hb hy hlv s s' n hs
    rcases cases' _ _ hb with ⟨rfl, rfl⟩ | ⟨_, e2⟩
    · have := hbound s' (.inl (h.scr _ _ _ hs).2.1)
      omega
    · exact h.sep _ _ _ e2 (old _ _ _ e2 hy) hlv _ _ _ hs

/-- A scratch struct, which neither the call's memory nor its other scratch structs overlap. -/
theorem Alike.get (h : Alike ms H S m c) {s' n : Nat} (hs' : m[s']? = some (.mem (zeroCells n))) (hfresh : ¬ (s' ∈ c.own ∨ s' ∈ c.rd)) :
    Alike (ms ++ [.mem (zeroCells n)]) H ((ms.length, s', n) :: S) m { c with own := s' :: c.own } := by
  have hnone : H ms.length = none := by
    cases hh : H ms.length with
    | none => rfl
    | some x => exact absurd (h.dom _ _ hh).1 (by omega)
  have old : ∀ b b' (y : Obj), H b = some b' → (ms ++ [.mem (zeroCells n)])[b]? = some y → ms[b]? = some y := by
    intro b b' y hb hy
    rwa [List.getElem?_append_left (h.dom _ _ hb).1] at hy
  refine ⟨h.inj, ?_, ?_, ?_, ?_, ?_, ?_, ?_⟩
  · intro b b' hb
    have := h.dom b b' hb
    simp only [List.length_append, List.length_singleton]
    omega
  · intro b b' y hb hy hne
    exact h.obj b b' y hb (old _ _ _ hb hy) hne
  · intro b b' y hb hy hlv
    rcases h.live _ _ _ hb (old _ _ _ hb hy) hlv with h1 | h1
    · left; simp [h1]
    · exact .inr h1
  · intro s s1 n1 hs
    rcases List.mem_cons.mp hs with he | hs
    · cases he
      exact ⟨hnone, by simp, zeroCells n, zeroCells n, by simp, hs', cells_zero n, by simp [zeroCells]⟩
    · obtain ⟨h1, h2, cs, cs', h3, h4, h5, h6⟩ := h.scr s s1 n1 hs
      have l1 : s < ms.length := (List.getElem?_eq_some_iff.mp h3).1
      exact ⟨h1, by simp [h2], cs, cs', by rw [List.getElem?_append_left l1]; exact h3, h4, h5, h6⟩
  · intro b b' y hb hy hlv s s1 n1 hs
    rcases List.mem_cons.mp hs with he | hs
    · cases he
      rintro rfl
      exact hfresh (h.live _ _ _ hb (old _ _ _ hb hy) hlv)
    · exact h.sep _ _ _ hb (old _ _ _ hb hy) hlv _ _ _ hs
  · rw [List.map_cons, List.nodup_cons]
    refine ⟨?_, h.fst⟩
    intro hmem
    rw [List.mem_map] at hmem
    obtain ⟨⟨s, s1, n1⟩, hx, he⟩ := hmem
    obtain ⟨_, _, cs, cs', h3, _⟩ := h.scr _ _ _ hx
    have l1 : s < ms.length := (List.getElem?_eq_some_iff.mp h3).1
    simp only at he; omega
  · rw [List.map_cons, List.nodup_cons]
    refine ⟨?_, h.snd⟩
    intro hmem
    rw [List.mem_map] at hmem
    obtain ⟨⟨s, s1, n1⟩, hx, he⟩ := hmem
    simp only at he
    subst he
    exact hfresh (.inl (h.scr _ _ _ hx).2.1)

theorem Alike.put (h : Alike ms H S m c) {s s' n : Nat} (hs : (s, s', n) ∈ S) :
    Alike ms H (S.erase (s, s', n)) m { c with own := c.own.filter (· ≠ s') } := by
  have sub : ∀ x, x ∈ S.erase (s, s', n) → x ∈ S := fun x hx => List.mem_of_mem_erase hx
  refine ⟨h.inj, h.dom, h.obj, ?_, ?_, fun b b' o hb ho hlv t t' k ht => h.sep b b' o hb ho hlv t t' k (sub _ ht), ?_, ?_⟩
  · intro b b' o hb ho hlv
    rcases h.live b b' o hb ho hlv with h1 | h1
    · left; simp [h1, h.sep b b' o hb ho hlv _ _ _ hs]
    · exact .inr h1
  · intro t t' k ht
    obtain ⟨h1, h2, h3⟩ := h.scr t t' k (sub _ ht)
    refine ⟨h1, ?_, h3⟩
    have : t' ≠ s' := nodup_erase (f := fun x : Nat × Nat × Nat => x.2.1) h.snd hs ht
    simp [h2, this]
  · exact h.fst.sublist ((List.erase_sublist).map _)
  · exact h.snd.sublist ((List.erase_sublist).map _)

end

/-- What is true of the process after any number of steps. -/
structure Inv (grow : Nat → Nat → Nat) (lay : Lay) (env : Env) (s : Proc) : Prop where
  closed : Closed s.mem
  tasks : ∀ (i : Nat) c, s.tasks[i]? = some c → TaskOK grow lay env s.mem c
  apart : ∀ (i j : Nat) c d, i ≠ j → s.tasks[i]? = some c → s.tasks[j]? = some d → ∀ b ∈ c.own, b ∉ d.own ∧ b ∉ d.rd
  pool : ∀ e ∈ s.pool, s.mem[e.2]? = some (.mem (zeroCells e.1)) ∧
    ∀ (i : Nat) c, s.tasks[i]? = some c → e.2 ∉ c.own ∧ e.2 ∉ c.rd
  nodup : (s.pool.map (·.2)).Nodup

section
variable {grow : Nat → Nat → Nat} {lay : Lay} {env : Env} {s : Proc} {i : Nat} {c c' : Task}

/-- A step of call `i`. -/
theorem Inv.next (h : Inv grow lay env s) (hi : s.tasks[i]? = some c) {m' : Mem} {pool' : List (Nat × Nat)}
    (hclosed : Closed m') (htask : TaskOK grow lay env m' c') (hrd : c'.rd = c.rd)
    (hown : ∀ b ∈ c'.own, b ∈ c.own ∨ ∀ (j : Nat) d, s.tasks[j]? = some d → b ∉ d.own ∧ b ∉ d.rd)
    (hlen : s.mem.length ≤ m'.length) (hsame : ∀ b, b < s.mem.length → b ∉ c.own → m'[b]? = s.mem[b]?)
    (htxt : ∀ (b : Nat) t, s.mem[b]? = some (.ro t) → m'[b]? = some (.ro t))
    (hpool : ∀ e ∈ pool', e ∈ s.pool ∧ e.2 ∉ c'.own ∨ (m'[e.2]? = some (.mem (zeroCells e.1)) ∧ e.2 ∈ c.own ∧ e.2 ∉ c'.own ∧
      e.2 ∉ c'.rd))
    (hnd : (pool'.map (·.2)).Nodup) : Inv grow lay env { mem := m', pool := pool', tasks := s.tasks.set i c' } where
  closed := hclosed
  tasks j d hj := by
    rcases getElem?_set_or s.tasks i j c' with he | ⟨_, he⟩ <;> rw [he] at hj
    · by_cases hij : i = j
      · subst hij
        have hl : i < s.tasks.length := (List.getElem?_eq_some_iff.mp hi).1
        simp only [hl, List.getElem?_set_self] at he
        rw [← he] at hj; cases hj; exact htask
      · refine (h.tasks j d hj).frame hlen ?_ htxt
        intro b hb
        refine hsame b ((h.tasks j d hj).bound b hb) ?_
        intro hbc
        have := h.apart i j c d hij hi hj b hbc
        rcases hb with hb | hb
        · exact this.1 hb
        · exact this.2 hb
    · cases hj; exact htask
  apart j k d e hjk hj hk b hb := by
    have hl : i < s.tasks.length := (List.getElem?_eq_some_iff.mp hi).1
    by_cases hij : i = j
    · subst hij
      simp only [List.getElem?_set_self hl] at hj
      cases hj
      simp only [List.getElem?_set_ne hjk] at hk
      rcases hown b hb with h1 | h1
      · exact h.apart i k c e hjk hi hk b h1
      · exact h1 k e hk
    · simp only [List.getElem?_set_ne hij] at hj
      by_cases hik : i = k
      · subst hik
        simp only [List.getElem?_set_self hl] at hk
        cases hk
        have := h.apart j i d c hjk hj hi b hb
        refine ⟨fun hbo => ?_, by rw [hrd]; exact this.2⟩
        rcases hown b hbo with h1 | h1
        · exact this.1 h1
        · exact (h1 j d hj).1 hb
      · simp only [List.getElem?_set_ne hik] at hk
        exact h.apart j k d e hjk hj hk b hb
  pool e he := by
    have hl : i < s.tasks.length := (List.getElem?_eq_some_iff.mp hi).1
    rcases hpool e he with ⟨hp, hn⟩ | ⟨h1, h2, h3, h4⟩
    · obtain ⟨g1, g2⟩ := h.pool e hp
      have hlt : e.2 < s.mem.length := (List.getElem?_eq_some_iff.mp g1).1
      refine ⟨by rw [hsame _ hlt (g2 i c hi).1]; exact g1, fun j d hj => ?_⟩
      by_cases hij : i = j
      · subst hij
        simp only [List.getElem?_set_self hl] at hj
        cases hj
        exact ⟨hn, by rw [hrd]; exact (g2 i c hi).2⟩
      · simp only [List.getElem?_set_ne hij] at hj
        exact g2 j d hj
    · refine ⟨h1, fun j d hj => ?_⟩
      by_cases hij : i = j
      · subst hij
        simp only [List.getElem?_set_self hl] at hj
        cases hj
        exact ⟨h3, h4⟩
      · simp only [List.getElem?_set_ne hij] at hj
        exact h.apart i j c d hij hi hj _ h2
  nodup := hnd

theorem Alike.act {ms H S m} (h : Alike ms H S m c) (p : Act Outcome) : Alike ms H S m { c with act := p } :=
  ⟨h.inj, h.dom, h.obj, h.live, h.scr, h.sep, h.fst, h.snd⟩

/-- A step that changes neither memory nor pool. -/
theorem Inv.quiet (h : Inv grow lay env s) (hi : s.tasks[i]? = some c) {p : Act Outcome}
    (hp : TaskOK grow lay env s.mem { c with act := p }) : Inv grow lay env (s.next i c p) :=
  h.next hi h.closed hp rfl (fun _ hb => .inl hb) (Nat.le_refl _) (fun _ _ _ => rfl) (fun _ _ h => h)
    (fun e he => .inl ⟨he, ((h.pool e he).2 i c hi).1⟩) h.nodup

theorem inv_load (h : Inv grow lay env s) (hi : s.tasks[i]? = some c) {a n al k} (hact : c.act = .load a n al k) :
    (∃ cs, Flat.load s.mem a n al = .ok cs) ∧ (a.blk ∈ c.own ∨ a.blk ∈ c.rd) ∧
      Inv grow lay env (s.acc i c (Flat.load s.mem a n al) k) := by
  have hc := h.tasks i c hi
  obtain ⟨ms, H, S, p, y, m', hsim, hrel, hex, hcall, hid⟩ := hc.sim
  rw [hact] at hrel
  cases hrel with
  | fail => cases hex
  | load _ _ a0 _ _ _ k0 _ ha hk =>
    simp only [exec, bind, Except.bind] at hex
    rcases hl : Flat.load ms a0 n al with e | cs <;> rw [hl] at hex
    · cases hex
    obtain ⟨cs', h1, h2, h3⟩ := hsim.load ha hl
    refine ⟨⟨cs', h1⟩, h3, ?_⟩
    rw [h1]
    exact h.quiet hi ⟨hc.cl, hc.only, ⟨ms, H, S, _, y, m', hsim.act _, hk _ _ h2, hex, hcall, hid⟩, hc.bound⟩

theorem inv_data (h : Inv grow lay env s) (hi : s.tasks[i]? = some c) {a n k} (hact : c.act = .data a n k) :
    (∃ bs, loadData s.mem a n = .ok bs) ∧ ((a.blk ∈ c.own ∨ a.blk ∈ c.rd) ∨ ∃ t, s.mem[a.blk]? = some (.ro t)) ∧
      Inv grow lay env (s.acc i c (loadData s.mem a n) k) := by
  have hc := h.tasks i c hi
  obtain ⟨ms, H, S, p, y, m', hsim, hrel, hex, hcall, hid⟩ := hc.sim
  rw [hact] at hrel
  cases hrel with
  | fail => cases hex
  | data _ _ a0 _ _ k0 _ hn ha hk =>
    simp only [exec, bind, Except.bind] at hex
    rcases hl : loadData ms a0 n with e | cs <;> rw [hl] at hex
    · cases hex
    obtain ⟨h1, h2⟩ := hsim.data ha hn hl
    refine ⟨⟨cs, h1⟩, h2, ?_⟩
    rw [h1]
    exact h.quiet hi ⟨hc.cl, hc.only, ⟨ms, H, S, _, y, m', hsim.act _, hk _, hex, hcall, hid⟩, hc.bound⟩

theorem inv_entries (h : Inv grow lay env s) (hi : s.tasks[i]? = some c) {a k} (hact : c.act = .entries a k) :
    (∃ es, mapEntries s.mem (some a) = .ok es) ∧ (a.blk ∈ c.own ∨ a.blk ∈ c.rd) ∧
      Inv grow lay env (s.acc i c (mapEntries s.mem (some a)) k) := by
  have hc := h.tasks i c hi
  obtain ⟨ms, H, S, p, y, m', hsim, hrel, hex, hcall, hid⟩ := hc.sim
  rw [hact] at hrel
  cases hrel with
  | fail => cases hex
  | entries _ _ a0 _ k0 _ ha hk =>
    simp only [exec, bind, Except.bind] at hex
    rcases hl : mapEntries ms (some a0) with e | cs <;> rw [hl] at hex
    · cases hex
    obtain ⟨cs', h1, h2, h3⟩ := hsim.entries ha hl
    refine ⟨⟨cs', h1⟩, h3, ?_⟩
    rw [h1]
    exact h.quiet hi ⟨hc.cl, hc.only, ⟨ms, H, S, _, y, m', hsim.act _, hk _ _ h2, hex, hcall, hid⟩, hc.bound⟩

theorem closed_set {m : Mem} (h : Closed m) {b : Nat} {x : Obj} (hx : x.closed m.length) : Closed (m.set b x) := by
  intro o ho
  rw [List.length_set]
  rcases List.mem_or_eq_of_mem_set ho with h1 | rfl
  · exact h o h1
  · exact hx

theorem Obj.closed_mono {o : Obj} {n n' : Nat} (h : o.closed n) (hn : n ≤ n') : o.closed n' := by
  cases o with
  | mem cs => exact fun c hc a k hk => Nat.lt_of_lt_of_le (h c hc a k hk) hn
  | ro => trivial
  | map es => exact fun e he => ⟨Nat.lt_of_lt_of_le (h e he).1 hn, Nat.lt_of_lt_of_le (h e he).2 hn⟩

theorem closed_append {m : Mem} (h : Closed m) {o : Obj} (ho : o.closed m.length) : Closed (m ++ [o]) := by
  intro x hx
  have hl : m.length ≤ (m ++ [o]).length := by simp
  rcases List.mem_append.mp hx with h1 | h1
  · exact Obj.closed_mono (h x h1) hl
  · rw [List.mem_singleton] at h1; subst h1; exact Obj.closed_mono ho hl

theorem set_text {m : Mem} {b' : Nat} {x' : Obj} (hlv : ∃ o', m[b']? = some o' ∧ o'.live) (b : Nat) (t : Bytes)
    (h : m[b]? = some (.ro t)) : (m.set b' x')[b]? = some (.ro t) := by
  obtain ⟨o', h1, h2⟩ := hlv
  by_cases he : b' = b
  · subst he; rw [h] at h1; cases h1; cases h2
  · rw [List.getElem?_set_ne he]; exact h

theorem inv_store (h : Inv grow lay env s) (hi : s.tasks[i]? = some c) {a cs al k} (hact : c.act = .store a cs al k) :
    ∃ m, Flat.store s.mem a cs al = .ok m ∧ a.blk ∈ c.own ∧ Inv grow lay env { s.next i c k with mem := m } := by
  have hc := h.tasks i c hi
  obtain ⟨ms, H, S, p, y, m', hsim, hrel, hex, hcall, hid⟩ := hc.sim
  rw [hact] at hrel
  cases hrel with
  | fail => cases hex
  | store _ _ a0 _ cs0 _ _ k0 _ hw ha hcs hk =>
    simp only [exec, bind, Except.bind] at hex
    rcases hl : Flat.store ms a0 cs0 al with e | m2 <;> rw [hl] at hex
    · cases hex
    obtain ⟨x', h1, h2, h3, h4, x, h5⟩ := hsim.store ha hcs hl
    rw [hc.only hw] at h3
    simp only [List.not_mem_nil, or_false] at h3
    refine ⟨_, h1, h3, ?_⟩
    refine h.next hi (closed_set h.closed (hsim.closed_obj h5))
      ⟨hc.cl, hc.only, ⟨m2, H, S, _, y, m', h2.act _, hk, hex, hcall, hid⟩, by simpa using hc.bound⟩ rfl
      (fun _ hb => .inl hb) (by simp) ?_ (set_text h4) (fun e he => .inl ⟨he, ((h.pool e he).2 i c hi).1⟩) h.nodup
    intro b _ hb
    rw [List.getElem?_set_ne]
    rintro rfl
    exact hb h3

theorem inv_insert (h : Inv grow lay env s) (hi : s.tasks[i]? = some c) {b e k} (hact : c.act = .insert b e k) :
    ∃ m, insertEntry s.mem b e = .ok m ∧ b ∈ c.own ∧ Inv grow lay env { s.next i c k with mem := m } := by
  have hc := h.tasks i c hi
  obtain ⟨ms, H, S, p, y, m', hsim, hrel, hex, hcall, hid⟩ := hc.sim
  rw [hact] at hrel
  cases hrel with
  | fail => cases hex
  | insert _ _ b0 _ e0 _ k0 _ hw hb he hk =>
    simp only [exec, bind, Except.bind] at hex
    rcases hl : insertEntry ms b0 e0 with e | m2 <;> rw [hl] at hex
    · cases hex
    obtain ⟨x', h1, h2, h3, h4, x, h5⟩ := hsim.insert hb he hl
    rw [hc.only hw] at h3
    simp only [List.not_mem_nil, or_false] at h3
    refine ⟨_, h1, h3, ?_⟩
    refine h.next hi (closed_set h.closed (hsim.closed_obj h5))
      ⟨hc.cl, hc.only, ⟨m2, H, S, _, y, m', h2.act _, hk, hex, hcall, hid⟩, by simpa using hc.bound⟩ rfl
      (fun _ hb => .inl hb) (by simp) ?_ (set_text h4) (fun e he => .inl ⟨he, ((h.pool e he).2 i c hi).1⟩) h.nodup
    intro b _ hb
    rw [List.getElem?_set_ne]
    rintro rfl
    exact hb h3

theorem append_get {m : Mem} {o : Obj} {b : Nat} (hb : b < m.length) : (m ++ [o])[b]? = m[b]? := List.getElem?_append_left hb

theorem append_text {m : Mem} {o : Obj} (b : Nat) (t : Bytes) (h : m[b]? = some (.ro t)) : (m ++ [o])[b]? = some (.ro t) := by
  rw [append_get (List.getElem?_eq_some_iff.mp h).1]; exact h

/-- A new allocation belongs to no one. -/
theorem Inv.fresh (h : Inv grow lay env s) (j : Nat) (d : Task) (hj : s.tasks[j]? = some d) :
    s.mem.length ∉ d.own ∧ s.mem.length ∉ d.rd :=
  ⟨fun hb => absurd ((h.tasks j d hj).bound _ (.inl hb)) (by omega), fun hb => absurd ((h.tasks j d hj).bound _ (.inr hb)) (by omega)⟩

theorem Inv.pool_lt (h : Inv grow lay env s) (e : Nat × Nat) (he : e ∈ s.pool) : e.2 < s.mem.length :=
  (List.getElem?_eq_some_iff.mp (h.pool e he).1).1

theorem bound_cons {c : Task} {m : Mem} (h : ∀ b, b ∈ c.own ∨ b ∈ c.rd → b < m.length) {b : Nat} {m' : Mem} (hb : b < m'.length)
    (hl : m.length ≤ m'.length) : ∀ x, x ∈ b :: c.own ∨ x ∈ c.rd → x < m'.length := by
  intro x hx
  rcases hx with hx | hx
  · rcases List.mem_cons.mp hx with rfl | hx
    · exact hb
    · exact Nat.lt_of_lt_of_le (h x (.inl hx)) hl
  · exact Nat.lt_of_lt_of_le (h x (.inr hx)) hl

theorem inv_alloc (h : Inv grow lay env s) (hi : s.tasks[i]? = some c) {o k} (hact : c.act = .alloc o k) :
    Inv grow lay env { s.next i { c with own := s.mem.length :: c.own } (k s.mem.length) with mem := s.mem ++ [o] } := by
  have hc := h.tasks i c hi
  obtain ⟨ms, H, S, p, y, m', hsim, hrel, hex, hcall, hid⟩ := hc.sim
  rw [hact] at hrel
  cases hrel with
  | fail => cases hex
  | alloc _ _ o0 _ k0 _ hw ho hk =>
    have hnone : H ms.length = none := by
      cases hh : H ms.length with
      | none => rfl
      | some x => exact absurd (hsim.dom _ _ hh).1 (by omega)
    have h2 := hsim.alloc hc.bound ho
    refine h.next (c' := { c with own := s.mem.length :: c.own, act := k s.mem.length }) hi
      (closed_append h.closed (hsim.closed_obj ho))
      ⟨hc.cl, hc.only, ⟨_, _, S, _, y, m', h2.act _, hk _ _ hnone, hex, hcall, fun b hb =>
        (More.add (S := S) hnone).ren _ _ (hid b hb)⟩, bound_cons hc.bound (by simp) (by simp)⟩ rfl ?_ (by simp) (fun b hb _ => append_get hb)
      append_text (fun e he => .inl ⟨he, ?_⟩) h.nodup
    · intro b hb
      rcases List.mem_cons.mp hb with rfl | hb
      · exact .inr h.fresh
      · exact .inl hb
    · have := h.pool_lt e he
      have := ((h.pool e he).2 i c hi).1
      simp only [List.mem_cons, not_or]
      exact ⟨by omega, this⟩

theorem inv_getNone (h : Inv grow lay env s) (hi : s.tasks[i]? = some c) {n k} (hact : c.act = .get n k) :
    Inv grow lay env
      { s.next i { c with own := s.mem.length :: c.own } (k s.mem.length) with mem := s.mem ++ [.mem (zeroCells n)] } := by
  have hc := h.tasks i c hi
  obtain ⟨ms, H, S, p, y, m', hsim, hrel, hex, hcall, hid⟩ := hc.sim
  rw [hact] at hrel
  cases hrel with
  | fail => cases hex
  | get _ _ _ k0 _ hw hk =>
    have h1 : Alike ms H S (s.mem ++ [.mem (zeroCells n)]) c :=
      hsim.frame (by simp) (fun b hb => append_get (hc.bound b hb)) append_text
    have h2 := h1.get (s' := s.mem.length) (n := n) (by simp) (fun hb => absurd (hc.bound _ hb) (by omega))
    have hfr : ∀ x ∈ S, x.1 ≠ ms.length := by
      rintro ⟨t, t', n'⟩ hx
      obtain ⟨_, _, cs, _, h3, _⟩ := hsim.scr _ _ _ hx
      have := (List.getElem?_eq_some_iff.mp h3).1
      simp only; omega
    refine h.next (c' := { c with own := s.mem.length :: c.own, act := k s.mem.length }) hi
      (closed_append h.closed (hsim.closed_obj (obj_mem (cells_zero n))))
      ⟨hc.cl, hc.only, ⟨_, _, _, _, y, m', h2.act _, hk _ _ hfr, hex, hcall, hid⟩, bound_cons hc.bound (by simp) (by simp)⟩ rfl ?_ (by simp)
      (fun b hb _ => append_get hb) append_text (fun e he => .inl ⟨he, ?_⟩) h.nodup
    · intro b hb
      rcases List.mem_cons.mp hb with rfl | hb
      · exact .inr h.fresh
      · exact .inl hb
    · have := h.pool_lt e he
      have := ((h.pool e he).2 i c hi).1
      simp only [List.mem_cons, not_or]
      exact ⟨by omega, this⟩

theorem inv_getSome (h : Inv grow lay env s) (hi : s.tasks[i]? = some c) {n k} (hact : c.act = .get n k)
    {xs ys : List (Nat × Nat)} {b : Nat} (hp : s.pool = xs ++ (n, b) :: ys) :
    Inv grow lay env { s.next i { c with own := b :: c.own } (k b) with pool := xs ++ ys } := by
  have hc := h.tasks i c hi
  obtain ⟨ms, H, S, p, y, m', hsim, hrel, hex, hcall, hid⟩ := hc.sim
  rw [hact] at hrel
  cases hrel with
  | fail => cases hex
  | get _ _ _ k0 _ hw hk =>
    have hmem : (n, b) ∈ s.pool := by rw [hp]; simp
    obtain ⟨h0, hfree⟩ := h.pool _ hmem
    have h2 := hsim.get (s' := b) (n := n) h0 (fun hb => hb.elim (hfree i c hi).1 (hfree i c hi).2)
    have hfr : ∀ x ∈ S, x.1 ≠ ms.length := by
      rintro ⟨t, t', n'⟩ hx
      obtain ⟨_, _, cs, _, h3, _⟩ := hsim.scr _ _ _ hx
      have := (List.getElem?_eq_some_iff.mp h3).1
      simp only; omega
    have hnd := h.nodup
    rw [hp] at hnd
    simp only [List.map_append, List.map_cons] at hnd
    refine h.next (c' := { c with own := b :: c.own, act := k b }) hi h.closed
      ⟨hc.cl, hc.only, ⟨_, _, _, _, y, m', h2.act _, hk _ _ hfr, hex, hcall, hid⟩, bound_cons hc.bound (h.pool_lt _ hmem) (Nat.le_refl _)⟩
      rfl ?_ (Nat.le_refl _) (fun _ _ _ => rfl) (fun _ _ h => h) (fun e he => .inl ⟨?_, ?_⟩) ?_
    · intro x hb
      rcases List.mem_cons.mp hb with rfl | hb
      · exact .inr hfree
      · exact .inl hb
    · rw [hp]
      rcases List.mem_append.mp he with h1 | h1 <;> simp [h1]
    · have hin : e ∈ s.pool := by
        rw [hp]
        rcases List.mem_append.mp he with h1 | h1 <;> simp [h1]
      have := ((h.pool e hin).2 i c hi).1
      simp only [List.mem_cons, not_or]
      refine ⟨?_, this⟩
      intro heq
      have h5 := (List.perm_middle.nodup_iff.mp hnd)
      rw [List.nodup_cons, ← List.map_append] at h5
      exact h5.1 (heq ▸ List.mem_map_of_mem he)
    · have h5 := (List.perm_middle.nodup_iff.mp hnd)
      rw [List.nodup_cons, ← List.map_append] at h5
      exact h5.2

theorem inv_put (h : Inv grow lay env s) (hi : s.tasks[i]? = some c) {n b k} (hact : c.act = .put n b k) :
    b ∈ c.own ∧ s.mem[b]? = some (.mem (zeroCells n)) ∧
    Inv grow lay env { s.next i { c with own := c.own.filter (· ≠ b) } k with pool := (n, b) :: s.pool } := by
  have hc := h.tasks i c hi
  obtain ⟨ms, H, S, p, y, m', hsim, hrel, hex, hcall, hid⟩ := hc.sim
  rw [hact] at hrel
  cases hrel with
  | fail => cases hex
  | put _ _ _ b0 _ k0 _ hw hs hk =>
    obtain ⟨h1, h2, cs, cs', h3, h4, h5, h6⟩ := hsim.scr _ _ _ hs
    simp only [exec] at hex
    split at hex
    · rename_i hz
      rw [hz] at h3; cases h3
      rw [cells_eq_zero h5] at h4
      refine ⟨h2, h4, ?_⟩
      refine h.next (c' := { c with own := c.own.filter (· ≠ b), act := k }) hi h.closed
        ⟨hc.cl, hc.only, ⟨_, _, _, _, y, m', (hsim.put hs).act _, hk, hex, hcall, hid⟩, fun x hx => ?_⟩
        rfl ?_ (Nat.le_refl _) (fun _ _ _ => rfl) (fun _ _ h => h) ?_ ?_
      · rcases hx with hx | hx
        · exact hc.bound x (.inl (List.mem_filter.mp hx).1)
        · exact hc.bound x (.inr hx)
      · exact fun x hx => .inl (List.mem_filter.mp hx).1
      · intro e he
        rcases List.mem_cons.mp he with rfl | he
        · refine .inr ⟨h4, h2, by simp, ?_⟩
          rw [hc.only hw]; simp
        · refine .inl ⟨he, ?_⟩
          intro hx
          exact ((h.pool e he).2 i c hi).1 (List.mem_filter.mp hx).1
      · rw [List.map_cons, List.nodup_cons]
        refine ⟨?_, h.nodup⟩
        intro hm
        obtain ⟨e, he, heq⟩ := List.mem_map.mp hm
        exact ((h.pool e he).2 i c hi).1 (heq ▸ h2)
    · cases hex

/-! ### Steps of the code around the calls -/

theorem inv_other (h : Inv grow lay env s) {m : Mem} (hlen : s.mem.length ≤ m.length)
    (hown : ∀ c ∈ s.tasks, ∀ b, b ∈ c.own ∨ b ∈ c.rd → m[b]? = s.mem[b]?) (hpool : ∀ e ∈ s.pool, m[e.2]? = s.mem[e.2]?)
    (htxt : ∀ (b : Nat) (t : Bytes), s.mem[b]? = some (.ro t) → m[b]? = some (.ro t)) (hcl : Closed m) :
    Inv grow lay env { s with mem := m } where
  closed := hcl
  tasks j d hj := (h.tasks j d hj).frame hlen (hown d (List.mem_of_getElem? hj)) htxt
  apart := h.apart
  pool e he := ⟨by rw [hpool e he]; exact (h.pool e he).1, (h.pool e he).2⟩
  nodup := h.nodup

theorem get_skip {α : Type} (xs : List α) (x : α) (ys : List α) (i : Nat) :
    (xs ++ ys)[i]? = (xs ++ x :: ys)[if i < xs.length then i else i + 1]? := by
  split
  · rename_i h
    rw [List.getElem?_append_left h, List.getElem?_append_left h]
  · rename_i h
    rw [List.getElem?_append_right (by omega), List.getElem?_append_right (by omega)]
    have : i + 1 - xs.length = (i - xs.length) + 1 := by omega
    rw [this, List.getElem?_cons_succ]

theorem inv_done (h : Inv grow lay env s) {xs ys : List Task} (hs : s.tasks = xs ++ c :: ys) :
    Inv grow lay env { s with tasks := xs ++ ys } where
  closed := h.closed
  tasks j d hj := by
    simp only [get_skip xs c ys] at hj
    rw [← hs] at hj
    exact h.tasks _ d hj
  apart j k d e hjk hj hk := by
    simp only [get_skip xs c ys] at hj hk
    rw [← hs] at hj hk
    refine h.apart _ _ d e ?_ hj hk
    split <;> split <;> omega
  pool e he := by
    refine ⟨(h.pool e he).1, fun j d hj => ?_⟩
    simp only [get_skip xs c ys] at hj
    rw [← hs] at hj
    exact (h.pool e he).2 _ d hj
  nodup := h.nodup

theorem inv_gc (h : Inv grow lay env s) {xs ys : List (Nat × Nat)} {e : Nat × Nat} (hs : s.pool = xs ++ e :: ys) :
    Inv grow lay env { s with pool := xs ++ ys } where
  closed := h.closed
  tasks := h.tasks
  apart := h.apart
  pool d hd := by
    refine h.pool d ?_
    rw [hs]
    rcases List.mem_append.mp hd with h1 | h1 <;> simp [h1]
  nodup := by
    have := h.nodup
    rw [hs] at this
    refine this.sublist (List.Sublist.map _ ?_)
    exact List.Sublist.append (List.Sublist.refl _) (List.sublist_cons_self _ _)

theorem view_length (m : Mem) (given : List Nat) : (view m given).length = m.length := by simp [view]

theorem view_get (m : Mem) (given : List Nat) (b : Nat) :
    (view m given)[b]? = m[b]?.map fun o => match o with | .ro t => .ro t | o => if b ∈ given then o else .ro [] := by
  rw [view, List.getElem?_mapIdx]

/-- The memory a call starts with. -/
theorem sim_start {m : Mem} (hcl : Closed m) (c : Task) (given : List Nat) (h : ∀ b ∈ given, b ∈ c.own ∨ b ∈ c.rd) :
    Alike (view m given) (fun b => if b < m.length then some b else none) [] m c := by
  have key : ∀ b b', (if b < m.length then some b else none) = some b' → b < m.length ∧ b' = b := by
    intro b b' hb
    split at hb
    · cases hb; exact ⟨by assumption, rfl⟩
    · cases hb
  refine ⟨?_, ?_, ?_, ?_, ?_, ?_, .nil, .nil⟩
  · intro b1 b2 b' h1 h2
    rw [← (key _ _ h1).2, ← (key _ _ h2).2]
  · intro b b' hb
    obtain ⟨h1, rfl⟩ := key _ _ hb
    rw [view_length]; exact ⟨h1, h1⟩
  · intro b b' o hb ho hne
    obtain ⟨h1, rfl⟩ := key _ _ hb
    rw [view_get] at ho
    have hg : m[b']? = some m[b'] := List.getElem?_eq_getElem h1
    rw [hg] at ho
    simp only [Option.map_some, Option.some.injEq] at ho
    refine ⟨m[b'], hg, ?_⟩
    have hcb := hcl m[b'] (List.getElem_mem h1)
    generalize m[b'] = x at ho hcb
    have self : ObjRel (fun b => if b < m.length then some b else none) x x := by
      cases x with
      | mem cs =>
        refine All2.refl_of _ fun y hy => ?_
        cases y with
        | byte x => rfl
        | int n k => exact ⟨rfl, rfl⟩
        | ptr a k => exact ⟨⟨if_pos (hcb _ hy a k rfl), rfl⟩, rfl⟩
      | ro t => rfl
      | map es => exact All2.refl_of _ fun e he => ⟨if_pos (hcb e he).1, if_pos (hcb e he).2⟩
    cases x with
    | ro t => subst ho; exact self
    | mem cs =>
      simp only at ho
      split at ho
      · subst ho; exact self
      · exact absurd ho.symm hne
    | map es =>
      simp only at ho
      split at ho
      · subst ho; exact self
      · exact absurd ho.symm hne
  · intro b b' o hb ho hlv
    obtain ⟨h1, rfl⟩ := key _ _ hb
    refine h b' ?_
    rw [view_get, List.getElem?_eq_getElem h1] at ho
    simp only [Option.map_some, Option.some.injEq] at ho
    generalize m[b'] = x at ho
    cases x with
    | ro t => subst ho; cases hlv
    | mem cs =>
      simp only at ho
      split at ho
      · assumption
      · subst ho; cases hlv
    | map es =>
      simp only at ho
      split at ho
      · assumption
      · subst ho; cases hlv
  · intro _ _ _ hs; cases hs
  · intro _ _ _ _ _ _ _ _ _ hs; cases hs

/-- What the conditions on calls must give. -/
def OKCalls (grow : Nat → Nat → Nat) (lay : Lay) (env : Env) (ok : Mem → List Nat → Req → Prop) : Prop :=
  ∀ m given r, ok m given r → r.addr.blk < m.length ∧ ∃ y m', callF grow lay env (view m given) r = .ok (y, m')

theorem inv_call {ok : Mem → List Nat → Req → Prop} (hok : OKCalls grow lay env ok) (h : Inv grow lay env s) {r : Req}
    {given : List Nat} (hr : ok s.mem given r) (h1 : ∀ b ∈ given, ∀ c ∈ s.tasks, b ∉ c.own)
    (h2 : ∀ b ∈ r.writes given, ∀ c ∈ s.tasks, b ∉ c.rd) (h3 : ∀ b ∈ given, b < s.mem.length ∧ ∀ n, (n, b) ∉ s.pool) :
    Inv grow lay env
      { s with tasks := s.tasks ++ [⟨r, s.mem, given, reqAct grow lay env r, r.writes given, r.reads given⟩] } := by
  have hgw : ∀ b, b ∈ r.writes given ∨ b ∈ r.reads given ↔ b ∈ given := by
    intro b
    cases r <;> simp [Req.writes, Req.reads]
  have last : ∀ (j : Nat) (d t : Task), (s.tasks ++ [t])[j]? = some d → (s.tasks[j]? = some d ∧ j < s.tasks.length) ∨
      (j = s.tasks.length ∧ d = t) := by
    intro j d t hj
    by_cases hl : j < s.tasks.length
    · rw [List.getElem?_append_left hl] at hj; exact .inl ⟨hj, hl⟩
    · rw [List.getElem?_append_right (by omega)] at hj
      by_cases h0 : j - s.tasks.length = 0
      · rw [h0] at hj; simp at hj; exact .inr ⟨by omega, hj.symm⟩
      · rw [List.getElem?_eq_none (by simp; omega)] at hj; cases hj
  refine ⟨h.closed, ?_, ?_, ?_, h.nodup⟩
  · intro j d hj
    rcases last j d _ hj with ⟨hj, _⟩ | ⟨_, rfl⟩
    · exact h.tasks j d hj
    · obtain ⟨ha, y, m', hc⟩ := hok _ _ _ hr
      refine ⟨h.closed, ?_, ⟨view s.mem given, _, [], reqAct grow lay env r, y, m', sim_start h.closed _ given fun b hb => (hgw b).mpr hb,
        rel_req grow lay env r ⟨.inl (if_pos ha), rfl⟩, ?_, hc, fun b hb => if_pos hb⟩, fun b hb => (h3 b ((hgw b).mp hb)).1⟩
      · intro hw
        cases r <;> simp [Req.writer, Req.reads] at hw ⊢
      · have := runs_req grow lay env (view s.mem given) r (y, m') hc
        simpa using this
  · intro j k d e hjk hj hk b hb
    rcases last j d _ hj with ⟨hj, _⟩ | ⟨hj, rfl⟩ <;> rcases last k e _ hk with ⟨hk, _⟩ | ⟨hk, rfl⟩
    · exact h.apart j k d e hjk hj hk b hb
    · have hd : d ∈ s.tasks := List.mem_of_getElem? hj
      exact ⟨fun hw => h1 b ((hgw b).mp (.inl hw)) d hd hb, fun hw => h1 b ((hgw b).mp (.inr hw)) d hd hb⟩
    · have he : e ∈ s.tasks := List.mem_of_getElem? hk
      exact ⟨h1 b ((hgw b).mp (.inl hb)) e he, h2 b hb e he⟩
    · omega
  · intro e he
    refine ⟨(h.pool e he).1, fun j d hj => ?_⟩
    rcases last j d _ hj with ⟨hj, _⟩ | ⟨_, rfl⟩
    · exact (h.pool e he).2 j d hj
    · exact ⟨fun hb => (h3 _ ((hgw _).mp (.inl hb))).2 e.1 he, fun hb => (h3 _ ((hgw _).mp (.inr hb))).2 e.1 he⟩

theorem inv_step {ok : Mem → List Nat → Req → Prop} (hok : OKCalls grow lay env ok) (h : Inv grow lay env s) {s' : Proc}
    (hs : Step grow lay env ok s s') : Inv grow lay env s' := by
  cases hs with
  | call r given hr h1 h2 h3 => exact inv_call hok h hr h1 h2 h3
  | other m h1 h2 h3 h4 h5 => exact inv_other h h1 h2 h3 h4 h5
  | done xs c ys o h1 h2 => exact inv_done h h1
  | gc xs e ys h1 => exact inv_gc h h1
  | load i c a n al k hi hact => exact (inv_load h hi hact).2.2
  | data i c a n k hi hact => exact (inv_data h hi hact).2.2
  | entries i c a k hi hact => exact (inv_entries h hi hact).2.2
  | store i c a cs al k m hi hact hm =>
    obtain ⟨m', h1, _, h3⟩ := inv_store h hi hact
    rw [hm] at h1; cases h1; exact h3
  | storeFault i c a cs al k f hi hact hm =>
    obtain ⟨m', h1, _⟩ := inv_store h hi hact
    rw [hm] at h1; cases h1
  | insert i c b e k m hi hact hm =>
    obtain ⟨m', h1, _, h3⟩ := inv_insert h hi hact
    rw [hm] at h1; cases h1; exact h3
  | insertFault i c b e k f hi hact hm =>
    obtain ⟨m', h1, _⟩ := inv_insert h hi hact
    rw [hm] at h1; cases h1
  | alloc i c o k hi hact => exact inv_alloc h hi hact
  | getNone i c n k hi hact => exact inv_getNone h hi hact
  | getSome i c n k xs b ys hi hact hp => exact inv_getSome h hi hact hp
  | put i c n b k hi hact => exact (inv_put h hi hact).2.2

theorem inv_reach {ok : Mem → List Nat → Req → Prop} (hok : OKCalls grow lay env ok) {m : Mem} (hm : Closed m)
    (h : Reach grow lay env ok m s) : Inv grow lay env s := by
  induction h with
  | start => exact ⟨hm, fun i c hi => by simp at hi, fun i j c d _ hi => by simp at hi, fun e he => by simp at he, .nil⟩
  | step s s' _ hs ih => exact inv_step hok ih hs

end

end Pb.Flat
