import Verif.Proofs.ConcSeq
/-
The programs of `Model/Conc.lean` do not depend on the numbers of the allocations: with renamed addresses they do the same, up to
the names. Scratch structs are never pointed to from memory.
-/
namespace Pb.Flat

/-- Two lists, element by element. -/
inductive All2 {α β : Type} (R : α → β → Prop) : List α → List β → Prop
  | nil : All2 R [] []
  | cons (x y xs ys) : R x y → All2 R xs ys → All2 R (x :: xs) (y :: ys)

namespace All2
variable {α β : Type} {R : α → β → Prop} {xs : List α} {ys : List β}

theorem length (h : All2 R xs ys) : xs.length = ys.length := by
  induction h with
  | nil => rfl
  | cons _ _ _ _ _ _ ih => simp [ih]

theorem append {xs' : List α} {ys' : List β} (h : All2 R xs ys) (h' : All2 R xs' ys') : All2 R (xs ++ xs') (ys ++ ys') := by
  induction h with
  | nil => exact h'
  | cons _ _ _ _ hr _ ih => exact .cons _ _ _ _ hr ih

theorem take (h : All2 R xs ys) : ∀ n, All2 R (xs.take n) (ys.take n) := by
  induction h with
  | nil => intro n; simp; exact .nil
  | cons _ _ _ _ hr _ ih =>
    intro n
    cases n with
    | zero => exact .nil
    | succ n => exact .cons _ _ _ _ hr (ih n)

theorem drop (h : All2 R xs ys) : ∀ n, All2 R (xs.drop n) (ys.drop n) := by
  induction h with
  | nil => intro n; simp; exact .nil
  | cons _ _ _ _ hr h ih =>
    intro n
    cases n with
    | zero => exact .cons _ _ _ _ hr h
    | succ n => exact ih n

theorem mono {R' : α → β → Prop} (h : All2 R xs ys) (hr : ∀ x y, R x y → R' x y) : All2 R' xs ys := by
  induction h with
  | nil => exact .nil
  | cons _ _ _ _ h1 _ ih => exact .cons _ _ _ _ (hr _ _ h1) ih

theorem mem_right (h : All2 R xs ys) {y : β} (hy : y ∈ ys) : ∃ x ∈ xs, R x y := by
  induction h with
  | nil => cases hy
  | cons a b _ _ h1 _ ih =>
    rcases List.mem_cons.mp hy with rfl | hy
    · exact ⟨a, by simp, h1⟩
    · obtain ⟨x, h2, h3⟩ := ih hy
      exact ⟨x, by simp [h2], h3⟩

theorem get (h : All2 R xs ys) : ∀ i : Nat, (xs[i]? = none ∧ ys[i]? = none) ∨ ∃ x y, xs[i]? = some x ∧ ys[i]? = some y ∧ R x y := by
  induction h with
  | nil => intro i; left; simp
  | cons a b _ _ h1 _ ih =>
    intro i
    cases i with
    | zero => right; exact ⟨a, b, rfl, rfl, h1⟩
    | succ i => simpa using ih i

theorem refl_of {R : α → α → Prop} (xs : List α) (h : ∀ x ∈ xs, R x x) : All2 R xs xs := by
  induction xs with
  | nil => exact .nil
  | cons x xs ih => exact .cons _ _ _ _ (h x (by simp)) (ih fun y hy => h y (by simp [hy]))

end All2

/-- A renaming of allocations. -/
abbrev Ren := Nat → Option Nat
/-- One more allocation. -/
def Ren.add (H : Ren) (b b' : Nat) : Ren := fun x => if x = b then some b' else H x
/-- Scratch structs in use: the number, the number after renaming, the size. -/
abbrev Scr := List (Nat × Nat × Nat)

/-- Cells that are the same up to the renaming. -/
def CellRel (H : Ren) : Cell → Cell → Prop
  | .byte x, .byte y => x = y
  | .ptr a k, .ptr a' k' => (H a.blk = some a'.blk ∧ a.off = a'.off) ∧ k = k'
  | .int n k, .int n' k' => n = n' ∧ k = k'
  | _, _ => False

/-- The same for several cells. -/
abbrev CellsRel (H : Ren) : List Cell → List Cell → Prop := All2 (CellRel H)

/-- Pointers into memory that is not scratch. -/
def HAddr (H : Ren) (a a' : Addr) : Prop := H a.blk = some a'.blk ∧ a.off = a'.off

/-- Addresses of memory or of scratch structs. -/
def AddrRel (H : Ren) (S : Scr) (a a' : Addr) : Prop :=
  (H a.blk = some a'.blk ∨ ∃ n, (a.blk, a'.blk, n) ∈ S) ∧ a.off = a'.off

/-- Entries of maps. -/
def EntryRel (H : Ren) (e e' : Nat × Nat) : Prop := H e.1 = some e'.1 ∧ H e.2 = some e'.2

/-- Allocations. -/
def ObjRel (H : Ren) : Obj → Obj → Prop
  | .mem cs, .mem cs' => CellsRel H cs cs'
  | .ro s, .ro s' => s = s'
  | .map es, .map es' => All2 (EntryRel H) es es'
  | _, _ => False

/-- Pointers that may be nil. -/
def OptAddr (H : Ren) : Option Addr → Option Addr → Prop
  | none, none => True
  | some a, some a' => HAddr H a a'
  | _, _ => False

/-- `ActRel w Q H S p p'`: as long as `p` does not fail, `p'` does the same accesses up to names, and the results are related by
`Q`. Without `w` there are only reading accesses. -/
inductive ActRel {α : Type} (w : Bool) (Q : Ren → Scr → α → α → Prop) : Ren → Scr → Act α → Act α → Prop
  | ret (H S x x') : Q H S x x' → ActRel w Q H S (.ret x) (.ret x')
  | fail (H S f p) : ActRel w Q H S (.fail f) p
  | load (H S a a' n al k k') : AddrRel H S a a' → (∀ cs cs', CellsRel H cs cs' → ActRel w Q H S (k cs) (k' cs')) →
      ActRel w Q H S (.load a n al k) (.load a' n al k')
  | store (H S a a' cs cs' al k k') : w = true → AddrRel H S a a' → CellsRel H cs cs' → ActRel w Q H S k k' →
      ActRel w Q H S (.store a cs al k) (.store a' cs' al k')
  | data (H S a a' n k k') : n ≠ 0 → HAddr H a a' → (∀ bs, ActRel w Q H S (k bs) (k' bs)) →
      ActRel w Q H S (.data a n k) (.data a' n k')
  | alloc (H S o o' k k') : w = true → ObjRel H o o' →
      (∀ b b', H b = none → ActRel w Q (H.add b b') S (k b) (k' b')) → ActRel w Q H S (.alloc o k) (.alloc o' k')
  | entries (H S a a' k k') : HAddr H a a' → (∀ es es', All2 (EntryRel H) es es' → ActRel w Q H S (k es) (k' es')) →
      ActRel w Q H S (.entries a k) (.entries a' k')
  | insert (H S b b' e e' k k') : w = true → H b = some b' → EntryRel H e e' → ActRel w Q H S k k' →
      ActRel w Q H S (.insert b e k) (.insert b' e' k')
  | get (H S n k k') : w = true → (∀ s s', (∀ x ∈ S, x.1 ≠ s) → ActRel w Q H ((s, s', n) :: S) (k s) (k' s')) →
      ActRel w Q H S (.get n k) (.get n k')
  | put (H S n s s' k k') : w = true → (s, s', n) ∈ S → ActRel w Q H (S.erase (s, s', n)) k k' →
      ActRel w Q H S (.put n s k) (.put n s' k')

theorem rel_bind {α β : Type} {w : Bool} {Q : Ren → Scr → α → α → Prop} {R : Ren → Scr → β → β → Prop} {H : Ren} {S : Scr}
    {p p' : Act α} {f f' : α → Act β} (h : ActRel w Q H S p p')
    (hf : ∀ H' S' x x', Q H' S' x x' → ActRel w R H' S' (f x) (f' x')) : ActRel w R H S (p.bind f) (p'.bind f') := by
  induction h with
  | ret H S x x' hq => exact hf _ _ _ _ hq
  | fail => exact .fail _ _ _ _
  | load H S a a' n al k k' ha _ ih => exact .load _ _ _ _ _ _ _ _ ha ih
  | store H S a a' cs cs' al k k' hw ha hc _ ih => exact .store _ _ _ _ _ _ _ _ _ hw ha hc ih
  | data H S a a' n k k' hn ha _ ih => exact .data _ _ _ _ _ _ _ hn ha ih
  | alloc H S o o' k k' hw ho _ ih => exact .alloc _ _ _ _ _ _ hw ho ih
  | entries H S a a' k k' ha _ ih => exact .entries _ _ _ _ _ _ ha ih
  | insert H S b b' e e' k k' hw hb he _ ih => exact .insert _ _ _ _ _ _ _ _ hw hb he ih
  | get H S n k k' hw _ ih => exact .get _ _ _ _ _ hw ih
  | put H S n s s' k k' hw hs _ ih => exact .put _ _ _ _ _ _ _ hw hs ih

theorem rel_mono {α : Type} {w : Bool} {Q R : Ren → Scr → α → α → Prop} {H : Ren} {S : Scr}
    {p p' : Act α} (h : ActRel w Q H S p p') (hq : ∀ H' S' x x', Q H' S' x x' → R H' S' x x') : ActRel w R H S p p' := by
  induction h with
  | ret H S x x' h => exact .ret _ _ _ _ (hq _ _ _ _ h)
  | fail => exact .fail _ _ _ _
  | load H S a a' n al k k' ha _ ih => exact .load _ _ _ _ _ _ _ _ ha ih
  | store H S a a' cs cs' al k k' hw ha hc _ ih => exact .store _ _ _ _ _ _ _ _ _ hw ha hc ih
  | data H S a a' n k k' hn ha _ ih => exact .data _ _ _ _ _ _ _ hn ha ih
  | alloc H S o o' k k' hw ho _ ih => exact .alloc _ _ _ _ _ _ hw ho ih
  | entries H S a a' k k' ha _ ih => exact .entries _ _ _ _ _ _ ha ih
  | insert H S b b' e e' k k' hw hb he _ ih => exact .insert _ _ _ _ _ _ _ _ hw hb he ih
  | get H S n k k' hw _ ih => exact .get _ _ _ _ _ hw ih
  | put H S n s s' k k' hw hs _ ih => exact .put _ _ _ _ _ _ _ hw hs ih

/-- Results of functions that read only. -/
abbrev Reads {α : Type} (R : α → α → Prop) (H : Ren) (S : Scr) : Ren → Scr → α → α → Prop :=
  fun H' S' x x' => H' = H ∧ S' = S ∧ R x x'

/-- What stays in use, later. -/
structure More (H : Ren) (S : Scr) (H' : Ren) (S' : Scr) : Prop where
  ren : ∀ b b', H b = some b' → H' b = some b'
  scr : ∀ x ∈ S, x ∈ S'

/-- Results of functions that write. -/
abbrev Writes {α : Type} (R : Ren → α → α → Prop) (H : Ren) (S : Scr) : Ren → Scr → α → α → Prop :=
  fun H' S' x x' => More H S H' S' ∧ R H' x x'

section
variable {H : Ren} {S : Scr} {a a' : Addr} {w : Bool}

theorem More.refl (H : Ren) (S : Scr) : More H S H S := ⟨fun _ _ h => h, fun _ h => h⟩
theorem More.trans {H' H'' : Ren} {S' S'' : Scr} (h : More H S H' S') (h' : More H' S' H'' S'') : More H S H'' S'' :=
  ⟨fun b b' hb => h'.ren _ _ (h.ren b b' hb), fun x hx => h'.scr _ (h.scr x hx)⟩
theorem More.add {b b' : Nat} (h : H b = none) : More H S (H.add b b') S :=
  ⟨fun x x' hx => by
    unfold Ren.add
    split
    · rename_i he; subst he; rw [h] at hx; cases hx
    · exact hx, fun _ h => h⟩

theorem add_self (H : Ren) (b b' : Nat) : H.add b b' b = some b' := by simp [Ren.add]

theorem AddrRel.ext {H' : Ren} {S' : Scr} (h : AddrRel H S a a') (he : More H S H' S') : AddrRel H' S' a a' := by
  refine ⟨?_, h.2⟩
  rcases h.1 with h | ⟨n, h⟩
  · exact .inl (he.ren _ _ h)
  · exact .inr ⟨n, he.scr _ h⟩

theorem AddrRel.add (h : AddrRel H S a a') (n : Nat) : AddrRel H S (a.add n) (a'.add n) := ⟨h.1, by simp [Addr.add, h.2]⟩
theorem HAddr.rel (h : HAddr H a a') : AddrRel H S a a' := ⟨.inl h.1, h.2⟩
theorem HAddr.ext {H' : Ren} {S' : Scr} (h : HAddr H a a') (he : More H S H' S') : HAddr H' a a' := ⟨he.ren _ _ h.1, h.2⟩
theorem HAddr.add (h : HAddr H a a') (n : Nat) : HAddr H (a.add n) (a'.add n) := ⟨h.1, by simp [Addr.add, h.2]⟩

theorem CellRel.ext {H' : Ren} {S' : Scr} {c c' : Cell} (h : CellRel H c c') (he : More H S H' S') : CellRel H' c c' := by
  cases c <;> cases c' <;> simp only [CellRel] at h ⊢ <;> try exact h
  exact ⟨⟨he.ren _ _ h.1.1, h.1.2⟩, h.2⟩

theorem ObjRel.ext {H' : Ren} {S' : Scr} {o o' : Obj} (h : ObjRel H o o') (he : More H S H' S') : ObjRel H' o o' := by
  cases o <;> cases o' <;> simp only [ObjRel] at h ⊢ <;> try exact h
  · exact h.mono fun _ _ h => h.ext he
  · exact h.mono fun _ _ h => ⟨he.ren _ _ h.1, he.ren _ _ h.2⟩

/-! Cells -/

theorem cells_bytes (bs : Bytes) : CellsRel H (byteCells bs) (byteCells bs) := .refl_of _ fun x hx => by
  simp only [byteCells, List.mem_map] at hx
  obtain ⟨y, _, rfl⟩ := hx
  rfl

theorem cells_zero (n : Nat) : CellsRel H (zeroCells n) (zeroCells n) := .refl_of _ fun x hx => by
  rw [zeroCells, List.mem_replicate] at hx
  rw [hx.2]; rfl

theorem cells_int (n : Nat) : CellsRel H (intCells n) (intCells n) := by
  unfold intCells
  split
  · exact cells_zero 8
  · refine .refl_of _ fun x hx => ?_
    simp only [List.mem_map] at hx
    obtain ⟨y, _, rfl⟩ := hx
    exact ⟨rfl, rfl⟩

theorem cells_bool (x : Bool) : CellsRel H (boolCells x) (boolCells x) := .refl_of _ fun y hy => by
  simp only [boolCells, List.mem_singleton] at hy
  rw [hy]; rfl

theorem cells_ptr (h : HAddr H a a') : CellsRel H (ptrCells (some a)) (ptrCells (some a')) := by
  have key : ∀ ks : List Nat, CellsRel H (ks.map (Cell.ptr a)) (ks.map (Cell.ptr a')) := by
    intro ks
    induction ks with
    | nil => exact .nil
    | cons k ks ih => exact .cons _ _ _ _ ⟨h, rfl⟩ ih
  exact key _

theorem cells_optPtr {d d' : Option Addr} (h : OptAddr H d d') : CellsRel H (ptrCells d) (ptrCells d') := by
  cases d <;> cases d' <;> simp only [OptAddr] at h
  · exact cells_zero 8
  · exact cells_ptr h

theorem cells_slice (h : HAddr H a a') (n c : Nat) : CellsRel H (sliceCells (some a) n c) (sliceCells (some a') n c) :=
  (cells_ptr h).append ((cells_int n).append (cells_int c))

theorem cells_splice {cs cs' new new' : List Cell} (h : CellsRel H cs cs') (hn : CellsRel H new new') (o : Nat) :
    CellsRel H (splice cs o new) (splice cs' o new') := by
  unfold splice
  rw [hn.length]
  exact ((h.take o).append hn).append (h.drop _)

theorem cells_eq_bytes {cs' : List Cell} {bs : Bytes} (h : CellsRel H (byteCells bs) cs') : cs' = byteCells bs := by
  induction bs generalizing cs' with
  | nil => cases h; rfl
  | cons x bs ih =>
    cases h with
    | cons _ y _ ys h1 h2 =>
      cases y <;> simp only [CellRel] at h1
      rw [ih h2, ← h1]; rfl

theorem cells_eq_zero {cs' : List Cell} {n : Nat} (h : CellsRel H (zeroCells n) cs') : cs' = zeroCells n := by
  have : zeroCells n = byteCells (List.replicate n 0#8) := by simp [zeroCells, byteCells]
  rw [this] at h ⊢
  exact cells_eq_bytes h

theorem cells_eq_int {cs' : List Cell} {n : Nat} (h : CellsRel H (intCells n) cs') : cs' = intCells n := by
  unfold intCells at h ⊢
  split at h
  · rw [if_pos (by assumption)]; exact cells_eq_zero h
  · rw [if_neg (by assumption)]
    generalize List.range 8 = ks at h ⊢
    induction ks generalizing cs' with
    | nil => cases h; rfl
    | cons k ks ih =>
      cases h with
      | cons _ y _ ys h1 h2 =>
        cases y <;> simp only [CellRel] at h1
        rw [ih h2, ← h1.1, ← h1.2]; rfl

theorem cells_eq_ptr {cs' : List Cell} (h : CellsRel H (ptrCells (some a)) cs') : ∃ a', cs' = ptrCells (some a') ∧ HAddr H a a' := by
  have key : ∀ (ks : List Nat) (cs' : List Cell) (b : Nat), H a.blk = some b → CellsRel H (ks.map (Cell.ptr a)) cs' →
      cs' = ks.map (Cell.ptr ⟨b, a.off⟩) := by
    intro ks
    induction ks with
    | nil => intro cs' b hb h; cases h; rfl
    | cons k ks ih =>
      intro cs' b hb h
      cases h with
      | cons _ y _ ys h1 h2 =>
        cases y <;> simp only [CellRel] at h1
        rename_i a' k'
        obtain ⟨⟨e1, e2⟩, e3⟩ := h1
        rw [ih _ _ hb h2, e3]
        rw [e1] at hb; cases hb
        simp [e2]
  have h0 := h
  unfold ptrCells at h0
  have : List.range 8 = 0 :: (List.range 7).map (· + 1) := rfl
  rw [this] at h0
  cases h0 with
  | cons _ y _ ys h1 h2 =>
    cases y <;> simp only [CellRel] at h1
    rename_i a' k'
    exact ⟨⟨a'.blk, a.off⟩, key _ _ _ h1.1.1 h, h1.1.1, rfl⟩

theorem asBytes_rel {cs cs' : List Cell} {x : Bytes} (h : CellsRel H cs cs') (hx : asBytes cs = some x) : asBytes cs' = some x := by
  induction h generalizing x with
  | nil => exact hx
  | cons c c' cs cs' h1 _ ih =>
    cases c <;> simp only [asBytes] at hx
    · cases c' <;> simp only [CellRel] at h1
      subst h1
      rcases hy : asBytes cs with _ | y <;> rw [hy] at hx
      · cases hx
      · simp only [asBytes, ih hy]; exact hx
    · cases hx
    · cases hx

theorem asPtr_rel {cs cs' : List Cell} {x : Option Addr} (h : CellsRel H cs cs') (hx : asPtr cs = some x) :
    ∃ x', asPtr cs' = some x' ∧ OptAddr H x x' := by
  unfold asPtr at hx
  split at hx
  · rename_i hc
    cases hx
    subst hc
    refine ⟨none, ?_, trivial⟩
    rw [cells_eq_zero h]; rfl
  · split at hx
    · rename_i a k cs
      split at hx
      · rename_i hc
        cases hx
        rw [hc] at h
        obtain ⟨a', rfl, ha⟩ := cells_eq_ptr h
        refine ⟨some a', ?_, ha⟩
        unfold asPtr
        rw [if_neg (by simp [ptrCells, zeroCells, List.range, List.range.loop])]
        simp [ptrCells, List.range, List.range.loop]
      · cases hx
    · cases hx

theorem asInt_rel {cs cs' : List Cell} {x : Nat} (h : CellsRel H cs cs') (hx : asInt cs = some x) : asInt cs' = some x := by
  unfold asInt at hx
  split at hx
  · rename_i hc
    cases hx
    subst hc
    rw [cells_eq_int h]; rfl
  · split at hx
    · rename_i n k cs h0
      split at hx
      · rename_i hc
        cases hx
        rw [hc] at h
        rw [cells_eq_int h]
        unfold asInt
        rw [hc] at h0
        rw [if_neg h0]
        have : x ≠ 0 := by rintro rfl; exact h0 rfl
        simp [intCells, this, List.range, List.range.loop]
      · cases hx
    · cases hx

theorem obj_mem {cs cs' : List Cell} (h : CellsRel H cs cs') : ObjRel H (.mem cs) (.mem cs') := h
theorem obj_ro (s : Bytes) : ObjRel H (.ro s) (.ro s) := rfl
theorem obj_map : ObjRel H (.map []) (.map []) := All2.nil

/-! Functions that read -/

theorem rel_typed {α : Type} {R : α → α → Prop} {o o' : Option α} (h : ∀ x, o = some x → ∃ x', o' = some x' ∧ R x x') :
    ActRel w (Reads R H S) H S (.lift (typed o)) (.lift (typed o')) := by
  cases o with
  | none => exact .fail _ _ _ _
  | some x =>
    obtain ⟨x', rfl, hr⟩ := h x rfl
    exact .ret _ _ _ _ ⟨rfl, rfl, hr⟩

theorem rel_lift {α : Type} (x : Except Fault α) : ActRel w (Reads Eq H S) H S (.lift x) (.lift x) := by
  cases x with
  | error f => exact .fail _ _ _ _
  | ok x => exact .ret _ _ _ _ ⟨rfl, rfl, rfl⟩

theorem rel_load (h : AddrRel H S a a') (n al : Nat) : ActRel w (Reads (CellsRel H) H S) H S (loadA a n al) (loadA a' n al) :=
  .load _ _ _ _ _ _ _ _ h fun _ _ hc => .ret _ _ _ _ ⟨rfl, rfl, hc⟩

theorem rel_loadPtr (h : AddrRel H S a a') : ActRel w (Reads (OptAddr H) H S) H S (loadPtrA a) (loadPtrA a') := by
  refine rel_bind (rel_load h 8 8) ?_
  rintro _ _ cs cs' ⟨rfl, rfl, hc⟩
  exact rel_typed fun x hx => asPtr_rel hc hx

theorem rel_loadInt (h : AddrRel H S a a') : ActRel w (Reads Eq H S) H S (loadIntA a) (loadIntA a') := by
  refine rel_bind (rel_load h 8 8) ?_
  rintro _ _ cs cs' ⟨rfl, rfl, hc⟩
  exact rel_typed fun x hx => ⟨x, asInt_rel hc hx, rfl⟩

theorem rel_load32 (h : AddrRel H S a a') : ActRel w (Reads Eq H S) H S (load32A a) (load32A a') := by
  refine rel_bind (rel_load h 4 4) ?_
  rintro _ _ cs cs' ⟨rfl, rfl, hc⟩
  refine rel_bind (rel_typed (R := Eq) fun x hx => ⟨x, asBytes_rel hc hx, rfl⟩) ?_
  rintro _ _ x _ ⟨rfl, rfl, rfl⟩
  exact .ret _ _ _ _ ⟨rfl, rfl, rfl⟩

theorem rel_load64 (h : AddrRel H S a a') : ActRel w (Reads Eq H S) H S (load64A a) (load64A a') := by
  refine rel_bind (rel_load h 8 8) ?_
  rintro _ _ cs cs' ⟨rfl, rfl, hc⟩
  refine rel_bind (rel_typed (R := Eq) fun x hx => ⟨x, asBytes_rel hc hx, rfl⟩) ?_
  rintro _ _ x _ ⟨rfl, rfl, rfl⟩
  exact .ret _ _ _ _ ⟨rfl, rfl, rfl⟩

theorem rel_loadBool (h : AddrRel H S a a') : ActRel w (Reads Eq H S) H S (loadBoolA a) (loadBoolA a') := by
  refine rel_bind (rel_load h 1 1) ?_
  rintro _ _ cs cs' ⟨rfl, rfl, hc⟩
  refine rel_bind (rel_typed (R := Eq) fun x hx => ⟨x, asBytes_rel hc hx, rfl⟩) ?_
  rintro _ _ x _ ⟨rfl, rfl, rfl⟩
  exact .ret _ _ _ _ ⟨rfl, rfl, rfl⟩

theorem rel_loadStr (h : AddrRel H S a a') : ActRel w (Reads Eq H S) H S (loadStrA a) (loadStrA a') := by
  refine rel_bind (rel_loadPtr h) ?_
  rintro _ _ d d' ⟨rfl, rfl, hd⟩
  refine rel_bind (rel_loadInt (h.add 8)) ?_
  rintro _ _ n _ ⟨rfl, rfl, rfl⟩
  try dsimp only
  split
  · exact .ret _ _ _ _ ⟨rfl, rfl, rfl⟩
  · rename_i hn
    cases d <;> cases d' <;> simp only [OptAddr] at hd
    · exact .fail _ _ _ _
    · exact .data _ _ _ _ _ _ _ hn hd fun _ => .ret _ _ _ _ ⟨rfl, rfl, rfl⟩

theorem rel_loadBytes (h : AddrRel H S a a') : ActRel w (Reads Eq H S) H S (loadBytesA a) (loadBytesA a') := by
  refine rel_bind (rel_loadPtr h) ?_
  rintro _ _ d d' ⟨rfl, rfl, hd⟩
  refine rel_bind (rel_loadInt (h.add 8)) ?_
  rintro _ _ n _ ⟨rfl, rfl, rfl⟩
  try dsimp only
  cases d <;> cases d' <;> simp only [OptAddr] at hd
  · exact .ret _ _ _ _ ⟨rfl, rfl, rfl⟩
  · dsimp only
    split
    · exact .ret _ _ _ _ ⟨rfl, rfl, rfl⟩
    · rename_i hn
      exact .data _ _ _ _ _ _ _ hn hd fun _ => .ret _ _ _ _ ⟨rfl, rfl, rfl⟩

theorem rel_loadVal (h : AddrRel H S a a') (s : Shape) : ActRel w (Reads Eq H S) H S (loadValA a s) (loadValA a' s) := by
  cases s with
  | b8 =>
    refine rel_bind (rel_loadBool h) ?_
    rintro _ _ x _ ⟨rfl, rfl, rfl⟩
    exact .ret _ _ _ _ ⟨rfl, rfl, rfl⟩
  | w32 =>
    refine rel_bind (rel_load32 h) ?_
    rintro _ _ x _ ⟨rfl, rfl, rfl⟩
    exact .ret _ _ _ _ ⟨rfl, rfl, rfl⟩
  | w64 =>
    refine rel_bind (rel_load64 h) ?_
    rintro _ _ x _ ⟨rfl, rfl, rfl⟩
    exact .ret _ _ _ _ ⟨rfl, rfl, rfl⟩
  | str =>
    refine rel_bind (rel_loadStr h) ?_
    rintro _ _ x _ ⟨rfl, rfl, rfl⟩
    exact .ret _ _ _ _ ⟨rfl, rfl, rfl⟩
  | _ => exact .fail _ _ _ _

theorem rel_entries {d d' : Option Addr} (h : OptAddr H d d') :
    ActRel w (Reads (All2 (EntryRel H)) H S) H S (mapEntriesA d) (mapEntriesA d') := by
  cases d <;> cases d' <;> simp only [OptAddr] at h
  · exact .ret _ _ _ _ ⟨rfl, rfl, .nil⟩
  · exact .entries _ _ _ _ _ _ h fun _ _ he => .ret _ _ _ _ ⟨rfl, rfl, he⟩

theorem rel_index {d d' : Option Addr} (h : OptAddr H d d') (i n : Nat) :
    ActRel w (Reads (HAddr H) H S) H S (.lift (index d i n)) (.lift (index d' i n)) := by
  cases d <;> cases d' <;> simp only [OptAddr] at h
  · exact .fail _ _ _ _
  · exact .ret _ _ _ _ ⟨rfl, rfl, h.add _⟩

/-! ### size and encode -/

theorem rel_sizeNormal (h : AddrRel H S a a') (s : Scalar) (f : FTag) :
    ActRel w (Reads Eq H S) H S (sizeNormalA s a f) (sizeNormalA s a' f) := by
  refine rel_bind (rel_loadVal h _) ?_
  rintro _ _ x _ ⟨rfl, rfl, rfl⟩
  exact rel_lift _

theorem rel_sizeRequired (h : AddrRel H S a a') (s : Scalar) (f : FTag) :
    ActRel w (Reads Eq H S) H S (sizeRequiredA s a f) (sizeRequiredA s a' f) := by
  cases s <;> first
    | exact .ret _ _ _ _ ⟨rfl, rfl, rfl⟩
    | refine rel_bind (rel_loadVal h _) ?_
      rintro _ _ x _ ⟨rfl, rfl, rfl⟩
      exact rel_lift _

theorem rel_sumSizes {α : Type} {R : α → α → Prop} {f f' : α → Act Nat}
    (h : ∀ x x', R x x' → ActRel w (Reads Eq H S) H S (f x) (f' x')) {xs xs' : List α} (hx : All2 R xs xs') :
    ∀ n, ActRel w (Reads Eq H S) H S (sumSizesA f n xs) (sumSizesA f' n xs') := by
  induction hx with
  | nil => intro n; exact .ret _ _ _ _ ⟨rfl, rfl, rfl⟩
  | cons x x' _ _ hr _ ih =>
    intro n
    refine rel_bind (h x x' hr) ?_
    rintro _ _ s _ ⟨rfl, rfl, rfl⟩
    exact ih _

theorem rel_appendAll {α : Type} {R : α → α → Prop} {f f' : Bytes → α → Act Bytes}
    (h : ∀ b x x', R x x' → ActRel w (Reads Eq H S) H S (f b x) (f' b x')) {xs xs' : List α} (hx : All2 R xs xs') :
    ∀ b, ActRel w (Reads Eq H S) H S (appendAllA f b xs) (appendAllA f' b xs') := by
  induction hx with
  | nil => intro n; exact .ret _ _ _ _ ⟨rfl, rfl, rfl⟩
  | cons x x' _ _ hr _ ih =>
    intro n
    refine rel_bind (h _ x x' hr) ?_
    rintro _ _ s _ ⟨rfl, rfl, rfl⟩
    exact ih _

end

/-- A size function of `Model/Conc.lean`, at renamed addresses. -/
def SizeRel (f : Addr → Act Nat) : Prop := ∀ w H S a a', AddrRel H S a a' → ActRel w (Reads Eq H S) H S (f a) (f a')
/-- An encode function. -/
def EncRel (f : Bytes → Addr → Act Bytes) : Prop := ∀ w H S b a a', AddrRel H S a a' → ActRel w (Reads Eq H S) H S (f b a) (f b a')

theorem rel_codecSize {rec} (hrec : ∀ t, SizeRel (rec t)) : ∀ (c : Codec) (f : FTag), SizeRel (fun a => codecSizeA rec c a f)
  | .normal s, f => fun w H S a a' h => by simpa only [codecSizeA] using rel_sizeNormal h s f
  | .required s, f => fun w H S a a' h => by simpa only [codecSizeA] using rel_sizeRequired h s f
  | .option s, f => fun w H S a a' h => by
    simp only [codecSizeA]
    refine rel_bind (rel_loadBool h) ?_
    rintro _ _ x _ ⟨rfl, rfl, rfl⟩
    try dsimp only
    split
    · exact rel_sizeRequired (h.add _) s f
    · exact .ret _ _ _ _ ⟨rfl, rfl, rfl⟩
  | .bytes, f => fun w H S a a' h => by
    simp only [codecSizeA]
    refine rel_bind (rel_loadBytes h) ?_
    rintro _ _ x _ ⟨rfl, rfl, rfl⟩
    exact rel_lift _
  | .ptr _ c, f => fun w H S a a' h => by
    simp only [codecSizeA]
    refine rel_bind (rel_loadPtr h) ?_
    rintro _ _ d d' ⟨rfl, rfl, hd⟩
    cases d <;> cases d' <;> simp only [OptAddr] at hd
    · exact .ret _ _ _ _ ⟨rfl, rfl, rfl⟩
    · exact rel_codecSize hrec c f _ _ _ _ _ hd.rel
  | .msg t, f => fun w H S a a' h => by
    simp only [codecSizeA]
    refine rel_bind (rel_loadPtr h) ?_
    rintro _ _ d d' ⟨rfl, rfl, hd⟩
    cases d <;> cases d' <;> simp only [OptAddr] at hd
    · exact .ret _ _ _ _ ⟨rfl, rfl, rfl⟩
    · refine rel_bind (hrec t _ _ _ _ _ hd.rel) ?_
      rintro _ _ x _ ⟨rfl, rfl, rfl⟩
      exact .ret _ _ _ _ ⟨rfl, rfl, rfl⟩
  | .slice _ c, f => fun w H S a a' h => by
    simp only [codecSizeA]
    refine rel_bind (rel_loadPtr h) ?_
    rintro _ _ d d' ⟨rfl, rfl, hd⟩
    refine rel_bind (rel_loadInt (h.add 8)) ?_
    rintro _ _ n _ ⟨rfl, rfl, rfl⟩
    refine rel_sumSizes (R := Eq) ?_ (.refl_of _ fun _ _ => rfl) _
    rintro i _ rfl
    refine rel_bind (rel_index hd _ _) ?_
    rintro _ _ e e' ⟨rfl, rfl, he⟩
    exact rel_codecSize hrec c f _ _ _ _ _ he.rel
  | .map i kc vc _ _, f => fun w H S a a' h => by
    simp only [codecSizeA]
    refine rel_bind (rel_loadPtr h) ?_
    rintro _ _ d d' ⟨rfl, rfl, hd⟩
    refine rel_bind (rel_entries hd) ?_
    rintro _ _ es es' ⟨rfl, rfl, hes⟩
    refine rel_bind (rel_sumSizes ?_ hes _) ?_
    · rintro e e' he
      refine rel_bind (rel_codecSize hrec kc _ _ _ _ _ _ ⟨.inl he.1, rfl⟩) ?_
      rintro _ _ x _ ⟨rfl, rfl, rfl⟩
      refine rel_bind (rel_codecSize hrec vc _ _ _ _ _ _ ⟨.inl he.2, rfl⟩) ?_
      rintro _ _ x _ ⟨rfl, rfl, rfl⟩
      exact .ret _ _ _ _ ⟨rfl, rfl, rfl⟩
    · rintro _ _ n _ ⟨rfl, rfl, rfl⟩
      try dsimp only
      split <;> exact .ret _ _ _ _ ⟨rfl, rfl, rfl⟩

theorem rel_sizeMsg (lay : Lay) (env : Env) : ∀ d t, SizeRel (sizeMsgA lay env d t)
  | 0, _ => fun _ _ _ _ _ _ => .fail _ _ _ _
  | d + 1, _ => fun w H S a a' h => rel_sumSizes (R := Eq)
      (fun x _ hx => by subst hx; exact rel_codecSize (rel_sizeMsg lay env d) x.codec x.tag w H S _ _ (h.add _))
      (.refl_of _ fun _ _ => rfl) _

theorem rel_codecEncode {sz rec} (hsz : ∀ t, SizeRel (sz t)) (hrec : ∀ t, EncRel (rec t)) :
    ∀ (c : Codec) (f : FTag), EncRel (fun b a => codecEncodeA sz rec c b a f)
  | .normal s, f => fun w H S b a a' h => by
    simp only [codecEncodeA]
    refine rel_bind (rel_loadVal h _) ?_
    rintro _ _ x _ ⟨rfl, rfl, rfl⟩
    exact rel_lift _
  | .required s, f => fun w H S b a a' h => by
    simp only [codecEncodeA]
    refine rel_bind (rel_loadVal h _) ?_
    rintro _ _ x _ ⟨rfl, rfl, rfl⟩
    exact rel_lift _
  | .option s, f => fun w H S b a a' h => by
    simp only [codecEncodeA]
    refine rel_bind (rel_loadBool h) ?_
    rintro _ _ x _ ⟨rfl, rfl, rfl⟩
    try dsimp only
    split
    · refine rel_bind (rel_loadVal (h.add _) _) ?_
      rintro _ _ x _ ⟨rfl, rfl, rfl⟩
      exact rel_lift _
    · exact .ret _ _ _ _ ⟨rfl, rfl, rfl⟩
  | .bytes, f => fun w H S b a a' h => by
    simp only [codecEncodeA]
    refine rel_bind (rel_loadBytes h) ?_
    rintro _ _ x _ ⟨rfl, rfl, rfl⟩
    exact rel_lift _
  | .ptr _ c, f => fun w H S b a a' h => by
    simp only [codecEncodeA]
    refine rel_bind (rel_loadPtr h) ?_
    rintro _ _ d d' ⟨rfl, rfl, hd⟩
    cases d <;> cases d' <;> simp only [OptAddr] at hd
    · exact .ret _ _ _ _ ⟨rfl, rfl, rfl⟩
    · exact rel_codecEncode hsz hrec c f _ _ _ _ _ _ hd.rel
  | .msg t, f => fun w H S b a a' h => by
    simp only [codecEncodeA]
    refine rel_bind (rel_loadPtr h) ?_
    rintro _ _ d d' ⟨rfl, rfl, hd⟩
    cases d <;> cases d' <;> simp only [OptAddr] at hd
    · exact .ret _ _ _ _ ⟨rfl, rfl, rfl⟩
    · refine rel_bind (hsz t _ _ _ _ _ hd.rel) ?_
      rintro _ _ x _ ⟨rfl, rfl, rfl⟩
      exact hrec t _ _ _ _ _ _ hd.rel
  | .slice _ c, f => fun w H S b a a' h => by
    simp only [codecEncodeA]
    refine rel_bind (rel_loadPtr h) ?_
    rintro _ _ d d' ⟨rfl, rfl, hd⟩
    refine rel_bind (rel_loadInt (h.add 8)) ?_
    rintro _ _ n _ ⟨rfl, rfl, rfl⟩
    refine rel_appendAll (R := Eq) ?_ (.refl_of _ fun _ _ => rfl) _
    rintro b i _ rfl
    refine rel_bind (rel_index hd _ _) ?_
    rintro _ _ e e' ⟨rfl, rfl, he⟩
    exact rel_codecEncode hsz hrec c f _ _ _ _ _ _ he.rel
  | .map i kc vc _ _, f => fun w H S b a a' h => by
    simp only [codecEncodeA]
    refine rel_bind (rel_loadPtr h) ?_
    rintro _ _ d d' ⟨rfl, rfl, hd⟩
    refine rel_bind (rel_entries hd) ?_
    rintro _ _ es es' ⟨rfl, rfl, hes⟩
    refine rel_bind (rel_appendAll ?_ hes _) ?_
    · rintro b e e' he
      refine rel_bind (rel_codecSize hsz kc _ _ _ _ _ _ ⟨.inl he.1, rfl⟩) ?_
      rintro _ _ x _ ⟨rfl, rfl, rfl⟩
      refine rel_bind (rel_codecSize hsz kc _ _ _ _ _ _ ⟨.inl he.2, rfl⟩) ?_
      rintro _ _ x _ ⟨rfl, rfl, rfl⟩
      refine rel_bind (rel_codecEncode hsz hrec kc _ _ _ _ _ _ _ ⟨.inl he.1, rfl⟩) ?_
      rintro _ _ x _ ⟨rfl, rfl, rfl⟩
      exact rel_codecEncode hsz hrec vc _ _ _ _ _ _ _ ⟨.inl he.2, rfl⟩
    · rintro _ _ n _ ⟨rfl, rfl, rfl⟩
      try dsimp only
      split <;> exact .ret _ _ _ _ ⟨rfl, rfl, rfl⟩

theorem rel_encodeMsg (lay : Lay) (env : Env) : ∀ d t, EncRel (encodeMsgA lay env d t)
  | 0, _ => fun _ _ _ _ _ _ _ => .fail _ _ _ _
  | d + 1, _ => fun w H S _ a a' h => rel_appendAll (R := Eq)
      (fun b x _ hx => by
        subst hx
        exact rel_codecEncode (rel_sizeMsg lay env d) (rel_encodeMsg lay env d) x.codec x.tag w H S b _ _ (h.add _))
      (.refl_of _ fun _ _ => rfl) _

/-! ### decode -/

section
variable {H : Ren} {S : Scr} {a a' : Addr}

/-- Nothing is returned. -/
abbrev NoRes : Ren → Unit → Unit → Prop := fun _ _ _ => True
/-- The same is returned. -/
abbrev SameRes {α : Type} : Ren → α → α → Prop := fun _ x x' => x = x'

theorem rel_store (h : AddrRel H S a a') {cs cs' : List Cell} (hc : CellsRel H cs cs') (al : Nat) :
    ActRel true (Reads (fun _ _ => True) H S) H S (storeA a cs al) (storeA a' cs' al) :=
  .store _ _ _ _ _ _ _ _ _ rfl h hc (.ret _ _ _ _ ⟨rfl, rfl, trivial⟩)

/-- After an allocation the address is known. -/
theorem rel_alloc {β : Type} {R : Ren → Scr → β → β → Prop} {o o' : Obj} (ho : ObjRel H o o') {f f' : Addr → Act β}
    (hf : ∀ H' d d', More H S H' S → HAddr H' d d' → ActRel true R H' S (f d) (f' d')) :
    ActRel true R H S ((allocA o).bind f) ((allocA o').bind f') :=
  .alloc _ _ _ _ _ _ rfl ho fun b b' hb => hf _ ⟨b, 0⟩ ⟨b', 0⟩ (.add hb) ⟨add_self _ _ _, rfl⟩

theorem rel_storeVal (h : AddrRel H S a a') (v : Val) :
    ActRel true (Writes NoRes H S) H S (storeValA a v) (storeValA a' v) := by
  have fin : ∀ {cs cs' : List Cell} {al : Nat} {H' : Ren}, More H S H' S → CellsRel H' cs cs' →
      ActRel true (Writes NoRes H S) H' S (storeA a cs al) (storeA a' cs' al) := by
    intro cs cs' al H' he hc
    refine rel_mono (rel_store (h.ext he) hc al) ?_
    rintro _ _ _ _ ⟨rfl, rfl, _⟩
    exact ⟨he, trivial⟩
  cases v with
  | b8 x => exact fin (.refl _ _) (cells_bool x)
  | w32 x => exact fin (.refl _ _) (cells_bytes _)
  | w64 x => exact fin (.refl _ _) (cells_bytes _)
  | str s =>
    cases s with
    | nil => exact fin (.refl _ _) ((cells_zero 8).append (cells_int 0))
    | cons x s => exact rel_alloc (obj_ro _) fun H' d d' he hd => fin he ((cells_ptr hd).append (cells_int _))
  | _ => exact .fail _ _ _ _

end

/-- A decode function, at renamed addresses. -/
def DecRel (d : DecA) : Prop := ∀ H S b a a', AddrRel H S a a' → ActRel true (Writes SameRes H S) H S (d b a) (d b a')

theorem writes_bind {α β : Type} {R : Ren → α → α → Prop} {Q : Ren → β → β → Prop} {H : Ren} {S : Scr} {p p' : Act α}
    {f f' : α → Act β} (h : ActRel true (Writes R H S) H S p p')
    (hf : ∀ H' S' x x', More H S H' S' → R H' x x' → ActRel true (Writes Q H' S') H' S' (f x) (f' x')) :
    ActRel true (Writes Q H S) H S (p.bind f) (p'.bind f') := by
  refine rel_bind h ?_
  rintro H' S' x x' ⟨he, hr⟩
  refine rel_mono (hf H' S' x x' he hr) ?_
  rintro H'' S'' y y' ⟨he', hq⟩
  exact ⟨he.trans he', hq⟩

theorem reads_bind {α β : Type} {w : Bool} {R : α → α → Prop} {Q : Ren → Scr → β → β → Prop} {H : Ren} {S : Scr} {p p' : Act α}
    {f f' : α → Act β} (h : ActRel w (Reads R H S) H S p p')
    (hf : ∀ x x', R x x' → ActRel w Q H S (f x) (f' x')) :
    ActRel w Q H S (p.bind f) (p'.bind f') := by
  refine rel_bind h ?_
  rintro _ _ x x' ⟨rfl, rfl, hr⟩
  exact hf x x' hr

theorem alloc_bind {β : Type} {Q : Ren → β → β → Prop} {H : Ren} {S : Scr} {o o' : Obj} (ho : ObjRel H o o') {f f' : Addr → Act β}
    (hf : ∀ H' d d', More H S H' S → HAddr H' d d' → ActRel true (Writes Q H' S) H' S (f d) (f' d')) :
    ActRel true (Writes Q H S) H S ((allocA o).bind f) ((allocA o').bind f') := by
  refine rel_alloc ho fun H' d d' he hd => rel_mono (hf H' d d' he hd) ?_
  rintro H'' S'' y y' ⟨he', hq⟩
  exact ⟨he.trans he', hq⟩

theorem writes_ret {β : Type} {Q : Ren → β → β → Prop} {H : Ren} {S : Scr} {x x' : β} (h : Q H x x') :
    ActRel true (Writes Q H S) H S (.ret x) (.ret x') := .ret _ _ _ _ ⟨.refl _ _, h⟩

theorem writes_store {H : Ren} {S : Scr} {a a' : Addr} (h : AddrRel H S a a') {cs cs' : List Cell} (hc : CellsRel H cs cs') (al : Nat) :
    ActRel true (Writes NoRes H S) H S (storeA a cs al) (storeA a' cs' al) :=
  .store _ _ _ _ _ _ _ _ _ rfl h hc (writes_ret trivial)

theorem dec_scalar (s : Scalar) : DecRel (decodeScalarA s) := by
  intro H S b a a' h
  simp only [decodeScalarA]
  split
  · exact writes_ret rfl
  · refine reads_bind (rel_lift _) ?_
    rintro r _ rfl
    cases r with
    | ok v n => exact writes_bind (rel_storeVal h v) fun _ _ _ _ _ _ => writes_ret rfl
    | err v n => exact writes_bind (rel_storeVal h v) fun _ _ _ _ _ _ => writes_ret rfl

theorem dec_option (s : Scalar) : DecRel (decodeOptionA s) := fun _ _ _ _ _ h =>
  reads_bind (rel_store h (cells_bool true) 1) fun _ _ _ => dec_scalar s _ _ _ _ _ (h.add _)

theorem rel_appendBytes {H : Ren} {S : Scr} {a a' : Addr} (grow : Nat → Nat → Nat) (h : AddrRel H S a a') (v : Bytes) :
    ActRel true (Writes NoRes H S) H S (appendBytesA grow a v) (appendBytesA grow a' v) := by
  refine reads_bind (rel_loadPtr h) fun d d' hd => reads_bind (rel_loadInt (h.add 16)) ?_
  rintro cap _ rfl
  try dsimp only
  split
  · cases d <;> cases d' <;> simp only [OptAddr] at hd
    · exact .fail _ _ _ _
    · exact reads_bind (rel_store hd.rel (cells_bytes v) 1) fun _ _ _ => writes_store h (cells_slice hd _ _) 8
  · exact alloc_bind (obj_mem ((cells_bytes v).append (cells_zero _))) fun H' d d' he hd => writes_store (h.ext he) (cells_slice hd _ _) 8

theorem dec_bytes (grow : Nat → Nat → Nat) : DecRel (decodeBytesA grow) := by
  intro H S b a a' h
  refine reads_bind (rel_lift _) ?_
  rintro r _ rfl
  refine reads_bind (rel_loadPtr h) fun d d' hd => ?_
  cases d <;> cases d' <;> simp only [OptAddr] at hd
  · refine alloc_bind (obj_mem (cells_zero _)) fun H' d d' he hd => reads_bind (rel_store (h.ext he) (cells_slice hd _ _) 8) fun _ _ _ => ?_
    exact writes_bind (rel_appendBytes grow (h.ext he) _) fun _ _ _ _ _ _ => writes_ret rfl
  · exact writes_bind (rel_appendBytes grow h _) fun _ _ _ _ _ _ => writes_ret rfl

theorem index_dec {fs : List DFieldA} (h : ∀ f ∈ fs, DecRel f.dec) (n : Nat) (f : DFieldA) (hf : fieldIndexA fs n = some f) :
    DecRel f.dec := by
  have key : ∀ (fs : List DFieldA) (x : Nat → Option DFieldA), (∀ f ∈ fs, DecRel f.dec) → (∀ n f, x n = some f → DecRel f.dec) →
      ∀ n f, fs.foldl (fun m f => fun n => if n = f.num then some f else m n) x n = some f → DecRel f.dec := by
    intro fs
    induction fs with
    | nil => intro x _ h n f hf; exact h n f hf
    | cons g gs ih =>
      intro x hg hx n f hf
      refine ih _ (fun f hf => hg f (by simp [hf])) ?_ n f hf
      intro n f hf
      dsimp only at hf
      split at hf
      · cases hf; exact hg _ (by simp)
      · exact hx n f hf
  exact key fs (fun _ => none) h (fun _ _ h => by cases h) n f hf

theorem rel_structLoop {idx : Nat → Option DFieldA} (hd : ∀ n f, idx n = some f → DecRel f.dec) (b : Bytes) :
    ∀ fuel offset H S a a', AddrRel H S a a' →
      ActRel true (Writes SameRes H S) H S (structLoopA idx b a fuel offset) (structLoopA idx b a' fuel offset) := by
  intro fuel
  induction fuel with
  | zero =>
    intro offset H S a a' h
    unfold structLoopA
    split
    · exact .fail _ _ _ _
    · exact writes_ret rfl
  | succ fuel ih =>
    intro offset H S a a' h
    unfold structLoopA
    split
    · refine reads_bind (rel_lift _) ?_
      rintro r _ rfl
      rcases decodeTag r with ⟨num, wt, n, err⟩
      cases err with
      | some e => exact writes_ret rfl
      | none =>
        try dsimp only
        cases hi : idx num with
        | none =>
          refine reads_bind (rel_lift _) ?_
          rintro ⟨o, err⟩ _ rfl
          cases err with
          | some e => exact writes_ret rfl
          | none => exact ih _ _ _ _ _ h
        | some f =>
          try dsimp only
          split
          · exact writes_ret rfl
          · refine reads_bind (rel_lift _) ?_
            rintro r _ rfl
            cases r with
            | error e => exact writes_ret rfl
            | ok data =>
              refine writes_bind (hd num f hi _ _ data _ _ (h.add _)) ?_
              rintro H' S' x _ he rfl
              cases x with
              | ok n => exact ih _ _ _ _ _ (h.ext he)
              | error e => exact writes_ret rfl
    · exact writes_ret rfl

theorem dec_struct {fs : List DFieldA} (h : ∀ f ∈ fs, DecRel f.dec) : DecRel (structDecodeA fs) :=
  fun _ _ _ _ _ ha => rel_structLoop (index_dec h) _ _ _ _ _ _ _ ha

theorem rel_assign {H : Ren} {S : Scr} {a a' d d' : Addr} (hd : AddrRel H S d d') (h : AddrRel H S a a') (n al : Nat) :
    ActRel true (Reads (fun _ _ => True) H S) H S (assignA d a n al) (assignA d' a' n al) :=
  reads_bind (rel_load h n al) fun _ _ hc => rel_store hd hc al

theorem rel_growSlice {H : Ren} {S : Scr} {a a' : Addr} (h : AddrRel H S a a') (es al : Nat) :
    ActRel true (Writes NoRes H S) H S (growSliceA a es al) (growSliceA a' es al) := by
  refine reads_bind (rel_loadPtr h) fun d d' hd => reads_bind (rel_loadInt (h.add 8)) ?_
  rintro len _ rfl
  refine reads_bind (rel_loadInt (h.add 16)) ?_
  rintro cap _ rfl
  refine alloc_bind (obj_mem (cells_zero _)) fun H' n n' he hn => ?_
  cases d <;> cases d' <;> simp only [OptAddr] at hd
  · exact writes_store (h.ext he) (cells_slice hn _ _) 8
  · exact reads_bind (rel_assign hn.rel (hd.ext he).rel _ _) fun _ _ _ => writes_store (h.ext he) (cells_slice hn _ _) 8

theorem rel_makeMap {H : Ren} {S : Scr} {a a' : Addr} (h : AddrRel H S a a') :
    ActRel true (Writes NoRes H S) H S (makeMapA a) (makeMapA a') := by
  refine reads_bind (rel_loadPtr h) fun d d' hd => ?_
  cases d <;> cases d' <;> simp only [OptAddr] at hd
  · exact alloc_bind obj_map fun H' d d' he hd => writes_store (h.ext he) (cells_ptr hd) 8
  · exact writes_ret trivial

/-- What a search has found. -/
def OptBlk (H : Ren) : Option Nat → Option Nat → Prop
  | none, none => True
  | some b, some b' => H b = some b'
  | _, _ => False

theorem rel_findKey {H : Ren} {S : Scr} (ks : Shape) (k : Key) {es es' : List (Nat × Nat)} (h : All2 (EntryRel H) es es') :
    ActRel true (Reads (OptBlk H) H S) H S (findKeyA ks k es) (findKeyA ks k es') := by
  induction h with
  | nil => exact .ret _ _ _ _ ⟨rfl, rfl, trivial⟩
  | cons e e' es es' he _ ih =>
    refine reads_bind (rel_loadVal (a := ⟨e.1, 0⟩) (a' := ⟨e'.1, 0⟩) ⟨.inl he.1, rfl⟩ ks) ?_
    rintro v _ rfl
    cases v.toKey? with
    | none => exact .fail _ _ _ _
    | some k' =>
      try dsimp only
      split
      · exact .ret _ _ _ _ ⟨rfl, rfl, he.2⟩
      · exact ih

theorem rel_mapAssign {H : Ren} {S : Scr} (ks vs : Shape) {d d' : Option Addr} {a a' : Addr} (hd : OptAddr H d d')
    (h : AddrRel H S a a') : ActRel true (Writes HAddr H S) H S (mapAssignA ks vs d a) (mapAssignA ks vs d' a') := by
  cases d <;> cases d' <;> simp only [OptAddr] at hd
  · exact .fail _ _ _ _
  · refine reads_bind (rel_entries (d := some _) (d' := some _) hd) fun es es' hes => reads_bind (rel_loadVal h ks) ?_
    rintro v _ rfl
    cases v.toKey? with
    | none => exact .fail _ _ _ _
    | some k =>
      refine reads_bind (rel_findKey ks k hes) fun r r' hr => ?_
      cases r <;> cases r' <;> simp only [OptBlk] at hr
      · refine reads_bind (rel_load h _ _) fun kcs kcs' hk => alloc_bind (obj_mem hk) fun H1 kb kb' he1 hkb =>
          alloc_bind (obj_mem (cells_zero _)) fun H2 vb vb' he2 hvb => ?_
        exact .insert _ _ _ _ _ _ _ _ rfl ((hd.ext he1).ext he2).1 ⟨(hkb.ext he2).1, hvb.1⟩ (writes_ret hvb)
      · exact writes_ret ⟨hr, rfl⟩

theorem rel_release {H0 H : Ren} {S0 S : Scr} {s s' n : Nat} (he : More H0 S0 H S) (hs : (s, s', n) ∈ S)
    (hf : ∀ x ∈ S0, x.1 ≠ s) (x : Except Err Nat) :
    ActRel true (Writes SameRes H0 S0) H S ((storeA ⟨s, 0⟩ (zeroCells n) 1).bind fun _ => .put n s (.ret x))
      ((storeA ⟨s', 0⟩ (zeroCells n) 1).bind fun _ => .put n s' (.ret x)) := by
  refine reads_bind (rel_store (a := ⟨s, 0⟩) (a' := ⟨s', 0⟩) ⟨.inr ⟨n, hs⟩, rfl⟩ (cells_zero n) 1) fun _ _ _ => ?_
  refine .put _ _ _ _ _ _ _ rfl hs (.ret _ _ _ _ ⟨⟨he.ren, fun y hy => ?_⟩, rfl⟩)
  exact (List.mem_erase_of_ne (fun e => hf y hy (by rw [e]))).mpr (he.scr y hy)

theorem dec_codec (grow : Nat → Nat → Nat) (ms : TypeId → Nat) {rec} (hrec : ∀ t, DecRel (rec t)) :
    ∀ c, DecRel (codecDecodeA grow ms rec c)
  | .normal s => by simpa only [codecDecodeA] using dec_scalar s
  | .required s => by simpa only [codecDecodeA] using dec_scalar s
  | .option s => by simpa only [codecDecodeA] using dec_option s
  | .bytes => by simpa only [codecDecodeA] using dec_bytes grow
  | .ptr _ c => by
    intro H S b a a' h
    simp only [codecDecodeA]
    refine reads_bind (rel_loadPtr h) fun d d' hd => ?_
    cases d <;> cases d' <;> simp only [OptAddr] at hd
    · exact alloc_bind (obj_mem (cells_zero _)) fun H' d d' he hd => reads_bind (rel_store (h.ext he) (cells_ptr hd) 8) fun _ _ _ =>
        dec_codec grow ms hrec c _ _ _ _ _ hd.rel
    · exact dec_codec grow ms hrec c _ _ _ _ _ hd.rel
  | .msg t => by
    intro H S b a a' h
    simp only [codecDecodeA]
    refine writes_bind (R := HAddr) ?_ ?_
    · refine reads_bind (rel_loadPtr h) fun d d' hd => ?_
      cases d <;> cases d' <;> simp only [OptAddr] at hd
      · exact alloc_bind (obj_mem (cells_zero _)) fun H' d d' he hd => reads_bind (rel_store (h.ext he) (cells_ptr hd) 8) fun _ _ _ =>
          writes_ret hd
      · exact writes_ret hd
    · intro H' S' d d' he hd
      rcases decodeVarint b with ⟨_, n, err⟩
      cases err with
      | some e => exact writes_ret rfl
      | none =>
        refine reads_bind (rel_lift _) ?_
        rintro r _ rfl
        refine writes_bind (hrec t _ _ r _ _ hd.rel) ?_
        rintro H'' S'' x _ he' rfl
        cases x <;> exact writes_ret rfl
  | .slice _ c => by
    intro H S b a a' h
    simp only [codecDecodeA]
    refine reads_bind (rel_loadInt (h.add 8)) ?_
    rintro i _ rfl
    refine reads_bind (rel_loadInt (h.add 16)) ?_
    rintro cap _ rfl
    refine writes_bind (R := NoRes) ?_ ?_
    · split
      · exact rel_growSlice h _ _
      · exact writes_ret trivial
    · intro H' S' _ _ he _
      refine reads_bind (rel_loadPtr (h.ext he)) fun d d' hd => reads_bind (rel_index hd _ _) fun e e' hee => ?_
      refine writes_bind (dec_codec grow ms hrec c _ _ b _ _ hee.rel) ?_
      rintro H'' S'' x _ he' rfl
      cases x with
      | ok n => exact reads_bind (rel_store (((h.ext he).ext he').add 8) (cells_int _) 8) fun _ _ _ => writes_ret rfl
      | error e => exact writes_ret rfl
  | .map i kc vc kd vd => by
    intro H S b a a' h
    simp only [codecDecodeA]
    refine writes_bind (rel_makeMap h) ?_
    intro H S _ _ he _
    replace h := h.ext he
    try dsimp only
    split
    · exact writes_ret rfl
    · refine rel_bind (Q := fun H' S' s s' => H' = H ∧ S' = (s, s', entrySize kc.shape vc.shape) :: S ∧ ∀ x ∈ S, x.1 ≠ s)
        (.get _ _ _ _ _ rfl fun s s' hf => .ret _ _ _ _ ⟨rfl, rfl, hf⟩) ?_
      rintro H' _ s s' ⟨hH, rfl, hf⟩
      rw [hH]
      have hm : (s, s', entrySize kc.shape vc.shape) ∈ (s, s', entrySize kc.shape vc.shape) :: S := by simp
      have hadd : More H S H ((s, s', entrySize kc.shape vc.shape) :: S) := ⟨fun _ _ h => h, fun x hx => by simp [hx]⟩
      rcases decodeVarint b with ⟨_, nl, err⟩
      cases err with
      | some e => exact .ret _ _ _ _ ⟨hadd, rfl⟩
      | none =>
        try dsimp only
        have hfs : ∀ f ∈ ([{ num := wtNumber i.eKey, wt := wtType i.eKey, off := 0, dec := codecDecodeA grow ms rec kd },
             { num := wtNumber i.eVal, wt := wtType i.eVal, off := valueOffset kc.shape vc.shape,
               dec := codecDecodeA grow ms rec vd }] : List DFieldA), DecRel f.dec := by
          intro f hf
          simp only [List.mem_cons, List.not_mem_nil, or_false] at hf
          rcases hf with rfl | rfl
          · exact dec_codec grow ms hrec kd
          · exact dec_codec grow ms hrec vd
        refine reads_bind (rel_lift _) ?_
        rintro r _ rfl
        refine rel_bind (dec_struct hfs _ _ r ⟨s, 0⟩ ⟨s', 0⟩ ⟨.inr ⟨_, hm⟩, rfl⟩) ?_
        rintro H1 S1 x _ ⟨he1, rfl⟩
        cases x with
        | error e => exact rel_release (hadd.trans he1) (he1.scr _ hm) hf (.error e)
        | ok n =>
          have h1 := (h.ext hadd).ext he1
          refine reads_bind (rel_loadPtr h1) fun d d' hd => ?_
          refine rel_bind (rel_mapAssign kc.shape vc.shape hd ⟨.inr ⟨_, he1.scr _ hm⟩, rfl⟩) ?_
          rintro H2 S2 v v' ⟨he2, hv⟩
          have hm2 := he2.scr _ (he1.scr _ hm)
          refine reads_bind (rel_assign hv.rel (AddrRel.add (a := ⟨s, 0⟩) (a' := ⟨s', 0⟩) ⟨.inr ⟨_, hm2⟩, rfl⟩ _) _ _) fun _ _ _ => ?_
          exact rel_release ((hadd.trans he1).trans he2) hm2 hf (.ok (n + nl))

theorem dec_msg (grow : Nat → Nat → Nat) (lay : Lay) (env : Env) : ∀ d t, DecRel (decodeMsgA grow lay env d t)
  | 0, _ => fun _ _ _ _ _ _ => .fail _ _ _ _
  | d + 1, t => dec_struct fun f hf => by
    simp only [dfieldsA, List.mem_map] at hf
    obtain ⟨g, _, rfl⟩ := hf
    exact dec_codec grow lay.size (dec_msg grow lay env d) g.codec

/-- The message of a call. -/
def Req.addr : Req → Addr
  | .size _ _ a | .marshal _ _ a | .unmarshal _ _ a => a

/-- Whether a call may write. -/
def Req.writer : Req → Bool
  | .unmarshal _ _ _ => true
  | _ => false

theorem rel_req (grow : Nat → Nat → Nat) (lay : Lay) (env : Env) (r : Req) {H : Ren} {S : Scr}
    (h : AddrRel H S r.addr r.addr) :
    ActRel r.writer (fun _ _ x x' => x = x') H S (reqAct grow lay env r) (reqAct grow lay env r) := by
  cases r with
  | size d t a =>
    refine reads_bind (rel_sizeMsg lay env d t _ _ _ _ _ h) ?_
    rintro n _ rfl
    exact .ret _ _ _ _ rfl
  | marshal d t a =>
    refine reads_bind (rel_sizeMsg lay env d t _ _ _ _ _ h) ?_
    rintro n _ rfl
    refine reads_bind (rel_encodeMsg lay env d t _ _ _ _ _ _ h) ?_
    rintro n _ rfl
    exact .ret _ _ _ _ rfl
  | unmarshal b t a =>
    simp only [reqAct]
    split
    · exact .ret _ _ _ _ rfl
    · refine rel_bind (dec_msg grow lay env _ t _ _ b _ _ h) ?_
      rintro H' S' x _ ⟨_, rfl⟩
      cases x with
      | error e => exact .ret _ _ _ _ rfl
      | ok n =>
        try dsimp only
        split <;> exact .ret _ _ _ _ rfl

end Pb.Flat
