import Verif.Proofs.Heap
import Verif.Spec.Typing
/-
Decoding with memory gives the values of `Model/Codec.lean`, if nothing overlaps.
-/
namespace Pb
open Spec

theorem read_congr {m m' : Arena} {p n : Nat} (h : ∀ x, p ≤ x → x < p + n → m'.data x = m.data x) :
    m'.read p n = m.read p n := by
  unfold Arena.read
  apply List.map_congr_left
  intro i hi
  have := List.mem_range.mp hi
  exact h _ (by omega) (by omega)

/-- The contents of the slices are the same. -/
def Same (m m' : Arena) (hs : List Hdr) : Prop := ∀ h ∈ hs, ∀ x, h.ptr ≤ x → x < h.ptr + h.len → m'.data x = m.data x

mutual
theorem abs_congr {m m' : Arena} : ∀ (v : HVal), Same m m' v.arrays → v.abs m' = v.abs m
  | .b8 _, _ => rfl
  | .w32 _, _ => rfl
  | .w64 _, _ => rfl
  | .str _, _ => rfl
  | .bytes none, _ => rfl
  | .bytes (some h), hs => by
    simp only [HVal.abs]
    rw [read_congr (hs h (by simp [HVal.arrays]))]
  | .opt s v, h => by simp only [HVal.abs]; rw [abs_congr v h]
  | .nilp, _ => rfl
  | .ptr v, h => by simp only [HVal.abs]; rw [abs_congr v h]
  | .struct fs, h => by simp only [HVal.abs]; rw [absL_congr fs h]
  | .slice n es sp, h => by
    simp only [HVal.abs]
    rw [absL_congr es fun a ha => h a (by simp [HVal.arrays, ha]), absL_congr sp fun a ha => h a (by simp [HVal.arrays, ha])]
  | .map n es, h => by simp only [HVal.abs]; rw [absM_congr es h]
  | .opaque _, _ => rfl
theorem absL_congr {m m' : Arena} : ∀ (vs : List HVal), Same m m' (HVal.arraysL vs) → HVal.absL m' vs = HVal.absL m vs
  | [], _ => rfl
  | v :: vs, h => by
    simp only [HVal.absL]
    rw [abs_congr v fun a ha => h a (by simp [HVal.arraysL, ha]), absL_congr vs fun a ha => h a (by simp [HVal.arraysL, ha])]
theorem absM_congr {m m' : Arena} : ∀ (es : List (Key × HVal)), Same m m' (HVal.arraysM es) →
    HVal.absM m' es = HVal.absM m es
  | [], _ => rfl
  | (k, v) :: es, h => by
    simp only [HVal.absM]
    rw [abs_congr v fun a ha => h a (by simp [HVal.arraysM, ha]), absM_congr es fun a ha => h a (by simp [HVal.arraysM, ha])]
end

theorem absL_append (m : Arena) : ∀ (a b : List HVal), HVal.absL m (a ++ b) = HVal.absL m a ++ HVal.absL m b
  | [], _ => rfl
  | v :: a, b => by simp [HVal.absL, absL_append m a b]

theorem absL_length (m : Arena) : ∀ (a : List HVal), (HVal.absL m a).length = a.length
  | [] => rfl
  | v :: a => by simp [HVal.absL, absL_length m a]

theorem absL_get (m : Arena) : ∀ (a : List HVal) (i : Nat), (HVal.absL m a)[i]? = a[i]?.map (HVal.abs m)
  | [], _ => rfl
  | v :: a, 0 => rfl
  | v :: a, i + 1 => by simp [HVal.absL, absL_get m a i]

/-- The slot afterwards, as a value. -/
def HRes.abs (m : Arena) : HRes → DRes
  | .ok v n => .ok (v.abs m) n
  | .err v e => .err (v.abs m) e

/-- A zero value has no byte slices. -/
def Clean (z : Val) : Prop := ∀ m, (HVal.ofVal z).abs m = z

theorem clean_zero : ∀ s : Shape, Clean s.zero
  | .b8, _ => rfl
  | .w32, _ => rfl
  | .w64, _ => rfl
  | .str, _ => rfl
  | .bytes, _ => rfl
  | .opt s, m => by simp only [Shape.zero, HVal.ofVal, HVal.abs]; rw [clean_zero s]
  | .ptr _, _ => rfl
  | .msg _, _ => rfl
  | .slice _, _ => rfl
  | .map _ _, _ => rfl
  | .opaque, _ => rfl

theorem clean_struct (l : List Shape) : Clean (.struct (l.map Shape.zero)) := by
  intro m
  simp only [HVal.ofVal, HVal.abs]
  congr 1
  induction l with
  | nil => rfl
  | cons s l ih => simp only [List.map_cons, HVal.ofValL, HVal.absL]; rw [clean_zero s, ih]

theorem win_length (m : Arena) (b : Win) : (m.win b).length = b.len := by simp [Arena.win, Arena.read]

theorem win_get (m : Arena) (b : Win) (i : Nat) (h : i < (m.win b).length) : (m.win b)[i] = m.data (b.ptr + i) := by
  simp [Arena.win, Arena.read]

/-- A section of the input. -/
theorem win_sub {m : Arena} {b : Win} {a d r : Bytes} (h : m.win b = a ++ (d ++ r)) :
    m.win ⟨b.ptr + a.length, d.length⟩ = d := by
  apply List.ext_getElem
  · simp [win_length]
  · intro i h1 h2
    rw [win_get]
    have hl := congrArg List.length h
    rw [win_length] at hl
    simp at hl
    have : (m.win b)[a.length + i]? = some d[i] := by
      rw [h, List.getElem?_append_right (by omega)]
      simp [List.getElem?_append_left h2]
    have hlt : a.length + i < (m.win b).length := by rw [win_length]; omega
    rw [List.getElem?_eq_getElem hlt, Option.some.injEq, win_get] at this
    rw [← this, Nat.add_assoc]

theorem inputApart_sub {b : Win} {hs : List Hdr} (h : InputApart b hs) {o l : Nat} (hol : o + l ≤ b.len) :
    InputApart ⟨b.ptr + o, l⟩ hs := by
  intro a ha x hx
  refine h a ha x ?_
  simp only [Win.holds] at *
  omega

theorem inputApart_mono {b : Win} {hs hs' : List Hdr} (h : InputApart b hs) (hin : ∀ a ∈ hs', a ∈ hs) :
    InputApart b hs' := fun a ha => h a (hin a ha)

theorem MemGrows.input {m hs m' hs'} (h : MemGrows m hs m' hs') {b : Win} (hb : InputApart b hs) (hn : b.ptr + b.len ≤ m.next) :
    m'.win b = m.win b ∧ InputApart b hs' ∧ b.ptr + b.len ≤ m'.next := by
  refine ⟨read_congr fun x h1 h2 => h.data x (by omega) ?_, fun a ha x hx hx' => ?_, ?_⟩
  · rintro ⟨a, ha, hx⟩
    exact hb a ha x ⟨h1, h2⟩ hx
  · simp only [Win.holds] at hx
    rcases h.own x ⟨a, ha, hx'⟩ with ⟨c, hc, hc'⟩ | h
    · exact hb c hc x hx hc'
    · omega
  · have := h.next; omega

/-- What other slices hold is not changed. -/
theorem MemGrows.same {m B m' B'} (h : MemGrows m B m' B') {A : List Hdr} (hok : Alloc m A)
    (hap : ∀ a ∈ A, ∀ b ∈ B, HdrApart a b) : Same m m' A := by
  intro a ha x h1 h2
  have := hok a ha
  refine h.data x (by omega) ?_
  rintro ⟨b, hb, hx⟩
  exact hap a ha b hb x ⟨h1, by omega⟩ hx

theorem MemGrows.apart {m B m' B'} (h : MemGrows m B m' B') {A : List Hdr} (hok : Alloc m A)
    (hap : ∀ a ∈ A, ∀ b ∈ B, HdrApart a b) : ∀ a ∈ A, ∀ b ∈ B', HdrApart a b := by
  intro a ha b hb x hx hx'
  have := hok a ha
  rcases h.own x ⟨b, hb, hx'⟩ with ⟨c, hc, hc'⟩ | hge
  · exact hap a ha c hc x hx hc'
  · simp only [Hdr.holds] at hx; omega

theorem HdrApart.symm {a b : Hdr} (h : HdrApart a b) : HdrApart b a := fun x hb ha => h x ha hb

theorem separate_append {A B : List Hdr} :
    Separate (A ++ B) ↔ Separate A ∧ Separate B ∧ ∀ a ∈ A, ∀ b ∈ B, HdrApart a b := by
  unfold Separate; rw [List.pairwise_append]

/-- Some slices are replaced. -/
theorem sep_replace {m m' : Arena} {A B B' C : List Hdr} (hs : Separate (A ++ (B ++ C))) (hok : Alloc m (A ++ (B ++ C)))
    (h : MemGrows m B m' B') (hs' : Separate B') : Separate (A ++ (B' ++ C)) := by
  simp only [separate_append, List.mem_append] at hs ⊢
  obtain ⟨hA, ⟨_, hC, hBC⟩, hABC⟩ := hs
  have hA' := h.apart (A := A) (alloc_mono hok (by simp +contextual)) fun a ha b hb => hABC a ha b (.inl hb)
  have hC' := h.apart (A := C) (alloc_mono hok (by simp +contextual)) fun a ha b hb => HdrApart.symm (hBC b hb a ha)
  refine ⟨hA, ⟨hs', hC, fun b hb c hc => HdrApart.symm (hC' c hc b hb)⟩, ?_⟩
  rintro a ha b (hb | hb)
  · exact hA' a ha b hb
  · exact hABC a ha b (.inr hb)

theorem set_split {α} {vs : List α} {o : Nat} {v : α} (h : vs[o]? = some v) :
    ∃ A C, vs = A ++ v :: C ∧ A.length = o ∧ ∀ w, vs.set o w = A ++ w :: C := by
  induction vs generalizing o with
  | nil => simp at h
  | cons x vs ih =>
    cases o with
    | zero =>
      simp at h
      subst h
      exact ⟨[], vs, rfl, rfl, fun _ => rfl⟩
    | succ o =>
      obtain ⟨A, C, h1, h3, h2⟩ := ih (by simpa using h)
      exact ⟨x :: A, C, by rw [h1]; rfl, by simp [h3], fun w => by simp [h2]⟩

/-- One slot of several is decoded into. -/
theorem sep_slot {m m' : Arena} {A C : List HVal} {v w : HVal} (hs : Separate (HVal.arraysL (A ++ v :: C)))
    (hok : Alloc m (HVal.arraysL (A ++ v :: C))) (h : MemGrows m v.arrays m' w.arrays) (hs' : Separate w.arrays) :
    Separate (HVal.arraysL (A ++ w :: C)) ∧
    HVal.absL m' A = HVal.absL m A ∧ HVal.absL m' C = HVal.absL m C := by
  simp only [arraysL_append, HVal.arraysL] at hs hok ⊢
  refine ⟨sep_replace hs hok h hs', ?_⟩
  simp only [separate_append, List.mem_append] at hs
  obtain ⟨hA, ⟨_, hC, hBC⟩, hABC⟩ := hs
  exact ⟨absL_congr _ (h.same (alloc_mono hok (by simp +contextual)) fun a ha b hb => hABC a ha b (.inl hb)),
    absL_congr _ (h.same (alloc_mono hok (by simp +contextual)) fun a ha b hb => HdrApart.symm (hBC b hb a ha))⟩

/-- The decode function with memory has the same results. -/
def Sim (d : DecH) (e : Bytes → Val → Except Fault DRes) : Prop :=
  ∀ b v m r, Alloc m v.arrays → Separate v.arrays → InputApart b v.arrays → b.ptr + b.len ≤ m.next →
    e (m.win b) (v.abs m) = .ok r →
    ∃ r' m', d b v m = .ok (r', m') ∧ r'.abs m' = r ∧ Separate r'.val.arrays

theorem separate_nil : Separate [] := List.Pairwise.nil
theorem separate_one (h : Hdr) : Separate [h] := by simp [Separate]

theorem read_write (m : Arena) (p : Nat) (bs : Bytes) : (m.write p bs).read p bs.length = bs := by
  apply List.ext_getElem
  · simp [Arena.read]
  · intro i h1 h2
    simp [Arena.read, Arena.write, h2]

theorem append_read (grow : Nat → Nat → Nat) (m : Arena) (h : Hdr) (v : Bytes) :
    (m.append grow h v).2.read (m.append grow h v).1.ptr (m.append grow h v).1.len = v := by
  unfold Arena.append
  split
  · exact read_write m h.ptr v
  · exact read_write _ m.next v

theorem abs_mk (m : Arena) (v : HVal) (n : Nat) (e : Option Err) : (HRes.mk v n e).abs m = DRes.mk (v.abs m) n e := by
  cases e <;> rfl

theorem sim_bytes (grow : Nat → Nat → Nat) : Sim (decodeBytesH grow) decodeBytes := by
  intro b v m r hok hs hb hn h
  unfold decodeBytes at h
  unfold decodeBytesH
  simp only [bind, Except.bind, pure, Except.pure] at h ⊢
  generalize decodeVarlen (m.win b) = q at h ⊢
  rcases q with e | ⟨d, n, err⟩
  · cases h
  cases v with
  | bytes o =>
    cases o with
    | some h0 =>
      cases h
      refine ⟨_, _, rfl, ?_, ?_⟩
      · rw [abs_mk]; simp only [HVal.abs, append_read]
      · rw [val_mk]; exact separate_one _
    | none =>
      cases h
      refine ⟨_, _, rfl, ?_, ?_⟩
      · rw [abs_mk]; simp only [HVal.abs, append_read]
      · rw [val_mk]; exact separate_one _
  | _ => cases h

/-- The results of scalar decode functions have no byte slices. -/
theorem clean_scalar {s : Scalar} {b : Bytes} {p : Val} {r : DRes} (hb : ¬ (s = .bool ∧ b = []))
    (h : decodeScalar s b p = .ok r) (m : Arena) : (HRes.ofDRes r).abs m = r := by
  have key : ∀ (v : Val) (n : Nat) (e : Option Err), Clean v → (HRes.ofDRes (DRes.mk v n e)).abs m = DRes.mk v n e := by
    intro v n e hv
    cases e <;> simp only [DRes.mk, HRes.ofDRes, HRes.abs] <;> rw [hv m]
  have k32 : ∀ (x : U32) (n : Nat) (e : Option Err),
      ((write32 p x).bind fun p => Except.ok (DRes.mk p n e)) = .ok r → (HRes.ofDRes r).abs m = r := by
    intro x n e h
    cases p <;> cases h
    exact key _ _ _ fun _ => rfl
  have k64 : ∀ (x : U64) (n : Nat) (e : Option Err),
      ((write64 p x).bind fun p => Except.ok (DRes.mk p n e)) = .ok r → (HRes.ofDRes r).abs m = r := by
    intro x n e h
    cases p <;> cases h
    exact key _ _ _ fun _ => rfl
  cases s with
  | bool =>
    cases b with
    | nil => exact absurd ⟨rfl, rfl⟩ hb
    | cons c b =>
      cases p <;> cases h
      rfl
  | string =>
    simp only [decodeScalar, bind, Except.bind, pure, Except.pure] at h
    generalize decodeVarlen b = q at h
    rcases q with e | ⟨d, n, err⟩
    · cases h
    simp only at h
    split at h <;> cases p <;> cases h <;> exact key _ _ _ fun _ => rfl
  | float32 => exact k32 _ _ _ h
  | float64 => exact k64 _ _ _ h
  | int32 => exact k32 _ _ _ h
  | int64 => exact k64 _ _ _ h
  | uint32 => exact k32 _ _ _ h
  | fixed32 => exact k32 _ _ _ h
  | uint64 => exact k64 _ _ _ h
  | fixed64 => exact k64 _ _ _ h
  | zigzag32 => exact k32 _ _ _ h
  | zigzag64 => exact k64 _ _ _ h

theorem sim_scalar (s : Scalar) : Sim (decodeScalarH s) (decodeScalar s) := by
  intro b v m r hok hs hb hn h
  unfold decodeScalarH
  split
  · next hc =>
    obtain ⟨rfl, hc⟩ := hc
    rw [hc] at h
    cases h
    exact ⟨_, _, rfl, rfl, hs⟩
  · next hc =>
    simp only [bind, Except.bind, pure, Except.pure, h]
    exact ⟨_, _, rfl, clean_scalar hc h m, by rw [arrays_ofDRes]; exact separate_nil⟩

theorem abs_wrap {f : HVal → HVal} {g : Val → Val} {m : Arena} (hf : ∀ v, (f v).abs m = g (v.abs m)) (r : HRes) :
    (r.wrap f).abs m = (r.abs m).wrap g := by
  cases r <;> simp only [HRes.wrap, HRes.abs, DRes.wrap, hf]

theorem sim_option (s : Scalar) : Sim (decodeOptionH s) (decodeOption s) := by
  intro b v m r hok hs hb hn h
  unfold decodeOption at h
  unfold decodeOptionH
  cases v with
  | opt o v =>
    simp only [HVal.abs, bind, Except.bind, pure, Except.pure] at h ⊢
    rcases he : decodeScalar s (m.win b) (v.abs m) with e | r0
    · simp [he] at h
    simp only [he] at h
    cases h
    obtain ⟨r', m', h1, h2, h3⟩ := sim_scalar s b v m r0 hok hs hb hn he
    rw [h1]
    refine ⟨_, _, rfl, ?_, ?_⟩
    · rw [abs_wrap (g := Val.opt true) (fun _ => rfl), h2]
    · rw [val_wrap]; exact h3
  | bytes o => cases o <;> cases h
  | _ => cases h

/-- Related fields. -/
structure FieldSim (f : HField) (g : DField) : Prop where
  num : f.num = g.num
  wt : f.wt = g.wt
  offset : f.offset = g.offset
  tame : Tame f.dec
  sim : Sim f.dec g.dec

/-- Related indices. -/
def IdxSim (i : Nat → Option HField) (j : Nat → Option DField) : Prop :=
  ∀ n, (i n = none ∧ j n = none) ∨ ∃ f g, i n = some f ∧ j n = some g ∧ FieldSim f g

theorem idx_sim {l : List (HField × DField)} (h : ∀ p ∈ l, FieldSim p.1 p.2) :
    IdxSim (fieldIndexH (l.map Prod.fst)) (fieldIndex (l.map Prod.snd)) := by
  have key : ∀ (l : List (HField × DField)) (i : Nat → Option HField) (j : Nat → Option DField),
      (∀ p ∈ l, FieldSim p.1 p.2) → IdxSim i j →
      IdxSim ((l.map Prod.fst).foldl (fun m f => fun n => if n = f.num then some f else m n) i)
        ((l.map Prod.snd).foldl (fun m f => fun n => if n = f.num then some f else m n) j) := by
    intro l
    induction l with
    | nil => intro i j _ h; exact h
    | cons p l ih =>
      intro i j hl h
      refine ih _ _ (fun q hq => hl q (List.mem_cons_of_mem _ hq)) fun n => ?_
      have hp := hl p (by simp)
      have := hp.num
      by_cases hn : n = p.1.num
      · right
        exact ⟨p.1, p.2, by simp [hn], by simp [hn, this], hp⟩
      · have hn' : n ≠ p.2.num := by omega
        simp only [hn, hn', if_false]
        exact h n
  exact key l _ _ h fun n => .inl ⟨rfl, rfl⟩

theorem sim_loop {i : Nat → Option HField} {j : Nat → Option DField} (hij : IdxSim i j) (b : Win) :
    ∀ fuel o vs m r, Alloc m (HVal.arraysL vs) → Separate (HVal.arraysL vs) → InputApart b (HVal.arraysL vs) →
      b.ptr + b.len ≤ m.next → structLoop j (m.win b) fuel o (HVal.absL m vs) = .ok r →
      ∃ r' m', structLoopH i b fuel o vs m = .ok (r', m') ∧ r'.abs m' = r ∧ Separate r'.val.arrays := by
  intro fuel
  induction fuel with
  | zero =>
    intro o vs m r hok hs hb hn h
    unfold structLoop at h
    unfold structLoopH
    rw [win_length] at h
    split
    · next hc => simp [hc] at h
    · next hc =>
      simp only [hc, if_false] at h
      cases h
      exact ⟨_, _, rfl, rfl, hs⟩
  | succ fuel ih =>
    intro o vs m r hok hs hb hn h
    unfold structLoop at h
    unfold structLoopH
    rw [win_length] at h
    split
    · next hc =>
      simp only [hc, if_true, bind, Except.bind, pure, Except.pure] at h ⊢
      have hlen := win_length m b
      rw [goFrom_eq (by omega)] at h ⊢
      rcases hd : decodeTag ((m.win b).drop o) with ⟨num, wt, n, _ | e⟩
      · simp only [hd] at h ⊢
        have hon : o + n ≤ (m.win b).length := by
          have := decodeTag_le hd; simp at this; omega
        rcases hij num with ⟨h1, h2⟩ | ⟨f, g, h1, h2, hfg⟩
        · simp only [h1, h2] at h ⊢
          generalize skipUnknown (m.win b) (o + n) wt = q at h ⊢
          rcases q with e | ⟨o', _ | e⟩
          · cases h
          · exact ih _ _ _ _ hok hs hb hn h
          · cases h
            exact ⟨_, _, rfl, rfl, hs⟩
        · simp only [h1, h2, hfg.wt] at h ⊢
          split
          · next hw =>
            rw [if_pos hw] at h
            cases h
            exact ⟨_, _, rfl, rfl, hs⟩
          · next hw =>
            simp only [hw, if_false, fieldData_eq hon] at h ⊢
            rcases ht : takePayload ((m.win b).drop (o + n)) wt with e | ⟨data, rest⟩
            · simp only [ht] at h ⊢
              cases h
              exact ⟨_, _, rfl, rfl, hs⟩
            · simp only [ht] at h ⊢
              have happ : m.win b = (m.win b).take (o + n) ++ (data ++ rest) := by
                rw [← takePayload_append ht, List.take_append_drop]
              have hwin : m.win ⟨b.ptr + (o + n), data.length⟩ = data := by
                have := win_sub happ
                rwa [List.length_take, Nat.min_eq_left hon] at this
              have hdl : (o + n) + data.length ≤ b.len := by
                have := congrArg List.length happ
                simp at this
                omega
              rw [slotOf, absL_get] at h
              unfold slotOfH
              rw [hfg.offset]
              cases hv : vs[g.offset]? with
              | none => simp [hv] at h
              | some v =>
                simp only [hv, Option.map] at h ⊢
                obtain ⟨A, C, hvs, hA, hset⟩ := set_split hv
                have hsub : ∀ a ∈ v.arrays, a ∈ HVal.arraysL vs := fun a ha =>
                  mem_arraysL.mpr ⟨v, List.mem_of_getElem? hv, ha⟩
                have hokv := alloc_mono hok hsub
                have hsv : Separate v.arrays := by
                  rw [hvs] at hs
                  simp only [arraysL_append, HVal.arraysL, separate_append] at hs
                  exact hs.2.1.1
                rcases hg : g.dec data (v.abs m) with e | r0
                · simp [hg] at h
                · have hg' := hg
                  rw [← hwin] at hg'
                  obtain ⟨r', m', hd', ha, hsep⟩ := hfg.sim _ v m r0 hokv hsv
                    (inputApart_sub (inputApart_mono hb hsub) hdl) (by simp only; omega) hg'
                  have hG := hfg.tame _ _ _ _ _ hokv hd'
                  have hGs := grows_set hv hG hok
                  obtain ⟨hw', hb', hn'⟩ := hGs.input hb hn
                  have hslot := sep_slot (w := r'.val) (hvs ▸ hs) (hvs ▸ hok) hG hsep
                  have habs : HVal.absL m' (vs.set g.offset r'.val) =
                      (HVal.absL m vs).set g.offset (r'.val.abs m') := by
                    rw [hset, absL_append, HVal.absL, hslot.2.1, hslot.2.2, hvs, absL_append, HVal.absL, ← hA,
                      ← absL_length m A]
                    simp
                  rw [hd']
                  cases r' with
                  | ok w k =>
                    simp only [HRes.abs] at ha
                    subst ha
                    simp only [hg] at h
                    simp only [HRes.val] at *
                    rw [← habs, ← hw'] at h
                    exact ih _ _ _ _ hGs.ok (hset w ▸ hslot.1) hb' hn' h
                  | err w k =>
                    simp only [HRes.abs] at ha
                    subst ha
                    simp only [hg] at h
                    cases h
                    simp only [HRes.val] at *
                    refine ⟨_, _, rfl, ?_, ?_⟩
                    · simp only [HRes.abs, HVal.abs, habs]
                    · exact hset w ▸ hslot.1
      · simp only [hd] at h ⊢
        cases h
        exact ⟨_, _, rfl, rfl, hs⟩
    · next hc =>
      simp only [hc, if_false] at h
      cases h
      exact ⟨_, _, rfl, rfl, hs⟩

theorem sim_struct {l : List (HField × DField)} (h : ∀ p ∈ l, FieldSim p.1 p.2) :
    Sim (structDecodeH (l.map Prod.fst)) (structDecode (l.map Prod.snd)) := by
  intro b v m r hok hs hb hn he
  unfold structDecode at he
  unfold structDecodeH
  cases v with
  | struct vs =>
    simp only [HVal.abs] at he ⊢
    rw [win_length] at he
    exact sim_loop (idx_sim h) b _ _ _ _ _ hok hs hb hn he
  | bytes o => cases o <;> cases he
  | _ => cases he

theorem absL_replicate (m : Arena) (n : Nat) (v : HVal) : HVal.absL m (List.replicate n v) = List.replicate n (v.abs m) := by
  induction n with
  | zero => rfl
  | succ n ih => simp [List.replicate_succ, HVal.absL, ih]

theorem growIfFull_abs {z : Val} (hz : Clean z) (m : Arena) (es sp : List HVal) :
    growIfFull z (HVal.absL m es) (HVal.absL m sp) = HVal.absL m (growIfFullH (.ofVal z) es sp) := by
  unfold growIfFull growIfFullH
  cases sp with
  | nil => simp only [HVal.absL, if_true, absL_length, absL_replicate]; rw [hz m]; rfl
  | cons v sp => simp [HVal.absL]

theorem mapAssign_abs (m : Arena) (k : Key) (v : HVal) : ∀ es : List (Key × HVal),
    HVal.absM m (mapAssignH es k v) = mapAssign (HVal.absM m es) k (v.abs m)
  | [] => rfl
  | (k', v') :: es => by
    unfold mapAssignH
    simp only [HVal.absM, mapAssign]
    split <;> simp only [HVal.absM, mapAssign_abs m k v es]

theorem sep_assign {k : Key} {v : HVal} (hv : Separate v.arrays) : ∀ {es : List (Key × HVal)},
    Separate (HVal.arraysM es) → (∀ a ∈ HVal.arraysM es, ∀ b ∈ v.arrays, HdrApart a b) →
    Separate (HVal.arraysM (mapAssignH es k v))
  | [], _, _ => by simpa [mapAssignH, HVal.arraysM] using hv
  | (k', v') :: es, hs, ha => by
    unfold mapAssignH
    simp only [HVal.arraysM, separate_append, List.mem_append] at hs ha ⊢
    split
    · simp only [HVal.arraysM, separate_append]
      exact ⟨hv, hs.2.1, fun a h b h' => HdrApart.symm (ha b (.inr h') a h)⟩
    · simp only [HVal.arraysM, separate_append]
      refine ⟨hs.1, sep_assign hv hs.2.1 fun a h => ha a (.inr h), fun a h b h' => ?_⟩
      rcases mem_arraysM_assign h' with h' | h'
      · exact hs.2.2 a h b h'
      · exact ha a (.inl h) b h'

theorem sim_codec {grow : Nat → Nat → Nat} (hg : ∀ c n, n ≤ grow c n) {zeros : TypeId → Val} (hz : ∀ t, Clean (zeros t))
    {rec : TypeId → DecH} {rec' : TypeId → Bytes → Val → Except Fault DRes} (ht : ∀ t, Tame (rec t))
    (hr : ∀ t, Sim (rec t) (rec' t)) :
    ∀ c : Codec, c.WF → Sim (codecDecodeH grow zeros rec c) (codecDecode zeros rec' c)
  | .normal s, _ => sim_scalar s
  | .required s, _ => sim_scalar s
  | .option s, _ => sim_option s
  | .bytes, _ => sim_bytes grow
  | .ptr z c, hwf => by
    obtain ⟨rfl, hwf⟩ := hwf
    have hc := sim_codec hg hz ht hr c hwf
    intro b v m r hok hs hb hn h
    unfold codecDecode at h
    unfold codecDecodeH
    cases v with
    | nilp =>
      simp only [HVal.abs, bind, Except.bind, pure, Except.pure] at h ⊢
      rcases he : codecDecode zeros rec' c (m.win b) c.shape.zero with e | r0
      · simp [he] at h
      simp only [he] at h
      cases h
      obtain ⟨r', m', h1, h2, h3⟩ := hc b (.ofVal c.shape.zero) m r0 (by rw [arrays_ofVal]; exact alloc_nil _)
        (by rw [arrays_ofVal]; exact separate_nil) (by rw [arrays_ofVal]; nofun) hn (by rw [clean_zero, he])
      rw [h1]
      refine ⟨_, _, rfl, ?_, ?_⟩
      · rw [abs_wrap (g := Val.ptr) (fun _ => rfl), h2]
      · rw [val_wrap]; exact h3
    | ptr v =>
      simp only [HVal.abs, bind, Except.bind, pure, Except.pure] at h ⊢
      rcases he : codecDecode zeros rec' c (m.win b) (v.abs m) with e | r0
      · simp [he] at h
      simp only [he] at h
      cases h
      obtain ⟨r', m', h1, h2, h3⟩ := hc b v m r0 hok hs hb hn he
      rw [h1]
      refine ⟨_, _, rfl, ?_, ?_⟩
      · rw [abs_wrap (g := Val.ptr) (fun _ => rfl), h2]
      · rw [val_wrap]; exact h3
    | bytes o => cases o <;> cases h
    | _ => cases h
  | .msg t, _ => by
    have key : ∀ (b : Win) (v : HVal) (m : Arena) (r : DRes), Alloc m v.arrays → Separate v.arrays →
        InputApart b v.arrays → b.ptr + b.len ≤ m.next →
        (match decodeVarint (m.win b) with
          | (_, n, err) => match err with
            | some e => (Except.ok (.err (.ptr (v.abs m)) e) : Except Fault DRes)
            | none => (goFrom (m.win b) n).bind fun rest =>
              (rec' t rest (v.abs m)).bind fun x => match x with
                | .ok v l => .ok (.ok (.ptr v) (n + l))
                | .err v e => .ok (.err (.ptr v) e)) = .ok r →
        ∃ r' m', (match decodeVarint (m.win b) with
          | (_, n, err) => match err with
            | some e => (Except.ok (.err (.ptr v) e, m) : Except Fault (HRes × Arena))
            | none => (goFrom (m.win b) n).bind fun rest =>
              (rec t ⟨b.ptr + n, rest.length⟩ v m).bind fun x => match x with
                | (.ok v l, m) => .ok (.ok (.ptr v) (n + l), m)
                | (.err v e, m) => .ok (.err (.ptr v) e, m)) = .ok (r', m') ∧ r'.abs m' = r ∧
          Separate r'.val.arrays := by
      intro b v m r hok hs hb hn h
      rcases hd : decodeVarint (m.win b) with ⟨x, n, _ | e⟩
      · have hle := decodeVarint_le hd
        have hlen := win_length m b
        simp only [hd, Except.bind, goFrom_eq hle] at h ⊢
        rcases he : rec' t ((m.win b).drop n) (v.abs m) with e | r0
        · simp [he] at h
        have hw : m.win ⟨b.ptr + n, ((m.win b).drop n).length⟩ = (m.win b).drop n := by
          have := win_sub (m := m) (b := b) (a := (m.win b).take n) (d := (m.win b).drop n) (r := []) (by simp)
          rwa [List.length_take, Nat.min_eq_left hle] at this
        obtain ⟨r', m', h1, h2, h3⟩ := hr t ⟨b.ptr + n, ((m.win b).drop n).length⟩ v m r0 hok hs
          (inputApart_sub hb (by simp; omega)) (by simp; omega) (by rw [hw, he])
        rw [h1]
        cases r' with
        | ok w l => cases h2; simp only [he] at h; cases h; exact ⟨_, _, rfl, rfl, h3⟩
        | err w l => cases h2; simp only [he] at h; cases h; exact ⟨_, _, rfl, rfl, h3⟩
      · simp only [hd] at h ⊢
        cases h
        exact ⟨_, _, rfl, rfl, hs⟩
    intro b v m r hok hs hb hn h
    unfold codecDecode at h
    unfold codecDecodeH
    cases v with
    | nilp =>
      refine key b (.ofVal (zeros t)) m r (by rw [arrays_ofVal]; exact alloc_nil _)
        (by rw [arrays_ofVal]; exact separate_nil) (by rw [arrays_ofVal]; nofun) hn ?_
      rw [hz t m]
      exact h
    | ptr v => exact key b v m r hok hs hb hn h
    | bytes o => cases o <;> cases h
    | _ => cases h
  | .slice z c, hwf => by
    obtain ⟨rfl, hwf⟩ := hwf
    have hc := sim_codec hg hz ht hr c hwf
    have htc := tame_codec (zeros := zeros) hg ht c
    intro b v m r hok hs hb hn h
    unfold codecDecode at h
    unfold codecDecodeH
    cases v with
    | slice isNil es sp =>
      simp only [HVal.abs, bind, Except.bind, pure, Except.pure] at h ⊢
      rw [growIfFull_abs (clean_zero _)] at h
      have hA := growIfFullH_arrays c.shape.zero es sp
      have hnil : (HVal.absL m sp = []) = (sp = []) := by cases sp <;> simp [HVal.absL]
      simp only [hnil] at h
      generalize growIfFullH (.ofVal c.shape.zero) es sp = g at h hA ⊢
      cases g with
      | nil => cases h
      | cons slot rest =>
        simp only [HVal.absL] at h ⊢
        simp only [HVal.arrays] at hok hs hb
        rw [← hA] at hok hs hb
        rw [← arraysL_append] at hok hs hb
        have hsub : ∀ a ∈ slot.arrays, a ∈ HVal.arraysL (es ++ slot :: rest) := fun a ha =>
          mem_arraysL.mpr ⟨slot, by simp, ha⟩
        have hsl : Separate slot.arrays := by
          simp only [arraysL_append, HVal.arraysL, separate_append] at hs
          exact hs.2.1.1
        rcases he : codecDecode zeros rec' c (m.win b) (slot.abs m) with e | r0
        · simp [he] at h
        obtain ⟨r', m', h1, h2, h3⟩ := hc b slot m r0 (alloc_mono hok hsub) hsl (inputApart_mono hb hsub) hn he
        have hG := htc _ _ _ _ _ (alloc_mono hok hsub) h1
        obtain ⟨hs', he1, he2⟩ := sep_slot hs hok hG h3
        rw [h1]
        cases r' with
        | ok w l =>
          cases h2
          simp only [he] at h
          cases h
          refine ⟨_, _, rfl, ?_, ?_⟩
          · simp only [HRes.abs, HVal.abs, absL_append, HVal.absL, he1, he2]
          · simp only [HRes.val, HVal.arrays] at hs' ⊢
            rw [← arraysL_append]
            simpa using hs'
        | err w l =>
          cases h2
          simp only [he] at h
          cases h
          refine ⟨_, _, rfl, ?_, ?_⟩
          · simp only [HRes.abs, HVal.abs, HVal.absL, he1, he2]
          · simp only [HRes.val, HVal.arrays] at hs' ⊢
            rw [← arraysL_append]
            exact hs'
    | bytes o => cases o <;> cases h
    | _ => cases h
  | .map i kc vc kd vd, hwf => by
    obtain ⟨_, _, _, hkz, hvz, _, _, hkw, hvw⟩ := hwf
    have hk := sim_codec hg hz ht hr kd hkw
    have hv := sim_codec hg hz ht hr vd hvw
    have htk := tame_codec (zeros := zeros) hg ht kd
    have htv := tame_codec (zeros := zeros) hg ht vd
    have hl : ∀ p ∈ [
          (({ num := wtNumber i.eKey, wt := wtType i.eKey, offset := 0, dec := codecDecodeH grow zeros rec kd } : HField),
            ({ num := wtNumber i.eKey, wt := wtType i.eKey, offset := 0, dec := codecDecode zeros rec' kd } : DField)),
          ({ num := wtNumber i.eVal, wt := wtType i.eVal, offset := 1, dec := codecDecodeH grow zeros rec vd },
            { num := wtNumber i.eVal, wt := wtType i.eVal, offset := 1, dec := codecDecode zeros rec' vd })],
        FieldSim p.1 p.2 := by
      intro p hp
      simp only [List.mem_cons, List.not_mem_nil, or_false] at hp
      rcases hp with rfl | rfl
      · exact ⟨rfl, rfl, rfl, htk, hk⟩
      · exact ⟨rfl, rfl, rfl, htv, hv⟩
    have hS := sim_struct hl
    have hT := tame_struct (fields := _) (fun f hf => by
      obtain ⟨p, hp, rfl⟩ := List.mem_map.mp hf
      exact (hl p hp).tame)
    simp only [List.map_cons, List.map_nil] at hS hT
    intro b v m r hok hs hb hn h
    unfold codecDecode at h
    unfold codecDecodeH
    cases v with
    | map isNil es =>
      simp only [HVal.abs] at h ⊢
      split
      · next hc =>
        simp only [hc, if_true] at h
        cases h
        exact ⟨_, _, rfl, rfl, hs⟩
      next hc =>
      simp only [hc, if_false] at h
      rcases hd : decodeVarint (m.win b) with ⟨x, n, _ | e⟩
      · have hle := decodeVarint_le hd
        have hlen := win_length m b
        simp only [hd, bind, Except.bind, pure, Except.pure, goFrom_eq hle] at h ⊢
        have hw : m.win ⟨b.ptr + n, ((m.win b).drop n).length⟩ = (m.win b).drop n := by
          have := win_sub (m := m) (b := b) (a := (m.win b).take n) (d := (m.win b).drop n) (r := []) (by simp)
          rwa [List.length_take, Nat.min_eq_left hle] at this
        have h0 : (HVal.struct [.ofVal i.kzero, .ofVal i.vzero]).arrays = [] := by
          simp [HVal.arrays, HVal.arraysL, arrays_ofVal]
        have habs : (HVal.struct [.ofVal i.kzero, .ofVal i.vzero]).abs m = .struct [i.kzero, i.vzero] := by
          simp only [HVal.abs, HVal.absL]
          rw [hkz, hvz, clean_zero, clean_zero]
        have hS := fun r => hS ⟨b.ptr + n, ((m.win b).drop n).length⟩ (.struct [.ofVal i.kzero, .ofVal i.vzero]) m r
          (by rw [h0]; exact alloc_nil _) (by rw [h0]; exact separate_nil) (by rw [h0]; nofun) (by simp; omega)
        have hT := fun r m' => hT ⟨b.ptr + n, ((m.win b).drop n).length⟩ (.struct [.ofVal i.kzero, .ofVal i.vzero]) m r m'
          (by rw [h0]; exact alloc_nil _)
        rw [hw, habs] at hS
        rw [h0] at hT
        rcases he : structDecode
            [{ num := wtNumber i.eKey, wt := wtType i.eKey, offset := 0, dec := codecDecode zeros rec' kd },
             { num := wtNumber i.eVal, wt := wtType i.eVal, offset := 1, dec := codecDecode zeros rec' vd }]
            ((m.win b).drop n) (.struct [i.kzero, i.vzero]) with e | r0
        · simp [he] at h
        simp only [he] at h
        obtain ⟨r', m', h1, h2, h3⟩ := hS _ he
        have hG := hT _ _ h1
        have hsame : HVal.absM m' es = HVal.absM m es := absM_congr _ (hG.same hok nofun)
        rw [h1]
        cases r' with
        | ok w l =>
          cases h2
          simp only at h ⊢
          split at h
          · next hx =>
            simp only [HRes.abs, DRes.ok.injEq] at hx
            obtain ⟨hx, rfl⟩ := hx
            cases w with
            | struct ws =>
              match ws, hx with
              | [k, v], hx =>
                simp only [HVal.abs, HVal.absL, Val.struct.injEq, List.cons.injEq, and_true] at hx
                obtain ⟨rfl, rfl⟩ := hx
                simp only
                split at h
                · next key hkey =>
                  cases h
                  simp only [hkey]
                  refine ⟨_, _, rfl, ?_, ?_⟩
                  · simp only [HRes.abs, HVal.abs, mapAssign_abs, hsame]
                  · simp only [HRes.val, HVal.arrays, HVal.arraysL, List.append_nil, separate_append] at h3
                    refine sep_assign h3.2.1 hs fun a ha c hc => ?_
                    exact hG.apart (A := HVal.arraysM es) hok nofun a ha c
                      (by simp only [HRes.val, HVal.arrays, HVal.arraysL, List.mem_append]; exact .inr (.inl hc))
                · cases h
              | [], hx => cases hx
              | [_], hx => cases hx
              | _ :: _ :: _ :: _, hx => simp [HVal.abs, HVal.absL] at hx
            | bytes o => cases o <;> cases hx
            | _ => cases hx
          · cases h
          · next hx => cases hx
        | err w l =>
          cases h2
          simp only at h ⊢
          cases h
          refine ⟨_, _, rfl, ?_, hs⟩
          simp only [HRes.abs, HVal.abs, hsame]
      · simp only [hd] at h ⊢
        cases h
        exact ⟨_, _, rfl, rfl, hs⟩
    | bytes o => cases o <;> cases h
    | _ => cases h

theorem sim_msg {grow : Nat → Nat → Nat} (hg : ∀ c n, n ≤ grow c n) {L : Layout} {env : Env} (hwf : WFEnv L env) :
    ∀ d t, Sim (decodeMsgH grow env d t) (decodeMsg env d t)
  | 0, _ => fun _ _ _ _ _ _ _ _ h => nomatch h
  | d + 1, t => by
    have hz : ∀ t, Clean (env t).zero := fun t => by rw [hwf.zero t]; exact clean_struct _
    have := sim_struct (l := (env t).fields.map fun f =>
      (({ num := wtNumber f.tag.wiretag, wt := wtType f.tag.wiretag, offset := f.offset,
          dec := codecDecodeH grow (fun t => (env t).zero) (decodeMsgH grow env d) f.codec } : HField),
       ({ num := wtNumber f.tag.wiretag, wt := wtType f.tag.wiretag, offset := f.offset,
          dec := codecDecode (fun t => (env t).zero) (decodeMsg env d) f.codec } : DField))) fun p hp => by
      obtain ⟨f, hf, rfl⟩ := List.mem_map.mp hp
      exact ⟨rfl, rfl, rfl, tame_codec hg (tame_msg hg env d) f.codec,
        sim_codec hg hz (tame_msg hg env d) (sim_msg hg hwf d) f.codec (hwf.codec t f hf)⟩
    simpa [decodeMsgH, decodeMsg, hfields, dfields, List.map_map, Function.comp_def] using this

end Pb
