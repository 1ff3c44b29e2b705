import Verif.Proofs.HeapSim
import Verif.Props.Safety
import Verif.Spec.Sample
/-
C43: memory shared between the input, the message and byte slices obtained from it.

In these theorems `grow` is how `append` chooses the capacity of a new array: any function with `n ≤ grow c n`.
-/
namespace Pb.Props
open Spec

theorem unmarshalH_grows {grow : Nat → Nat → Nat} (hg : ∀ c n, n ≤ grow c n) {env : Env} {b : Win} {t : TypeId}
    {v : HVal} {m : Arena} {r : URes} (hok : Alloc m v.arrays) (h : unmarshalH grow env b t v m = .ok r) :
    MemGrows m v.arrays r.mem r.target.arrays := by
  unfold unmarshalH at h
  split at h
  · cases h; exact .refl hok
  · simp only [bind, Except.bind, pure, Except.pure] at h
    rcases hd : decodeMsgH grow env (b.len + 1) t b v m with e | ⟨w | ⟨w, e⟩, m'⟩
    · simp [hd] at h
    · simp only [hd] at h
      have hG := tame_msg hg env _ _ _ _ _ _ _ hok hd
      split at h <;> cases h <;> exact hG
    · simp only [hd] at h
      cases h
      exact tame_msg hg env _ _ _ _ _ _ _ hok hd

/-- C43: whatever overlaps what, `Unmarshal` writes only to the arrays of byte slices that the message holds and to new
memory. In particular a slice obtained earlier keeps its contents if the message no longer refers to its array. -/
theorem C43_writes_only_own {grow : Nat → Nat → Nat} (hg : ∀ c n, n ≤ grow c n) {env : Env} {b : Win} {t : TypeId}
    {v : HVal} {m : Arena} {r : URes} (hok : Alloc m v.arrays) (h : unmarshalH grow env b t v m = .ok r) (x : Nat)
    (hx : x < m.next) (hno : ∀ a ∈ v.arrays, ¬ a.holds x) : r.mem.data x = m.data x :=
  (unmarshalH_grows hg hok h).data x hx fun ⟨a, ha, hax⟩ => hno a ha hax

/-- C43: every byte slice of the message afterwards lies in arrays that the message held before, or in new memory. -/
theorem C43_slices_own_or_new {grow : Nat → Nat → Nat} (hg : ∀ c n, n ≤ grow c n) {env : Env} {b : Win} {t : TypeId}
    {v : HVal} {m : Arena} {r : URes} (hok : Alloc m v.arrays) (h : unmarshalH grow env b t v m = .ok r)
    (a : Hdr) (ha : a ∈ r.target.arrays) (x : Nat) (hx : a.holds x) :
    (∃ a' ∈ v.arrays, a'.holds x) ∨ m.next ≤ x :=
  (unmarshalH_grows hg hok h).own x ⟨a, ha, hx⟩

/-- C43: `Unmarshal` does not write to the input, provided that the message's byte slices do not overlap it. -/
theorem C43_input_not_written_partial {grow : Nat → Nat → Nat} (hg : ∀ c n, n ≤ grow c n) {env : Env} {b : Win}
    {t : TypeId} {v : HVal} {m : Arena} {r : URes} (hok : Alloc m v.arrays) (hb : b.ptr + b.len ≤ m.next)
    (hap : InputApart b v.arrays) (h : unmarshalH grow env b t v m = .ok r) : r.mem.win b = m.win b :=
  ((unmarshalH_grows hg hok h).input hap hb).1

/-- C43: whatever is written to the input afterwards, the message stays the same, provided that its byte slices did not
overlap the input before. -/
theorem C43_input_not_kept_partial {grow : Nat → Nat → Nat} (hg : ∀ c n, n ≤ grow c n) {env : Env} {b : Win}
    {t : TypeId} {v : HVal} {m : Arena} {r : URes} (hok : Alloc m v.arrays) (hb : b.ptr + b.len ≤ m.next)
    (hap : InputApart b v.arrays) (h : unmarshalH grow env b t v m = .ok r) (later : Arena)
    (hlater : ∀ x, ¬ b.holds x → later.data x = r.mem.data x) : r.target.abs later = r.target.abs r.mem := by
  have hG := unmarshalH_grows hg hok h
  refine abs_congr _ fun a ha x h1 h2 => hlater x fun hx => ?_
  have := hG.ok a ha
  exact (hG.input hap hb).2.1 a ha x hx ⟨h1, by omega⟩

/-- C43: if neither the message's byte slices overlap each other nor the input, `Unmarshal` on memory has exactly the
result of `Unmarshal` on values, and afterwards they still do not overlap. -/
theorem C43_as_values_partial {grow : Nat → Nat → Nat} (hg : ∀ c n, n ≤ grow c n) {L : Layout} {env : Env}
    (hwf : WFEnv L env) (b : Win) (t : TypeId) (v : HVal) (m : Arena) (hv : FitsMsg L t (v.abs m))
    (hok : Alloc m v.arrays) (hs : Separate v.arrays) (hb : b.ptr + b.len ≤ m.next) (hap : InputApart b v.arrays) :
    ∃ r, unmarshalH grow env b t v m = .ok r ∧
      unmarshal env (m.win b) (.msg t (v.abs m)) = .ok ⟨.msg t (r.target.abs r.mem), r.err⟩ ∧
      Separate r.target.arrays ∧ Alloc r.mem r.target.arrays ∧ InputApart b r.target.arrays := by
  have key : ∃ r, unmarshalH grow env b t v m = .ok r ∧
      unmarshal env (m.win b) (.msg t (v.abs m)) = .ok ⟨.msg t (r.target.abs r.mem), r.err⟩ ∧
      Separate r.target.arrays := by
    obtain ⟨v', err, h, _⟩ := C03_unmarshal_safe hwf (m.win b) t (v.abs m) hv
    rw [h]
    unfold unmarshal at h
    rw [win_length] at h
    unfold unmarshalH
    split
    · next hc =>
      simp only [hc, if_true] at h
      cases h
      exact ⟨_, rfl, rfl, hs⟩
    · next hc =>
      simp only [hc, if_false, bind, Except.bind, pure, Except.pure] at h ⊢
      rcases hd : decodeMsg env (b.len + 1) t (m.win b) (v.abs m) with e | r0
      · simp [hd] at h
      obtain ⟨r', m', h1, h2, h3⟩ := sim_msg hg hwf _ _ b v m r0 hok hs hap hb hd
      simp only [hd] at h
      rw [h1]
      cases r' with
      | ok w n =>
        simp only [HRes.abs] at h2
        subst h2
        simp only at h ⊢
        split
        · next hn => simp only [hn, if_true] at h; cases h; exact ⟨_, rfl, rfl, h3⟩
        · next hn => simp only [hn, if_false] at h; cases h; exact ⟨_, rfl, rfl, h3⟩
      | err w e =>
        simp only [HRes.abs] at h2
        subst h2
        simp only at h ⊢
        cases h
        exact ⟨_, rfl, rfl, h3⟩
  obtain ⟨r, h1, h2, h3⟩ := key
  have hG := unmarshalH_grows hg hok h1
  exact ⟨r, h1, h2, h3, hG.ok, (hG.input hap hb).2.1⟩

/-- C43 for a message without byte slices, such as a new one: nothing that existed before is written, and whatever
happens to memory that existed before does not change the message. -/
theorem C43_fresh {grow : Nat → Nat → Nat} (hg : ∀ c n, n ≤ grow c n) {env : Env} {b : Win}
    {t : TypeId} {v : HVal} {m : Arena} {r : URes} (hv : v.arrays = []) (h : unmarshalH grow env b t v m = .ok r) :
    (∀ x, x < m.next → r.mem.data x = m.data x) ∧
    ∀ later : Arena, (∀ x, m.next ≤ x → later.data x = r.mem.data x) → r.target.abs later = r.target.abs r.mem := by
  have hok : Alloc m v.arrays := by rw [hv]; exact alloc_nil m
  have hG := unmarshalH_grows hg hok h
  refine ⟨fun x hx => C43_writes_only_own hg hok h x hx (by rw [hv]; nofun), fun later hl => ?_⟩
  refine abs_congr _ fun a ha x h1 h2 => hl x ?_
  have := hG.ok a ha
  rcases hG.own x ⟨a, ha, h1, by omega⟩ with ⟨c, hc, _⟩ | hx
  · rw [hv] at hc; cases hc
  · exact hx

/-! ### Cases -/

/-- A memory that starts with the given bytes. -/
def memOf (bs : Bytes) (next : Nat) : Arena := { data := fun x => bs.getD x 0#8, next := next }

/-- A `Node` (Spec/Sample.lean) whose `Data` is the given slice. -/
def nodeWith (h : Hdr) : HVal :=
  .struct [.w32 0#32, .str [], .slice true [] [], .opt false (.w64 0#64), .map true [], .opaque 0, .bytes (some h), .nilp]

/-- The memory: `Data` has the bytes 1 2 3 at address 0 and the input `32 02 09 09` is at address 4. -/
def mem1 : Arena := memOf [1#8, 2#8, 3#8, 0#8, 0x32#8, 2#8, 9#8, 9#8] 8

/-- The hypotheses of the theorems above are met; `Data` is overwritten in place. -/
example : Alloc mem1 (nodeWith ⟨0, 3, 3⟩).arrays ∧ Separate (nodeWith ⟨0, 3, 3⟩).arrays ∧
    InputApart ⟨4, 4⟩ (nodeWith ⟨0, 3, 3⟩).arrays ∧ FitsMsg Sample.layout 0 ((nodeWith ⟨0, 3, 3⟩).abs mem1) := by
  refine ⟨?_, ?_, ?_, ?_⟩
  · intro h hh
    simp [nodeWith, HVal.arrays, HVal.arraysL, HVal.arraysM] at hh
    subst hh
    exact ⟨by decide, by decide⟩
  · exact separate_one _
  · intro h hh x hx
    simp [nodeWith, HVal.arrays, HVal.arraysL, HVal.arraysM] at hh
    subst hh
    simp only [Win.holds, Hdr.holds] at *
    omega
  · refine .msg _ _ rfl fun i s v hs hv => ?_
    match i with
    | 0 => cases hs; cases hv; constructor
    | 1 => cases hs; cases hv; constructor
    | 2 => cases hs; cases hv; exact .slice _ _ _ _ (fun _ => ⟨rfl, rfl⟩) nofun nofun
    | 3 => cases hs; cases hv; constructor
    | 4 => cases hs; cases hv; exact .map _ _ _ _ (fun _ => rfl) .nil nofun nofun
    | 5 => cases hs; cases hv; constructor
    | 6 => cases hs; cases hv; constructor
    | 7 => cases hs; cases hv; constructor
    | _ + 8 => cases hs

/-- A new message: `Data` is put into new memory. -/
example : (HVal.ofVal Sample.emptyNode).arrays = [] ∧
    ∃ r, unmarshalH (fun _ n => n) Sample.env ⟨4, 4⟩ 0 (.ofVal Sample.emptyNode) mem1 = .ok r ∧ r.err = none ∧
      r.target.arrays = [⟨8, 2, 2⟩] ∧ r.mem.read 8 2 = [9#8, 9#8] := ⟨rfl, _, rfl, rfl, rfl, rfl⟩

/-- C43 is false for byte slices obtained earlier: a program that took `Data` (1 2 3) out of the message finds it changed
to 9 9 3 after the next `Unmarshal` into the message. -/
theorem C43_false_earlier_slices :
    ∃ r, unmarshalH (fun _ n => n) Sample.env ⟨4, 4⟩ 0 (nodeWith ⟨0, 3, 3⟩) mem1 = .ok r ∧ r.err = none ∧
      mem1.read 0 3 = [1#8, 2#8, 3#8] ∧ r.mem.read 0 3 = [9#8, 9#8, 3#8] :=
  ⟨_, rfl, rfl, rfl, rfl⟩

/-- The memory: the input `32 01 07 08 05`. -/
def mem2 : Arena := memOf [0x32#8, 1#8, 7#8, 8#8, 5#8] 5

/-- C43 is false if a byte slice of the message overlaps the input (`msg.Data = buf[3:3]`): the first record is copied
over the second one, which is then rejected, and the input is changed; without the overlap the input is accepted. -/
theorem C43_false_overlap :
    (∃ r, unmarshalH (fun _ n => n) Sample.env ⟨0, 5⟩ 0 (nodeWith ⟨3, 0, 2⟩) mem2 = .ok r ∧
      r.err = some (.decode (.field 0 7 .wireTypeUnknown)) ∧
      mem2.win ⟨0, 5⟩ = [0x32#8, 1#8, 7#8, 8#8, 5#8] ∧ r.mem.win ⟨0, 5⟩ = [0x32#8, 1#8, 7#8, 7#8, 5#8]) ∧
    ∃ v, unmarshal Sample.env (mem2.win ⟨0, 5⟩) (.msg 0 ((nodeWith ⟨3, 0, 2⟩).abs mem2)) = .ok ⟨.msg 0 v, none⟩ :=
  ⟨⟨_, rfl, rfl, rfl, rfl⟩, ⟨_, rfl⟩⟩

end Pb.Props
