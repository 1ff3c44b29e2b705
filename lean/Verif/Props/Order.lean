import Verif.Proofs.OrderRecords
import Verif.Props.RoundTrip
/-
C36: Size and Marshal under arbitrary map iteration orders (`Model/Order.lean`), and the round trip properties for them.
-/
namespace Pb.Props
open Spec

theorem apart_of_good {L : Layout} {env : Env} (hg : Good L env) : Apart env := fun t => distinct_offsets hg t

/-- The runs of Marshal on a message, each loop over a map in any order, are exactly the runs of the model with one order,
on all messages that list the map entries in other orders. -/
theorem C36_runs_are_reorderings {L : Layout} {env : Env} (hg : Good L env) (t : TypeId) (v : Val) (r : Except Fault Bytes) :
    marshalN env t v r ↔ ∃ w, Reorder v w ∧ marshal env (.msg t w) = r.map .ok := by
  have ha := apart_of_good hg
  constructor
  · rintro (⟨e, h, rfl⟩ | ⟨n, h, h2⟩)
    · obtain ⟨w, hr, he⟩ := sizeMsgN_sound ha _ _ _ _ h
      refine ⟨w, hr, ?_⟩
      simp only [marshal, reorder_depth hr, he, bind, Except.bind]
      rfl
    · obtain ⟨w, hr, he⟩ := sizeMsgN_sound ha _ _ _ _ h
      obtain ⟨w', hr', he'⟩ := encodeMsgN_sound ha _ _ _ _ _ h2
      refine ⟨w', hr', ?_⟩
      have hs := (sizeMsg_reorder env (v.depth + 1) t _ _ hr' n).mp ((sizeMsg_reorder env (v.depth + 1) t _ _ hr n).mpr he)
      simp only [marshal, reorder_depth hr', hs, he', bind, Except.bind]
      cases r <;> rfl
  · rintro ⟨w, hr, h⟩
    have h1 := sizeMsgN_complete env (v.depth + 1) t v w hr
    have h2 := encodeMsgN_complete env (v.depth + 1) t [] v w hr
    simp only [marshal, reorder_depth hr, bind, Except.bind] at h
    cases hs : sizeMsg env (v.depth + 1) t w with
    | error e =>
      rw [hs] at h h1
      cases r with
      | error e' => simp [Except.map] at h; subst h; exact .inl ⟨_, h1, rfl⟩
      | ok b => simp [Except.map] at h
    | ok n =>
      rw [hs] at h h1
      refine .inr ⟨n, h1, ?_⟩
      cases he : encodeMsg env (v.depth + 1) t [] w with
      | error e =>
        rw [he] at h h2
        cases r with
        | error e' => simp [Except.map] at h; subst h; exact h2
        | ok b => simp [Except.map] at h
      | ok b =>
        rw [he] at h h2
        cases r with
        | error e' => simp [Except.map, pure, Except.pure] at h
        | ok b' => simp [Except.map, pure, Except.pure] at h; subst h; exact h2

/-- C36. Size gives the same result for every iteration order. -/
theorem C36_size_ignores_order {L : Layout} {env : Env} (hg : Good L env) (t : TypeId) (v : Val) (n : Nat)
    (h : size env (.msg t v) = .ok n) (r : Except Fault Nat) (hr : sizeN env t v r) : r = .ok n := by
  obtain ⟨w, hw, he⟩ := sizeMsgN_sound (apart_of_good hg) _ _ _ _ hr
  rw [← he]
  exact (sizeMsg_reorder env _ t _ _ hw n).mp h

/-- C36. Two Marshal calls on the same message return the same bytes up to their order, in particular equally many. -/
theorem C36_same_bytes {L : Layout} {env : Env} (hg : Good L env) (t : TypeId) (v : Val) (b : Bytes)
    (h : marshalN env t v (.ok b)) (r : Except Fault Bytes) (hr : marshalN env t v r) :
    ∃ b', r = .ok b' ∧ b.Perm b' ∧ b'.length = b.length := by
  obtain ⟨w, hw, he⟩ := (C36_runs_are_reorderings hg t v _).mp h
  obtain ⟨w', hw', he'⟩ := (C36_runs_are_reorderings hg t v _).mp hr
  have h1 := marshal_inv (b := b) he
  have p1 := encM_reorder (env := env) t hw
  have p2 := encM_reorder (env := env) t hw'
  rw [h1] at p1
  rcases p1 with ⟨_, _, _, hx⟩ | ⟨a, b1, ha, hb, hp⟩
  · simp at hx
  simp only [Except.ok.injEq] at hb; subst hb
  rw [ha] at p2
  rcases p2 with ⟨_, _, hx, _⟩ | ⟨a', b', ha', hb', hp'⟩
  · simp at hx
  simp only [Except.ok.injEq] at ha'; subst ha'
  have hperm := hp.symm.trans hp'
  -- the size is the same, so that run did not fault either
  have hs : ∃ n, sizeMsg env (v.depth + 1) t w' = .ok n := by
    simp only [marshal, reorder_depth hw, bind, Except.bind] at he
    cases hn : sizeMsg env (v.depth + 1) t w with
    | error e => rw [hn] at he; simp [Except.map] at he
    | ok n =>
      exact ⟨n, (sizeMsg_reorder env _ t _ _ hw' n).mp ((sizeMsg_reorder env _ t _ _ hw n).mpr hn)⟩
  obtain ⟨n, hn⟩ := hs
  simp only [encM, reorder_depth hw'] at hb'
  simp only [marshal, reorder_depth hw', hn, hb', bind, Except.bind, pure, Except.pure] at he'
  cases r with
  | error e => simp [Except.map] at he'
  | ok b2 => simp [Except.map] at he'; subst he'; exact ⟨b', rfl, hperm, hperm.length_eq.symm⟩

/-- C36. If no map has two entries, Marshal has one possible result. -/
theorem C36_deterministic_without_maps {L : Layout} {env : Env} (hg : Good L env) (t : TypeId) (v : Val)
    (ht : v.mapsTrivial = true) (r : Except Fault Bytes) : marshalN env t v r ↔ marshal env (.msg t v) = r.map .ok := by
  rw [C36_runs_are_reorderings hg]
  constructor
  · rintro ⟨w, hr, h⟩; rw [reorder_trivial hr ht] at h; exact h
  · intro h; exact ⟨v, .refl v, h⟩

/-- C36, records: two outputs consist of the same records, up to the order of records with the same number, here and inside
nested messages. Missing: maps whose entries are measured wrong (map.go:80), where the output is no sequence of records;
`C36_same_bytes` covers them. -/
theorem C36_same_records_partial {L : Layout} {env : Env} (hg : Good L env) (t : TypeId) (vs : List Val)
    (hv : FitsMsg L t (.struct vs)) (ho : EncOKMsg env t (.struct vs)) (b b' : Bytes) (h : marshalN env t (.struct vs) (.ok b))
    (h' : marshalN env t (.struct vs) (.ok b')) (hl : b.length < 2 ^ 64) :
    ∃ r0 rs rs', Records b rs ∧ Records b' rs' ∧ Shuffle r0 rs ∧ Shuffle r0 rs' := by
  obtain ⟨b0, hm0, _⟩ := C02_size_is_length_partial hg t _ hv ho
  have e0 := (C36_runs_are_reorderings hg t (.struct vs) (.ok b0)).mpr ⟨_, .refl _, hm0⟩
  have len : ∀ c, marshalN env t (.struct vs) (.ok c) → c.length = b0.length := fun c hc => by
    obtain ⟨c', hc', _, hl⟩ := C36_same_bytes hg t _ b0 e0 _ hc
    simp only [Except.ok.injEq] at hc'; subst hc'; exact hl
  have hb0 : b0.length < 2 ^ 64 := by rw [← len b h]; exact hl
  have enc0 := C11_marshal_encodes_partial hg t vs b0 hv ho hm0 hb0
  have key : ∀ c, marshalN env t (.struct vs) (.ok c) → ∃ r0 rs, Records b0 r0 ∧ Records c rs ∧ Shuffle r0 rs := by
    intro c hc
    obtain ⟨w, hr, he⟩ := (C36_runs_are_reorderings hg t _ _).mp hc
    obtain ⟨ws, rfl, hrl⟩ := reorder_struct hr
    have hcl : c.length < 2 ^ 64 := by rw [len c hc]; exact hb0
    have encw := C11_marshal_encodes_partial hg t ws c (fits_reorder hv (.ptr hr))
      (encOK_reorder hg.wf hg.tags ho trivial trivial hv (.ptr hr)) he hcl
    obtain ⟨b1, h1, _, rs, rs', h3, h4, h5⟩ := shuf_fields hg (shuf_all hg ((Val.struct vs).depth)) t (fitsL_of_msg hv) hrl
      (fun v hv => by have := depth_mem_L hv; simp only [Val.depth]; omega) _ (fun f hf => hf) b0 enc0 hb0
    rw [encodesMsg_unique encw h1] at h4
    exact ⟨rs, rs', h3, h4, h5⟩
  obtain ⟨r0, rs, h1, h2, h3⟩ := key b h
  obtain ⟨r0', rs', h1', h2', h3'⟩ := key b' h'
  rw [records_unique h1' h1] at h3'
  exact ⟨r0, rs, rs', h2, h2', h3, h3'⟩

/-- C02 for every run: whatever the orders, Marshal returns as many bytes as Size says. -/
theorem C02_any_order_partial {L : Layout} {env : Env} (hg : Good L env) (t : TypeId) (v : Val) (hv : FitsMsg L t v)
    (ho : EncOKMsg env t v) (r : Except Fault Bytes) (h : marshalN env t v r) (r' : Except Fault Nat) (h' : sizeN env t v r') :
    ∃ b, r = .ok b ∧ r' = .ok b.length := by
  obtain ⟨b, h1, h2⟩ := C02_size_is_length_partial hg t v hv ho
  obtain ⟨b', rfl, _, hl⟩ := C36_same_bytes hg t v b ((C36_runs_are_reorderings hg t v (.ok b)).mpr ⟨v, .refl v, h1⟩) r h
  exact ⟨b', rfl, by rw [hl]; exact C36_size_ignores_order hg t v _ h2 r' h'⟩

/-- C01 for every run: what Unmarshal gives back is the message, up to the order of map entries. -/
theorem C01_any_order_partial {L : Layout} {env : Env} (hg : Good L env) (t : TypeId) (vs : List Val) (b : Bytes)
    (hv : FitsMsg L t (.struct vs)) (ho : EncOKMsg env t (.struct vs)) (hc : Canon env (.msg t) (.ptr (.struct vs)))
    (h : marshalN env t (.struct vs) (.ok b)) (hl : b.length < 2 ^ 64) :
    ∃ w u, unmarshal env b (.msg t (env t).zero) = .ok ⟨.msg t u, none⟩ ∧ Reorder (.struct vs) w ∧ u.obs = w.obs := by
  obtain ⟨w, hr, he⟩ := (C36_runs_are_reorderings hg t _ _).mp h
  obtain ⟨ws, rfl, _⟩ := reorder_struct hr
  obtain ⟨u, h1, h2⟩ := C01_round_trip_partial hg t ws b (fits_reorder hv (.ptr hr))
    (encOK_reorder hg.wf hg.tags ho trivial trivial hv (.ptr hr)) (canon_reorder hg.wf hc (.ptr hr)) he hl
  exact ⟨_, u, h1, hr, h2⟩

/-! ### the sample program -/


/-- A node with two attributes, in the order given. -/
def twoAttrs (m : List (Key × Val)) : Val := .struct [.w32 0#32, .str [], .slice true [] [], .opt false (.w64 0#64),
  .map false m, .opaque 0, .bytes none, .nilp]
/-- An attribute. -/
def attrX : Key × Val := (.str [120#8], .str [49#8])
/-- Another attribute. -/
def attrY : Key × Val := (.str [121#8], .str [50#8])



/-- C36 is no stronger than that: with two entries in a map, Marshal has two different results. -/
theorem C36_false_equal_bytes : ∃ b b', marshalN Sample.env 0 (twoAttrs [attrX, attrY]) (.ok b) ∧
    marshalN Sample.env 0 (twoAttrs [attrX, attrY]) (.ok b') ∧ b ≠ b' := by
  have hr : Reorder (twoAttrs [attrX, attrY]) (twoAttrs [attrY, attrX]) :=
    .struct (.cons (.refl _) (.cons (.refl _) (.cons (.refl _) (.cons (.refl _)
      (.cons (.map (.swap _ _ _) (reorderM_refl _)) (reorderL_refl _))))))
  have h1 : marshal Sample.env (.msg 0 (twoAttrs [attrX, attrY])) =
      .ok (.ok [42#8, 6#8, 10#8, 1#8, 120#8, 18#8, 1#8, 49#8, 42#8, 6#8, 10#8, 1#8, 121#8, 18#8, 1#8, 50#8]) := rfl
  have h2 : marshal Sample.env (.msg 0 (twoAttrs [attrY, attrX])) =
      .ok (.ok [42#8, 6#8, 10#8, 1#8, 121#8, 18#8, 1#8, 50#8, 42#8, 6#8, 10#8, 1#8, 120#8, 18#8, 1#8, 49#8]) := rfl
  exact ⟨_, _, (C36_runs_are_reorderings Sample.good 0 _ (.ok _)).mpr ⟨_, .refl _, h1⟩,
    (C36_runs_are_reorderings Sample.good 0 _ (.ok _)).mpr ⟨_, hr, h2⟩, by decide⟩

example : ∃ n, size Sample.env (.msg 0 (twoAttrs [attrX, attrY])) = .ok n ∧
    sizeN Sample.env 0 (twoAttrs [attrX, attrY]) (.ok n) := ⟨16, rfl, sizeMsgN_complete _ _ _ _ _ (.refl _)⟩

example : FitsMsg Sample.layout 0 (twoAttrs [attrX, attrY]) ∧ EncOKMsg Sample.env 0 (twoAttrs [attrX, attrY]) ∧
    (twoAttrs [attrX, attrY]).mapsTrivial = false ∧ (twoAttrs [attrX]).mapsTrivial = true := by
  have hf : FitsMsg Sample.layout 0 (twoAttrs [attrX, attrY]) := by
    refine .msg 0 _ rfl fun i s v hs hv => ?_
    match i, hs, hv with
    | 0, hs, hv => cases hs; cases hv; exact .w32 _
    | 1, hs, hv => cases hs; cases hv; exact .str _
    | 2, hs, hv => cases hs; cases hv; exact .slice _ _ _ _ (by simp) (by simp) (by simp)
    | 3, hs, hv => cases hs; cases hv; exact .none _
    | 4, hs, hv =>
      cases hs; cases hv
      refine .map _ _ _ _ (by simp) (by simp [attrX, attrY]) (fun e he => ?_) (fun e he => ?_) <;>
        simp only [List.mem_cons, List.not_mem_nil, or_false] at he <;> rcases he with rfl | rfl <;> exact .str _
    | 5, hs, hv => cases hs; cases hv; exact .opaque _
    | 6, hs, hv => cases hs; cases hv; exact .bytes _
    | 7, hs, hv => cases hs; cases hv; exact .msgNil _
    | n + 8, hs, hv => simp at hv
  exact ⟨hf, encOK_of_types Sample.good Sample.mapsSized 0 _ hf, rfl, rfl⟩

end Pb.Props
