import Verif.Spec.Conc
import Verif.Proofs.ConcRep
import Verif.Props.Graph
/-
C67: calls of Size, Marshal and Unmarshal in any number of goroutines, access by access, with the pools of scratch structs shared by
all of them.
-/
namespace Pb.Props
open Spec Flat

variable {lay : Lay} {env : Env} {grow : Nat → Nat → Nat}

theorem graph_view {T : Types} {m : Mem} (h : Graph lay T m) {given : List Nat}
    (hg : ∀ (b : Nat) κ, T[b]? = some κ → κ = .other ∨ (∃ s, κ = .text s) ∨ b ∈ given) : Graph lay T (view m given) := by
  refine ⟨by rw [h.1, view_length], fun b κ o hb ho => ?_⟩
  rw [view_get] at ho
  rcases hm : m[b]? with _ | x <;> rw [hm] at ho
  · cases ho
  have hx := h.2 b κ x hb hm
  simp only [Option.map_some, Option.some.injEq] at ho
  rcases hg b κ hb with rfl | ⟨s, rfl⟩ | hin
  · trivial
  · cases x <;> simp only [ObjOK] at hx
    subst ho; exact hx
  · cases x <;> simp only [hin, if_true] at ho <;> subst ho <;> exact hx

theorem hasMsg_view {m : Mem} {t : TypeId} {b : Nat} {v : Val} {B given : List Nat} (h : HasMsg lay m t b v B)
    (hg : ∀ x ∈ b :: B, x ∈ given) : HasMsg lay (view m given) t b v B := by
  obtain ⟨vs, cs, rfl, h1, h2, h3⟩ := h
  exact ⟨vs, cs, rfl, view_mem h1 (hg b (by simp)), h2, repF_view h3 fun x hx => hg x (by simp [hx])⟩

theorem holds_view {m : Mem} {t : TypeId} {b : Nat} {v : Val} {B given : List Nat} (h : Holds lay m t b v B)
    (hg : ∀ x ∈ b :: B, x ∈ given) : Holds lay (view m given) t b v B := ⟨hasMsg_view h.1 hg, h.2⟩

theorem size_view (hlay : lay.OK) (hwf : WFEnv lay.shapes env) {m : Mem} {t : TypeId} {b : Nat} {v : Val} {B given : List Nat}
    (h : HasMsg lay m t b v B) (hg : ∀ x ∈ b :: B, x ∈ given) {n d : Nat} (hs : size env (.msg t v) = .ok n) (hd : v.depth < d) :
    callF grow lay env (view m given) (.size d t ⟨b, 0⟩) = .ok (.size n, view m given) := by
  have := sizeMsgF_of hlay hwf d t b v B n (hasMsg_view h hg)
    (by rw [← hs]; exact (sizeMsg_depth env t v (v.depth + 1) d (by omega) hd).symm)
  simp only [callF, this]; rfl

theorem marshal_view (hlay : lay.OK) (hwf : WFEnv lay.shapes env) {m : Mem} {t : TypeId} {b : Nat} {v : Val} {B given : List Nat}
    (h : HasMsg lay m t b v B) (hg : ∀ x ∈ b :: B, x ∈ given) {bs : Bytes} {d : Nat}
    (hs : marshal env (.msg t v) = .ok (.ok bs)) (hd : v.depth < d) :
    callF grow lay env (view m given) (.marshal d t ⟨b, 0⟩) = .ok (.marshal bs, view m given) := by
  simp only [marshal, bind, Except.bind] at hs
  rcases h1 : sizeMsg env (v.depth + 1) t v with e | n <;> rw [h1] at hs
  · cases hs
  rcases h2 : encodeMsg env (v.depth + 1) t [] v with e | o <;> simp only [h2] at hs
  · cases hs
  cases hs
  rw [sizeMsg_depth env t v (v.depth + 1) d (by omega) hd] at h1
  rw [encodeMsg_depth env t v (v.depth + 1) d (by omega) hd] at h2
  simp only [callF, marshalF, sizeMsgF_of hlay hwf d t b v B n (hasMsg_view h hg) h1,
    encodeMsgF_of hlay hwf d t [] b v B bs (hasMsg_view h hg) h2, bind, Except.bind]
  rfl

theorem proper_ok (hlay : lay.OK) (hwf : WFEnv lay.shapes env) (hgrow : ∀ c n, n ≤ grow c n) :
    OKCalls grow lay env (Proper lay env) := by
  intro m given r h
  cases h with
  | size d t b v B n h hg hs hd => exact ⟨lt_of_get h.choose_spec.choose_spec.2.1, _, _, size_view hlay hwf h hg hs hd⟩
  | marshal d t b v B bs h hg hs hd => exact ⟨lt_of_get h.choose_spec.choose_spec.2.1, _, _, marshal_view hlay hwf h hg hs hd⟩
  | unmarshal bs t b v B h hv hg =>
    obtain ⟨m', v', B', err, h1, _⟩ := C61_unmarshal hlay hwf hgrow (holds_view h hg) hv bs
    refine ⟨lt_of_get h.1.choose_spec.choose_spec.2.1, .unmarshal err, m', ?_⟩
    simp only [callF, h1]; rfl
  | graph bs t a T h ha hg =>
    obtain ⟨m', X, err, v', h1, _⟩ := C63_unmarshal hlay hwf hgrow (graph_view h hg) ha bs
    refine ⟨?_, .unmarshal err, m', ?_⟩
    · obtain ⟨N, sl, h2, _⟩ := ha
      rw [← h.1]; exact (List.getElem?_eq_some_iff.mp h2).1
    · simp only [callF, h1]; rfl

section
variable {m : Mem} {s : Proc}

/-- C67. No access of any call ever fails: the calls never reach beyond their memory, never find memory of another type than
expected, never dereference nil, and never write to text. -/
theorem C67_no_fault (hlay : lay.OK) (hwf : WFEnv lay.shapes env) (hgrow : ∀ c n, n ≤ grow c n) (hm : Closed m)
    (hs : Reach grow lay env (Proper lay env) m s) {c : Task} (hc : c ∈ s.tasks) (f : Fault) : c.act ≠ .fail f := by
  have hi := inv_reach (proper_ok hlay hwf hgrow) hm hs
  obtain ⟨i, hic⟩ := List.mem_iff_getElem?.mp hc
  obtain ⟨ms, H, S, p, y, m', _, hrel, hex, _⟩ := (hi.tasks i c hic).sim
  intro he
  rw [he] at hrel
  cases hrel
  cases hex

/-- C67. No data races: when a call is about to write to an allocation (or to give it back to a pool), no other call is about to
read or write that allocation. -/
theorem C67_no_race (hlay : lay.OK) (hwf : WFEnv lay.shapes env) (hgrow : ∀ c n, n ≤ grow c n) (hm : Closed m)
    (hs : Reach grow lay env (Proper lay env) m s) {i j : Nat} {c d : Task} (hij : i ≠ j) (hc : s.tasks[i]? = some c)
    (hd : s.tasks[j]? = some d) {b : Nat} (hw : c.act.writesTo = some b) : d.act.writesTo ≠ some b ∧ d.act.readsFrom ≠ some b := by
  have hi := inv_reach (proper_ok hlay hwf hgrow) hm hs
  have own : ∀ (k : Nat) e, s.tasks[k]? = some e → ∀ b, e.act.writesTo = some b → b ∈ e.own ∧ ∃ o, s.mem[b]? = some o ∧ o.live := by
    intro k e hk b hb
    rcases ha : e.act with _ | _ | _ | ⟨a, cs, al, p⟩ | _ | _ | _ | ⟨b', en, p⟩ | _ | ⟨n, b', p⟩ <;> rw [ha] at hb <;>
      simp only [Act.writesTo, reduceCtorEq, Option.some.injEq] at hb
    · subst hb
      obtain ⟨m', h1, h2, _⟩ := inv_store hi hk ha
      refine ⟨h2, ?_⟩
      unfold Flat.store at h1
      split at h1
      · cases h1
      split at h1
      · rename_i hx; exact ⟨_, hx, trivial⟩
      · cases h1
    · subst hb
      obtain ⟨m', h1, h2, _⟩ := inv_insert hi hk ha
      refine ⟨h2, ?_⟩
      unfold insertEntry at h1
      split at h1
      · rename_i hx; exact ⟨_, hx, trivial⟩
      · cases h1
    · subst hb
      obtain ⟨h1, h2, _⟩ := inv_put hi hk ha
      exact ⟨h1, _, h2, trivial⟩
  obtain ⟨h1, h2⟩ := own i c hc b hw
  have hap := hi.apart i j c d hij hc hd b h1
  refine ⟨fun hb => hap.1 (own j d hd b hb).1, fun hb => ?_⟩
  have use : (b ∈ d.own ∨ b ∈ d.rd) ∨ ∃ t, s.mem[b]? = some (.ro t) := by
    rcases ha : d.act with _ | _ | ⟨a, n, al, k⟩ | _ | ⟨a, n, k⟩ | _ | ⟨a, k⟩ | _ | _ | _ <;> rw [ha] at hb <;>
      simp only [Act.readsFrom, reduceCtorEq, Option.some.injEq] at hb
    · subst hb; exact .inl (inv_load hi hd ha).2.1
    · subst hb; exact (inv_data hi hd ha).2.1
    · subst hb; exact .inl (inv_entries hi hd ha).2.1
  rcases use with (h | h) | ⟨t, h⟩
  · exact hap.1 h
  · exact hap.2 h
  · obtain ⟨o, h3, h4⟩ := h2
    rw [h] at h3; cases h3; cases h4

/-- C67. The pools: every struct in a pool is zero, so a call that takes it sees what a new struct would be; the structs are all
different, and no call uses one. -/
theorem C67_pool (hlay : lay.OK) (hwf : WFEnv lay.shapes env) (hgrow : ∀ c n, n ≤ grow c n) (hm : Closed m)
    (hs : Reach grow lay env (Proper lay env) m s) :
    (∀ e ∈ s.pool, s.mem[e.2]? = some (.mem (zeroCells e.1)) ∧
      ∀ c ∈ s.tasks, c.act.writesTo ≠ some e.2 ∧ c.act.readsFrom ≠ some e.2) ∧ (s.pool.map (·.2)).Nodup := by
  have hi := inv_reach (proper_ok hlay hwf hgrow) hm hs
  refine ⟨fun e he => ⟨(hi.pool e he).1, fun c hc => ?_⟩, hi.nodup⟩
  obtain ⟨k, hk⟩ := List.mem_iff_getElem?.mp hc
  obtain ⟨h0, hfree⟩ := hi.pool e he
  obtain ⟨h1, h2⟩ := hfree k c hk
  constructor
  · intro hb
    rcases ha : c.act with _ | _ | _ | ⟨a, cs, al, p⟩ | _ | _ | _ | ⟨b', en, p⟩ | _ | ⟨n, b', p⟩ <;> rw [ha] at hb <;>
      simp only [Act.writesTo, reduceCtorEq, Option.some.injEq] at hb
    · obtain ⟨m', g1, g2, _⟩ := inv_store hi hk ha
      exact h1 (hb ▸ g2)
    · obtain ⟨m', g1, g2, _⟩ := inv_insert hi hk ha
      exact h1 (hb ▸ g2)
    · exact h1 (hb ▸ (inv_put hi hk ha).1)
  · intro hb
    rcases ha : c.act with _ | _ | ⟨a, n, al, k⟩ | _ | ⟨a, n, k⟩ | _ | ⟨a, k⟩ | _ | _ | _ <;> rw [ha] at hb <;>
      simp only [Act.readsFrom, reduceCtorEq, Option.some.injEq] at hb
    · exact (inv_load hi hk ha).2.1.elim (fun h => h1 (hb ▸ h)) (fun h => h2 (hb ▸ h))
    · rcases (inv_data hi hk ha).2.1 with (h | h) | ⟨t, h⟩
      · exact h1 (hb ▸ h)
      · exact h2 (hb ▸ h)
      · rw [hb, h0] at h; cases h
    · exact (inv_entries hi hk ha).2.1.elim (fun h => h1 (hb ▸ h)) (fun h => h2 (hb ▸ h))

/-- What a call that has returned left. -/
theorem returned (hi : Inv grow lay env s) {c : Task} (hc : c ∈ s.tasks) {o : Outcome} (ho : c.act = .ret o) :
    ∃ ms H S, Alike ms H S s.mem c ∧ callF grow lay env (view c.start c.given) c.req = .ok (o, ms) ∧
      (∀ b, b < c.start.length → H b = some b) ∧ Closed c.start := by
  obtain ⟨i, hic⟩ := List.mem_iff_getElem?.mp hc
  obtain ⟨ms, H, S, p, y, m', hsim, hrel, hex, hcall, hid⟩ := (hi.tasks i c hic).sim
  rw [ho] at hrel
  cases hrel with
  | fail => cases hex
  | ret _ _ x _ hq =>
    cases hex
    cases hq
    exact ⟨_, H, S, hsim, hcall, hid, (hi.tasks i c hic).cl⟩

/-- C67. A call of Size, in whatever company, returns the size of the message. -/
theorem C67_size (hlay : lay.OK) (hwf : WFEnv lay.shapes env) (hgrow : ∀ c n, n ≤ grow c n) (hm : Closed m)
    (hs : Reach grow lay env (Proper lay env) m s) {c : Task} (hc : c ∈ s.tasks) {d : Nat} {t : TypeId} {b : Nat}
    (hr : c.req = .size d t ⟨b, 0⟩) {o : Outcome} (ho : c.act = .ret o) {v : Val} {B : List Nat} (hv : HasMsg lay c.start t b v B)
    (hg : ∀ x ∈ b :: B, x ∈ c.given) {n : Nat} (h : size env (.msg t v) = .ok n) (hd : v.depth < d) : o = .size n := by
  obtain ⟨ms, H, S, _, hcall, _⟩ := returned (inv_reach (proper_ok hlay hwf hgrow) hm hs) hc ho
  rw [hr, size_view hlay hwf hv hg h hd] at hcall
  cases hcall; rfl

/-- C67. A call of Marshal, in whatever company, returns the bytes of the message. -/
theorem C67_marshal (hlay : lay.OK) (hwf : WFEnv lay.shapes env) (hgrow : ∀ c n, n ≤ grow c n) (hm : Closed m)
    (hs : Reach grow lay env (Proper lay env) m s) {c : Task} (hc : c ∈ s.tasks) {d : Nat} {t : TypeId} {b : Nat}
    (hr : c.req = .marshal d t ⟨b, 0⟩) {o : Outcome} (ho : c.act = .ret o) {v : Val} {B : List Nat} (hv : HasMsg lay c.start t b v B)
    (hg : ∀ x ∈ b :: B, x ∈ c.given) {bs : Bytes} (h : marshal env (.msg t v) = .ok (.ok bs)) (hd : v.depth < d) :
    o = .marshal bs := by
  obtain ⟨ms, H, S, _, hcall, _⟩ := returned (inv_reach (proper_ok hlay hwf hgrow) hm hs) hc ho
  rw [hr, marshal_view hlay hwf hv hg h hd] at hcall
  cases hcall; rfl

/-- C67. A call of Unmarshal, in whatever company, returns the error of `unmarshal`, and then the message in the memory of the
process holds the value of `unmarshal`. It is all in memory of this call: memory that was given to it, or that it has allocated; no
part is in a pool or is used by another call. What belongs to no tagged field is as it was. -/
theorem C67_unmarshal (hlay : lay.OK) (hwf : WFEnv lay.shapes env) (hgrow : ∀ c n, n ≤ grow c n) (hm : Closed m)
    (hs : Reach grow lay env (Proper lay env) m s) {c : Task} (hc : c ∈ s.tasks) {bs : Bytes} {t : TypeId} {b : Nat}
    (hr : c.req = .unmarshal bs t ⟨b, 0⟩) {o : Outcome} (ho : c.act = .ret o) {v : Val} {B : List Nat}
    (hv : Holds lay c.start t b v B) (hf : FitsMsg lay.shapes t v) (hg : ∀ x ∈ b :: B, x ∈ c.given) :
    ∃ v' B' err, unmarshal env bs (.msg t v) = .ok ⟨.msg t v', err⟩ ∧ o = .unmarshal err ∧ Holds lay s.mem t b v' B' ∧
      (∀ x ∈ b :: B', x ∈ c.own ∧ (∀ n, (n, x) ∉ s.pool) ∧ (x ∈ B ∨ c.start.length ≤ x ∨ x = b)) ∧
      ∀ cs, c.start[b]? = some (.mem cs) → ∃ cs', s.mem[b]? = some (.mem cs') ∧ cs'.length = cs.length ∧
        ∀ i, ¬ IsTagged lay env t i → cs'[i]? = cs[i]? := by
  have hi := inv_reach (proper_ok hlay hwf hgrow) hm hs
  obtain ⟨k, hk⟩ := List.mem_iff_getElem?.mp hc
  obtain ⟨ms, H, S, hsim, hcall, hid, hcl⟩ := returned hi hc ho
  have hrd : c.rd = [] := (hi.tasks k c hk).only (by rw [hr]; rfl)
  obtain ⟨m', v', B1, err, h1, h2, h3, h4, h5⟩ := C61_unmarshal hlay hwf hgrow (holds_view hv hg) hf bs
  rw [hr] at hcall
  simp only [callF, h1, bind, Except.bind, pure, Except.pure] at hcall
  cases hcall
  obtain ⟨⟨vs, cs1, rfl, g1, g2, g3⟩, g4⟩ := h3
  have hbs : b < c.start.length := lt_of_get hv.1.choose_spec.choose_spec.2.1
  have hb := hid b hbs
  obtain ⟨o', k1, k2⟩ := hsim.obj _ _ _ hb g1 (by simp)
  cases o' <;> simp only [ObjRel] at k2
  rename_i cs2
  obtain ⟨B2, e1, e2⟩ := repF_ren hsim.obj g3 _ k2
  have hall : BlksRel H (b :: B1) (b :: B2) := .cons _ _ _ _ hb e1
  refine ⟨_, B2, err, h2, rfl, ⟨⟨vs, cs2, rfl, k1, by rw [← k2.length]; exact g2, e2⟩, blks_nodup hsim.inj hall g4⟩, ?_, ?_⟩
  · intro x hx
    obtain ⟨y, hy, hyx⟩ := hall.mem_right hx
    have hown : x ∈ c.own := by
      have : ∃ o, ms[y]? = some o ∧ o.live := by
        rcases List.mem_cons.mp hy with rfl | hy
        · exact ⟨_, g1, trivial⟩
        · exact repF_live g3 y hy
      obtain ⟨o, l1, l2⟩ := this
      rcases hsim.live y x o hyx l1 l2 with h | h
      · exact h
      · rw [hrd] at h; cases h
    refine ⟨hown, fun n hn => ((hi.pool _ hn).2 k c hk).1 hown, ?_⟩
    by_cases hlt : x < c.start.length
    · have : y = x := hsim.inj _ _ _ hyx (hid x hlt)
      subst this
      rcases List.mem_cons.mp hy with rfl | hy
      · exact .inr (.inr rfl)
      · rcases h5 y hy with h | h
        · exact .inl h
        · rw [view_length] at h; exact .inr (.inl h)
    · exact .inr (.inl (by omega))
  · intro cs hcs
    obtain ⟨cs3, j1, j2, j3⟩ := h4.itself cs (view_mem hcs (hg b (by simp)))
    rw [g1] at j1; cases j1
    refine ⟨cs2, k1, by rw [← k2.length]; exact j2, fun i ht => ?_⟩
    have hcell := hcl _ (List.mem_of_getElem? hcs)
    rcases k2.get i with ⟨q1, q2⟩ | ⟨x, y, q1, q2, q3⟩
    · rw [← j3 i ht, q1, q2]
    · rw [← j3 i ht, q1, q2]
      have hx : x ∈ cs := List.mem_of_getElem? (by rw [← j3 i ht]; exact q1)
      cases x <;> cases y <;> simp only [CellRel] at q3
      · rw [q3]
      · rename_i a n a' n'
        have : H a.blk = some a.blk := hid _ (hcell _ hx a n rfl)
        rw [q3.1.1] at this
        cases a; cases a'
        simp only [Option.some.injEq] at this q3
        simp [this, q3.1.2, q3.2]
      · rw [q3.1, q3.2]

/-- C67. Unmarshal into a message in memory with sharing and cycles, in whatever company, returns the error that the bytes give for
a new message. -/
theorem C67_unmarshal_graph (hlay : lay.OK) (hwf : WFEnv lay.shapes env) (hgrow : ∀ c n, n ≤ grow c n) (hm : Closed m)
    (hs : Reach grow lay env (Proper lay env) m s) {c : Task} (hc : c ∈ s.tasks) {bs : Bytes} {t : TypeId} {a : Addr}
    (hr : c.req = .unmarshal bs t a) {o : Outcome} (ho : c.act = .ret o) {T : Types} (hT : Graph lay T c.start)
    (ha : MsgAt lay T a t) (hg : ∀ (b : Nat) κ, T[b]? = some κ → κ = .other ∨ (∃ s, κ = .text s) ∨ b ∈ c.given) :
    ∃ v' err, unmarshal env bs (.msg t (env t).zero) = .ok ⟨.msg t v', err⟩ ∧ o = .unmarshal err := by
  obtain ⟨ms, H, S, _, hcall, _⟩ := returned (inv_reach (proper_ok hlay hwf hgrow) hm hs) hc ho
  obtain ⟨m', X, err, v', h1, _, h2, _⟩ := C63_unmarshal hlay hwf hgrow (graph_view hT hg) ha bs
  rw [hr] at hcall
  simp only [callF, h1, bind, Except.bind, pure, Except.pure] at hcall
  cases hcall
  exact ⟨v', err, h2, rfl⟩

/-- Some steps of call `i` bring the process from `s` to a state in which it has returned. -/
def Finishes (grow : Nat → Nat → Nat) (lay : Lay) (env : Env) (m : Mem) (s : Proc) (i : Nat) (c : Task) : Prop :=
  ∃ s' c' o, Reach grow lay env (Proper lay env) m s' ∧ s'.tasks[i]? = some c' ∧ c'.act = .ret o ∧
    c'.req = c.req ∧ c'.start = c.start ∧ c'.given = c.given ∧ ∀ j, j ≠ i → s'.tasks[j]? = s.tasks[j]?

theorem Finishes.back {i : Nat} {c c1 : Task} {s1 : Proc} (ht : s1.tasks = s.tasks.set i c1) (e1 : c1.req = c.req)
    (e2 : c1.start = c.start) (e3 : c1.given = c.given) (h : Finishes grow lay env m s1 i c1) : Finishes grow lay env m s i c := by
  obtain ⟨s', c', o, h1, h2, h3, h4, h5, h6, h7⟩ := h
  refine ⟨s', c', o, h1, h2, h3, h4.trans e1, h5.trans e2, h6.trans e3, fun j hj => ?_⟩
  rw [h7 j hj, ht, List.getElem?_set_ne (Ne.symm hj)]

/-- C67. Calls do not wait for each other: whatever the others are doing, a call can go on by itself until it returns. -/
theorem C67_completes (hlay : lay.OK) (hwf : WFEnv lay.shapes env) (hgrow : ∀ c n, n ≤ grow c n) (hm : Closed m)
    (hs : Reach grow lay env (Proper lay env) m s) {i : Nat} {c : Task} (hc : s.tasks[i]? = some c) :
    ∃ s' c' o, Reach grow lay env (Proper lay env) m s' ∧ s'.tasks[i]? = some c' ∧ c'.act = .ret o ∧
      c'.req = c.req ∧ c'.start = c.start ∧ c'.given = c.given ∧ ∀ j, j ≠ i → s'.tasks[j]? = s.tasks[j]? := by
  show Finishes grow lay env m s i c
  generalize hp : c.act = p
  induction p generalizing s c with
  | ret o => exact ⟨s, c, o, hs, hc, hp, rfl, rfl, rfl, fun _ _ => rfl⟩
  | fail f => exact absurd hp (C67_no_fault hlay hwf hgrow hm hs (List.mem_of_getElem? hc) f)
  | load a n al k ih =>
    have hl : i < s.tasks.length := (List.getElem?_eq_some_iff.mp hc).1
    obtain ⟨⟨cs, h1⟩, _⟩ := inv_load (inv_reach (proper_ok hlay hwf hgrow) hm hs) hc hp
    have h2 := Reach.step _ _ hs (.load s i c a n al k hc hp)
    rw [h1] at h2
    exact .back (c1 := { c with act := k cs }) rfl rfl rfl rfl
      (ih cs h2 (List.getElem?_set_self hl) rfl)
  | store a cs al k ih =>
    have hl : i < s.tasks.length := (List.getElem?_eq_some_iff.mp hc).1
    obtain ⟨m1, h1, _⟩ := inv_store (inv_reach (proper_ok hlay hwf hgrow) hm hs) hc hp
    exact .back (c1 := { c with act := k }) rfl rfl rfl rfl
      (ih (.step _ _ hs (.store s i c a cs al k m1 hc hp h1)) (List.getElem?_set_self hl) rfl)
  | data a n k ih =>
    have hl : i < s.tasks.length := (List.getElem?_eq_some_iff.mp hc).1
    obtain ⟨⟨bs, h1⟩, _⟩ := inv_data (inv_reach (proper_ok hlay hwf hgrow) hm hs) hc hp
    have h2 := Reach.step _ _ hs (.data s i c a n k hc hp)
    rw [h1] at h2
    exact .back (c1 := { c with act := k bs }) rfl rfl rfl rfl
      (ih bs h2 (List.getElem?_set_self hl) rfl)
  | alloc o k ih =>
    have hl : i < s.tasks.length := (List.getElem?_eq_some_iff.mp hc).1
    exact .back (c1 := { c with own := s.mem.length :: c.own, act := k s.mem.length }) rfl rfl rfl rfl
      (ih s.mem.length (.step _ _ hs (.alloc s i c o k hc hp)) (List.getElem?_set_self hl) rfl)
  | entries a k ih =>
    have hl : i < s.tasks.length := (List.getElem?_eq_some_iff.mp hc).1
    obtain ⟨⟨es, h1⟩, _⟩ := inv_entries (inv_reach (proper_ok hlay hwf hgrow) hm hs) hc hp
    have h2 := Reach.step _ _ hs (.entries s i c a k hc hp)
    rw [h1] at h2
    exact .back (c1 := { c with act := k es }) rfl rfl rfl rfl
      (ih es h2 (List.getElem?_set_self hl) rfl)
  | insert b e k ih =>
    have hl : i < s.tasks.length := (List.getElem?_eq_some_iff.mp hc).1
    obtain ⟨m1, h1, _⟩ := inv_insert (inv_reach (proper_ok hlay hwf hgrow) hm hs) hc hp
    exact .back (c1 := { c with act := k }) rfl rfl rfl rfl
      (ih (.step _ _ hs (.insert s i c b e k m1 hc hp h1)) (List.getElem?_set_self hl) rfl)
  | get n k ih =>
    have hl : i < s.tasks.length := (List.getElem?_eq_some_iff.mp hc).1
    exact .back (c1 := { c with own := s.mem.length :: c.own, act := k s.mem.length }) rfl rfl rfl rfl
      (ih s.mem.length (.step _ _ hs (.getNone s i c n k hc hp)) (List.getElem?_set_self hl) rfl)
  | put n b k ih =>
    have hl : i < s.tasks.length := (List.getElem?_eq_some_iff.mp hc).1
    exact .back (c1 := { c with own := c.own.filter (· ≠ b), act := k }) rfl rfl rfl rfl
      (ih (.step _ _ hs (.put s i c n b k hc hp)) (List.getElem?_set_self hl) rfl)

end

/-! ### Examples -/

/-- The pool without its first struct of size `n`, in two parts, and that struct. -/
def takeOut (n : Nat) : List (Nat × Nat) → Option (List (Nat × Nat) × Nat × List (Nat × Nat))
  | [] => none
  | (k, b) :: rest =>
    if k = n then some ([], b, rest)
    else
      match takeOut n rest with
      | some (xs, b', ys) => some ((k, b) :: xs, b', ys)
      | none => none

theorem takeOut_eq {n : Nat} {pool xs ys : List (Nat × Nat)} {b : Nat} (h : takeOut n pool = some (xs, b, ys)) :
    pool = xs ++ (n, b) :: ys := by
  induction pool generalizing xs b ys with
  | nil => cases h
  | cons e rest ih =>
    obtain ⟨k, b0⟩ := e
    simp only [takeOut] at h
    split at h
    · rename_i hk
      cases h; subst hk; rfl
    · split at h
      · rename_i hr
        cases h
        rw [ih hr]; rfl
      · cases h

/-- A step of call `i`, which takes a struct from the pool if there is one. -/
def goOn (s : Proc) (i : Nat) : Proc :=
  match s.tasks[i]? with
  | none => s
  | some c =>
    match c.act with
    | .ret _ | .fail _ => s
    | .load a n al k => s.acc i c (Flat.load s.mem a n al) k
    | .data a n k => s.acc i c (loadData s.mem a n) k
    | .entries a k => s.acc i c (mapEntries s.mem (some a)) k
    | .store a cs al k =>
      match Flat.store s.mem a cs al with
      | .ok m => { s.next i c k with mem := m }
      | .error f => s.next i c (.fail f)
    | .insert b e k =>
      match insertEntry s.mem b e with
      | .ok m => { s.next i c k with mem := m }
      | .error f => s.next i c (.fail f)
    | .alloc o k => { s.next i { c with own := s.mem.length :: c.own } (k s.mem.length) with mem := s.mem ++ [o] }
    | .get n k =>
      match takeOut n s.pool with
      | some (xs, b, ys) => { s.next i { c with own := b :: c.own } (k b) with pool := xs ++ ys }
      | none => { s.next i { c with own := s.mem.length :: c.own } (k s.mem.length) with mem := s.mem ++ [.mem (zeroCells n)] }
    | .put n b k => { s.next i { c with own := c.own.filter (· ≠ b) } k with pool := (n, b) :: s.pool }

theorem goOn_reach {ok : Mem → List Nat → Req → Prop} {m : Mem} {s : Proc} (hs : Reach grow lay env ok m s) (i : Nat) :
    Reach grow lay env ok m (goOn s i) := by
  unfold goOn
  split
  · exact hs
  rename_i c hi
  split
  · exact hs
  · exact hs
  · rename_i h; exact .step _ _ hs (.load s i c _ _ _ _ hi h)
  · rename_i h; exact .step _ _ hs (.data s i c _ _ _ hi h)
  · rename_i h; exact .step _ _ hs (.entries s i c _ _ hi h)
  · rename_i h
    split
    · exact .step _ _ hs (.store s i c _ _ _ _ _ hi h (by assumption))
    · exact .step _ _ hs (.storeFault s i c _ _ _ _ _ hi h (by assumption))
  · rename_i h
    split
    · exact .step _ _ hs (.insert s i c _ _ _ _ hi h (by assumption))
    · exact .step _ _ hs (.insertFault s i c _ _ _ _ hi h (by assumption))
  · rename_i h; exact .step _ _ hs (.alloc s i c _ _ hi h)
  · rename_i h
    split
    · rename_i h'; exact .step _ _ hs (.getSome s i c _ _ _ _ _ hi h (takeOut_eq h'))
    · exact .step _ _ hs (.getNone s i c _ _ hi h)
  · rename_i h; exact .step _ _ hs (.put s i c _ _ _ hi h)

/-- The calls go on in the given order. -/
def schedule (is : List Nat) (s : Proc) : Proc := is.foldl goOn s

theorem schedule_reach {ok : Mem → List Nat → Req → Prop} {m : Mem} (is : List Nat) {s : Proc} (hs : Reach grow lay env ok m s) :
    Reach grow lay env ok m (schedule is s) := by
  induction is generalizing s with
  | nil => exact hs
  | cons i is ih => exact ih (goOn_reach hs i)

/-- What the calls have returned. -/
def outcomes (s : Proc) : List (Option Outcome) := s.tasks.map fun c => match c.act with | .ret o => some o | _ => none

/-- Two messages `&Node{}`. -/
def twoNodes : Mem := [.mem (zeroCells 120), .mem (zeroCells 120)]

/-- One goroutine unmarshals `Attr: {"a": "b"}` into the first, another one an entry with the key `"c"` and no value into the
second. -/
def twoCalls : List Task :=
  [⟨.unmarshal [42, 6, 10, 1, 97, 18, 1, 98] 0 ⟨0, 0⟩, twoNodes, [0],
      reqAct (fun _ n => n) (goLay sampleTypes) Sample.env (.unmarshal [42, 6, 10, 1, 97, 18, 1, 98] 0 ⟨0, 0⟩), [0], []⟩,
    ⟨.unmarshal [42, 3, 10, 1, 99] 0 ⟨1, 0⟩, twoNodes, [1],
      reqAct (fun _ n => n) (goLay sampleTypes) Sample.env (.unmarshal [42, 3, 10, 1, 99] 0 ⟨1, 0⟩), [1], []⟩]

theorem twoNodes_holds (b : Nat) (hb : b < 2) : Holds (goLay sampleTypes) twoNodes 0 b Sample.emptyNode [] := by
  have hl := (C61_layout sampleTypes sampleTypes_ok).1
  have hwf : WFEnv (goLay sampleTypes).shapes Sample.env := by rw [sampleTypes_shapes]; exact Sample.wf
  have h1 : Holds (goLay sampleTypes) ([.mem (zeroCells 120)] ++ [.mem (zeroCells 120)]) 0 1 Sample.emptyNode [] :=
    C61_new hl hwf [.mem (zeroCells 120)] 0
  match b with
  | 1 => exact h1
  | 0 =>
    obtain ⟨⟨vs, cs, e, k1, k2, k3⟩, _⟩ := h1
    exact ⟨⟨vs, cs, e, by cases k1; rfl, k2, k3⟩, by simp⟩

theorem twoNodes_closed : Closed twoNodes := by
  intro o ho
  simp only [twoNodes, List.mem_cons, List.not_mem_nil, or_false, or_self] at ho
  subst ho
  intro c hc a k h
  rw [zeroCells, List.mem_replicate] at hc
  rw [hc.2] at h; cases h

/-- Both calls are under way. -/
theorem twoCalls_reach :
    Reach (fun _ n => n) (goLay sampleTypes) Sample.env (Proper (goLay sampleTypes) Sample.env) twoNodes ⟨twoNodes, [], twoCalls⟩ := by
  have hf : FitsMsg (goLay sampleTypes).shapes 0 Sample.emptyNode := by rw [sampleTypes_shapes]; exact Sample.emptyNode_fits
  refine .step _ _ (.step _ _ .start (.call _ (.unmarshal [42, 6, 10, 1, 97, 18, 1, 98] 0 ⟨0, 0⟩) [0] ?_ ?_ ?_ ?_))
    (.call _ (.unmarshal [42, 3, 10, 1, 99] 0 ⟨1, 0⟩) [1] ?_ ?_ ?_ ?_)
  · exact .unmarshal _ 0 0 Sample.emptyNode [] (twoNodes_holds 0 (by omega)) hf (by simp)
  · intro b _ c hc; cases hc
  · intro b _ c hc; cases hc
  · intro b hb
    rw [List.mem_singleton] at hb; subst hb
    exact ⟨by simp [twoNodes], fun n hn => by cases hn⟩
  · exact .unmarshal _ 0 1 Sample.emptyNode [] (twoNodes_holds 1 (by omega)) hf (by simp)
  · intro b hb c hc
    simp only [List.nil_append, List.mem_singleton] at hb hc
    subst hb hc; simp [Req.writes]
  · intro b hb c hc
    simp only [List.nil_append, List.mem_singleton] at hc
    subst hc; simp [Req.reads]
  · intro b hb
    rw [List.mem_singleton] at hb; subst hb
    exact ⟨by simp [twoNodes], fun n hn => by cases hn⟩

-- one after the other: the second call takes the struct (allocation 3) that the first has put into the pool; its entry has the
-- value `""` all the same
example : let s := schedule (List.replicate 21 0 ++ List.replicate 19 1) ⟨twoNodes, [], twoCalls⟩
    outcomes s = [some (.unmarshal none), some (.unmarshal none)] ∧ s.pool = [(32, 3)] ∧ s.mem.length = 12 ∧
      s.mem[8]? = some (.map [(10, 11)]) ∧ s.mem[10]? = some (.mem (ptrCells (some ⟨9, 0⟩) ++ intCells 1)) ∧
      s.mem[9]? = some (.ro [99]) ∧ s.mem[11]? = some (.mem (zeroCells 16)) := by decide +kernel

-- in turns: each call has a struct of its own
example : let s := schedule (List.replicate 21 [0, 1]).flatten ⟨twoNodes, [], twoCalls⟩
    outcomes s = [some (.unmarshal none), some (.unmarshal none)] ∧ s.pool = [(32, 4), (32, 5)] ∧ s.mem.length = 13 := by
  decide +kernel

-- these are states of the theorems above: all hypotheses of `C67_unmarshal` at once, after any schedule
example (is : List Nat) : (goLay sampleTypes).OK ∧ WFEnv (goLay sampleTypes).shapes Sample.env ∧ Closed twoNodes ∧
    Reach (fun _ n => n) (goLay sampleTypes) Sample.env (Proper (goLay sampleTypes) Sample.env) twoNodes
      (schedule is ⟨twoNodes, [], twoCalls⟩) ∧
    Holds (goLay sampleTypes) twoNodes 0 1 Sample.emptyNode [] ∧ FitsMsg (goLay sampleTypes).shapes 0 Sample.emptyNode := by
  refine ⟨(C61_layout sampleTypes sampleTypes_ok).1, ?_, twoNodes_closed, schedule_reach is twoCalls_reach, twoNodes_holds 1 (by omega), ?_⟩
  · rw [sampleTypes_shapes]; exact Sample.wf
  · rw [sampleTypes_shapes]; exact Sample.emptyNode_fits

-- so in every order in which the second call returns, its message is `&Node{Attr: {"c": ""}}`
example (is : List Nat) (c : Task) (h : (schedule is ⟨twoNodes, [], twoCalls⟩).tasks[1]? = some c)
    (hr : c.req = .unmarshal [42, 3, 10, 1, 99] 0 ⟨1, 0⟩) (hst : c.start = twoNodes) (hg : c.given = [1]) (o : Outcome)
    (ho : c.act = .ret o) :
    o = .unmarshal none ∧ ∃ B, Holds (goLay sampleTypes) (schedule is ⟨twoNodes, [], twoCalls⟩).mem 0 1
      (.struct [.w32 0#32, .str [], .slice true [] [], .opt false (.w64 0#64), .map false [(.str [99#8], .str [])], .opaque 0,
        .bytes none, .nilp]) B := by
  have hwf : WFEnv (goLay sampleTypes).shapes Sample.env := by rw [sampleTypes_shapes]; exact Sample.wf
  have hf : FitsMsg (goLay sampleTypes).shapes 0 Sample.emptyNode := by rw [sampleTypes_shapes]; exact Sample.emptyNode_fits
  obtain ⟨v', B', err, h1, h2, h3, _⟩ := C67_unmarshal (C61_layout sampleTypes sampleTypes_ok).1 hwf (fun _ _ => Nat.le_refl _)
    twoNodes_closed (schedule_reach is twoCalls_reach) (List.mem_of_getElem? h) hr ho
    (v := Sample.emptyNode) (B := []) (by rw [hst]; exact twoNodes_holds 1 (by omega)) hf (by rw [hg]; simp)
  cases h1
  exact ⟨h2, B', h3⟩

/-- C67. The condition that no other call uses the message is needed: two calls of Unmarshal on the same message get to a point where
both are about to write to it. -/
theorem C67_needs_own_message : ∃ is, ((schedule is ⟨twoNodes, [], [twoCalls.head (by simp [twoCalls]), twoCalls.head (by simp [twoCalls])]⟩).tasks.map
    fun c => c.act.writesTo) = [some 0, some 0] := ⟨[0, 0, 1, 1], by decide +kernel⟩

end Pb.Props
