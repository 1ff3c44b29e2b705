import Verif.Proofs.CacheWrite
import Verif.Props.SourceShared
/-
C81: codecs and type infos in memory that goroutines share. They are allocated empty, filled in later, and found by other goroutines in the
caches. `Reachable D s` ranges over all interleavings, as for C41; `Touches s i o` are the objects that a call of `Size`, `Marshal` or
`Unmarshal` with the type info at `i` can come to.
-/
namespace Pb.Props
open Spec Cache

variable {D : Decls} {s s' : Cache.Sys}

/-- C81. Whatever a goroutine is about to fill in has been allocated and not been filled in before. -/
theorem C81_written_once (h : Reachable D s) {n : Nat} {t : TypeId} {o : Op} {k : o.Resp → Cache.Prog Nat}
    (hn : s.threads[n]? = some ⟨t, .op o k⟩) {x : Obj} (hx : o.fills = some x) :
    SameObj s.state s.state x ∧ ¬ s.state.ready x := by
  obtain ⟨own, hO, hK⟩ := writeInv h
  have hm := (hK n _ hn).1
  cases o with
  | setInfo i fs =>
    cases hx
    obtain ⟨key, hi⟩ := hO.openI n i hm
    exact ⟨⟨_, hi, hi⟩, fun ⟨k', fs', h'⟩ => by rw [hi] at h'; cases h'⟩
  | setCodec c b =>
    cases hx
    have hc : s.state.codecs[c]? = some none := hO.openC n c hm
    exact ⟨⟨_, hc, hc⟩, fun ⟨b', h'⟩ => by rw [hc] at h'; cases h'⟩
  | _ => cases hx

/-- C81. No two goroutines are about to fill in the same object. -/
theorem C81_one_writer (h : Reachable D s) {n m : Nat} {t u : TypeId} {o o' : Op} {k : o.Resp → Cache.Prog Nat} {k' : o'.Resp → Cache.Prog Nat}
    (hn : s.threads[n]? = some ⟨t, .op o k⟩) (hm : s.threads[m]? = some ⟨u, .op o' k'⟩) {x : Obj} (hx : o.fills = some x)
    (hx' : o'.fills = some x) : n = m := by
  obtain ⟨own, hO, hK⟩ := writeInv h
  have h1 := (hK n _ hn).1
  have h2 := (hK m _ hm).1
  apply Classical.byContradiction
  intro hne
  cases o with
  | setInfo i fs =>
    cases hx
    cases o' with
    | setInfo i' fs' => cases hx'; exact hO.apartI n m hne _ h1 h2
    | _ => cases hx'
  | setCodec c b =>
    cases hx
    cases o' with
    | setCodec c' b' => cases hx'; exact hO.apartC n m hne _ h1 h2
    | _ => cases hx'
  | _ => cases hx

/-- C81. What has been filled in never changes again. -/
theorem C81_fixed (h : Reachable D s) (hs : Steps D s s') {x : Obj} (hx : s.state.ready x) : SameObj s.state s'.state x :=
  (fixed_steps h hs).2.same hx

/-- C81. A codec found in `codecCache` or `sliceMap` is found there ever after. -/
theorem C81_codec_found (h : Reachable D s) (hs : Steps D s s') :
    (∀ t p, s.state.codecCache t = some p → s'.state.codecCache t = some p) ∧
    ∀ c p, s.state.sliceMap c = some p → s'.state.sliceMap c = some p :=
  ⟨(fixed_steps h hs).2.codecCache, (fixed_steps h hs).2.sliceMap⟩

/-- C81. A goroutine that has got the type info at `i` can come to objects only that have been filled in, to the same objects at any later time, and
finds the same there: it is no matter which operations of other goroutines come between its reads. Partial: message types that contain
themselves, while they are being analysed (`C81_false_race`), and programs that are not `Consistent`. -/
theorem C81_reads_partial (h : Reachable D s) (hC : ∀ t ∈ s.threads, Consistent D t.root)
    (hq : (∃ rank, Acyclic D rank) ∨ Settled s) {k i : Nat} {t : TypeId} (hk : s.threads[k]? = some ⟨t, .ret i⟩) (hs : Steps D s s') :
    (∀ x, Touches s.state i x → s.state.ready x ∧ SameObj s.state s'.state x) ∧
    ∀ x, Touches s'.state i x ↔ Touches s.state i x := by
  have hF := (fixed_steps h hs).2
  have hI : ∃ G, Cache.Inv D True s.state G ∧ At s.state i t := by
    rcases hq with ⟨rank, hA⟩ | hq
    · obtain ⟨G, Ps, hI⟩ := sysInv (must := True) (fun _ => hA) h hC
      exact ⟨G, hI.inv, (returned hI hk).1⟩
    · obtain ⟨G, hI, hat⟩ := settled_inv h hC hq
      exact ⟨G, hI, hat k t i hk⟩
  obtain ⟨G, hI, hat⟩ := hI
  have hr : ∀ x, Touches s.state i x → s.state.ready x := fun x hx => ready_touches hI hat.2 hx
  exact ⟨fun x hx => ⟨hr x hx, hF.same (hr x hx)⟩, hF.touches hr⟩

/-- C81. Such a goroutine may read each object at another time, and finds fields and codecs as if it had read all of them when it got the type info.
Partial: as above. -/
theorem C81_any_time_partial (h : Reachable D s) (hC : ∀ t ∈ s.threads, Consistent D t.root)
    (hq : (∃ rank, Acyclic D rank) ∨ Settled s) {k i : Nat} {t : TypeId} (hk : s.threads[k]? = some ⟨t, .ret i⟩) {j : Nat}
    (hj : Touches s.state i (.info j)) :
    ∃ key fs, s.state.infos[j]? = some ⟨key, some fs⟩ ∧
      (∀ s', Steps D s s' → s'.state.infos[j]? = some ⟨key, some fs⟩) ∧
      ∀ f ∈ fs, ∀ d c, ReadsAs (fun x => ∃ s', Steps D s s' ∧ s'.state = x) d f.codec c → c = s.state.codecAt d f.codec := by
  have hr : ∀ x, Touches s.state i x → s.state.ready x := fun x hx => ((C81_reads_partial h hC hq hk .refl).1 x hx).1
  obtain ⟨key, fs, hi⟩ := hr _ hj
  refine ⟨key, fs, hi, fun s' hs => (fixed_steps h hs).2.info _ _ _ hi, fun f hf d c hc => ?_⟩
  refine reads_same (i := i) ?_ hr hc ?_
  · rintro x ⟨s', hs, rfl⟩
    exact (fixed_steps h hs).2
  · cases hc : f.codec with
    | glob g => trivial
    | heap n => exact .field j key fs f n hj hi hf hc

/-- C81. So no goroutine writes what a call that has its type info can read. -/
theorem C81_no_race_partial (h : Reachable D s) (hC : ∀ t ∈ s.threads, Consistent D t.root) {rank : TypeId → Nat} (hA : Acyclic D rank)
    {k i : Nat} {t : TypeId} (hk : s.threads[k]? = some ⟨t, .ret i⟩) {n : Nat} {u : TypeId} {o : Op} {c : o.Resp → Cache.Prog Nat}
    (hn : s.threads[n]? = some ⟨u, .op o c⟩) {x : Obj} (hx : o.fills = some x) : ¬ Touches s.state i x :=
  fun ht => (C81_written_once h hn hx).2 ((C81_reads_partial h hC (.inl ⟨rank, hA⟩) hk .refl).1 x ht).1

/-! ### The source text -/

open Go.An (DeclFits Sound TextStep TextSteps TextReachable walkProgram) in
theorem steps_of_text {m : Nat} (hm : 2 ≤ m) (hD : ∀ t, DeclFits D m (.named t)) {n : Nat} (hn : 3 * m + 5 ≤ n)
    (hS : ∀ t, ∀ f ∈ D t, Sound f) (h : TextSteps walkProgram D n s s') : Steps D s s' := by
  have e := C79_analysis_eq hm hD hn hS
  induction h with
  | refl => exact .refl
  | tail a b _ hst ih =>
    refine .tail a b ih ?_
    cases hst with
    | call d t => rw [e]; exact .call a d t
    | run i t o k hi => exact .run a i t o k hi

open Go.An (DeclFits Sound TextStep TextSteps TextReachable walkProgram) in
theorem text_of_steps {m : Nat} (hm : 2 ≤ m) (hD : ∀ t, DeclFits D m (.named t)) {n : Nat} (hn : 3 * m + 5 ≤ n)
    (hS : ∀ t, ∀ f ∈ D t, Sound f) (h : Steps D s s') : TextSteps walkProgram D n s s' := by
  have e := C79_analysis_eq hm hD hn hS
  induction h with
  | refl => exact .refl
  | tail a b _ hst ih =>
    refine .tail a b ih ?_
    cases hst with
    | call d t => rw [← e]; exact .call a d t
    | run i t o k hi => exact .run a i t o k hi

open Go.An (DeclFits Sound TextStep TextSteps TextReachable walkProgram) in
/-- C81. Goroutines that run the source text of type analysis: what has been filled in never changes. -/
theorem C81_text_fixed {m : Nat} (hm : 2 ≤ m) (hD : ∀ t, DeclFits D m (.named t)) {n : Nat} (hn : 3 * m + 5 ≤ n)
    (hS : ∀ t, ∀ f ∈ D t, Sound f) (h : TextReachable walkProgram D n s) (hs : TextSteps walkProgram D n s s') {x : Obj}
    (hx : s.state.ready x) : SameObj s.state s'.state x :=
  C81_fixed ((C79_process hm hD hn hS s).mp h) (steps_of_text hm hD hn hS hs) hx

open Go.An (DeclFits Sound TextStep TextSteps TextReachable walkProgram) in
/-- C81. Under the conditions of C80, what the source text of `Size`, `Marshal` and `Unmarshal` can read is the same while other goroutines go on
with the source text of type analysis. Partial: as `C81_reads_partial`. -/
theorem C81_text_reads_partial {t : TypeId} {i : Nat} (hG : Go.Got D s t i) {m : Nat} (hm : 2 ≤ m) (hD : ∀ t, DeclFits D m (.named t)) {n : Nat}
    (hn : 3 * m + 5 ≤ n) (hs : TextSteps walkProgram D n s s') :
    (∀ x, Touches s.state i x → s.state.ready x ∧ SameObj s.state s'.state x) ∧
    ∀ x, Touches s'.state i x ↔ Touches s.state i x := by
  obtain ⟨m', n', hm', hD', hn', hr⟩ := hG.reached
  obtain ⟨k, hk⟩ := hG.got
  exact C81_reads_partial ((C79_process hm' hD' hn' hG.sound s).mp hr) hG.consistent hG.quiet hk (steps_of_text hm hD hn hG.sound hs)

theorem steps_ret {k i : Nat} {t : TypeId} (hk : s.threads[k]? = some ⟨t, .ret i⟩) (hs : Steps D s s') : s'.threads[k]? = some ⟨t, .ret i⟩ := by
  induction hs with
  | refl => exact hk
  | tail a b _ hst ih =>
    cases hst with
    | call d u =>
      show (a.threads ++ _)[k]? = _
      rw [List.getElem?_append_left (List.getElem?_eq_some_iff.mp ih).1]
      exact ih
    | run j u o c hj =>
      show (a.threads.set j _)[k]? = _
      rw [List.getElem?_set_ne]
      · exact ih
      · rintro rfl
        rw [ih] at hj
        cases hj

open Go.An (DeclFits Sound TextStep TextSteps TextReachable walkProgram) in
/-- C81. If no message type contains itself, a goroutine can use the type info it has got at any later time: all of C80 holds then, whatever analyses
are under way. -/
theorem C81_got_later_partial {t : TypeId} {i : Nat} (hG : Go.Got D s t i) {rank : TypeId → Nat} (hA : Acyclic D rank) {m : Nat} (hm : 2 ≤ m)
    (hD : ∀ t, DeclFits D m (.named t)) {n : Nat} (hn : 3 * m + 5 ≤ n) (hs : TextSteps walkProgram D n s s')
    (hC : ∀ t ∈ s'.threads, Consistent D t.root) : Go.Got D s' t i := by
  obtain ⟨m', n', hm', hD', hn', hr⟩ := hG.reached
  obtain ⟨k, hk⟩ := hG.got
  have hst := steps_of_text hm hD hn hG.sound hs
  have hr' := (fixed_steps ((C79_process hm' hD' hn' hG.sound s).mp hr) hst).1
  exact
    { reached := ⟨m, n, hm, hD, hn, (C79_process hm hD hn hG.sound s').mpr hr'⟩
      sound := hG.sound
      consistent := hC
      quiet := .inl ⟨rank, hA⟩
      got := ⟨k, steps_ret hk hst⟩ }

/-! ### Cases -/

/-- Which object a goroutine fills in next. -/
def nextFills : Cache.Prog Nat → Option Obj
  | .op o _ => o.fills
  | _ => none

theorem nextFills_eq {p : Cache.Prog Nat} {x : Obj} (h : nextFills p = some x) : ∃ o k, p = .op o k ∧ o.fills = some x := by
  cases p with
  | op o k => exact ⟨o, k, rfl, h⟩
  | _ => cases h

/-- The codec of the first field of a type info. -/
def firstCodec : Option InfoObj → Option CPtr
  | some ⟨_, some (f :: _)⟩ => some f.codec
  | _ => none

theorem firstCodec_eq {x : Option InfoObj} {c : CPtr} (h : firstCodec x = some c) : ∃ k f fs, x = some ⟨k, some (f :: fs)⟩ ∧ f.codec = c := by
  unfold firstCodec at h
  split at h
  · next k f fs => cases h; exact ⟨k, f, fs, rfl, rfl⟩
  · cases h

/-- The type and type info of a codec for messages. -/
def msgBody : Option (Option CBody) → Option (TypeId × Nat)
  | some (some (.msg t i)) => some (t, i)
  | _ => none

theorem msgBody_eq {x : Option (Option CBody)} {t : TypeId} {i : Nat} (h : msgBody x = some (t, i)) : x = some (some (.msg t i)) := by
  unfold msgBody at h
  split at h
  · cases h; rfl
  · cases h

theorem steps_trans {s'' : Cache.Sys} (h : Steps D s s') (h' : Steps D s' s'') : Steps D s s'' := by
  induction h' with
  | refl => exact h
  | tail a b _ hst ih => exact .tail a b ih hst

theorem steps_run (n : Nat) : ∀ {s : State} {ts : List Thread} {j : Nat} {t : TypeId} {p : Cache.Prog Nat},
    ts[j]? = some ⟨t, p⟩ → Steps D ⟨s, ts⟩ ⟨(runN n p s).2, ts.set j ⟨t, (runN n p s).1⟩⟩ := by
  have same : ∀ {ts : List Thread} {j : Nat} {x : Thread}, ts[j]? = some x → ts.set j x = ts := by
    intro ts j x hj
    apply List.ext_getElem?
    intro m
    rw [List.getElem?_set]
    split
    · next h => subst h; rw [hj]; simp [(List.getElem?_eq_some_iff.mp hj).1]
    · rfl
  induction n with
  | zero => intro s ts j t p hj; simp only [runN]; rw [same hj]; exact .refl
  | succ n ih =>
    intro s ts j t p hj
    have hl : j < ts.length := (List.getElem?_eq_some_iff.mp hj).1
    cases p with
    | op o k =>
      refine steps_trans (.tail _ _ .refl (Step.run ⟨s, ts⟩ j t o k hj)) ?_
      have := ih (s := (exec o s).2) (ts := ts.set j ⟨t, k (exec o s).1⟩) (j := j) (t := t) (p := k (exec o s).1) (by simp [hl])
      rw [List.set_set] at this
      exact this
    | ret a => simp only [runN]; rw [same hj]; exact .refl
    | panic => simp only [runN]; rw [same hj]; exact .refl
    | stuck => simp only [runN]; rw [same hj]; exact .refl

set_option maxRecDepth 100000 in
/-- C81 is false of message types that contain each other: the second goroutine has its type info, and can come from there to the type info that
the first is about to fill in. There is nothing in the code to order that write and the reads: a data race. -/
theorem C81_false_race : ∃ (s : Cache.Sys) (i : Nat) (o : Op) (k : o.Resp → Cache.Prog Nat) (x : Obj), Reachable mutualDecls s ∧
    (∀ r, Consistent mutualDecls r) ∧ s.threads[1]? = some ⟨1, .ret i⟩ ∧ s.threads[0]? = some ⟨0, .op o k⟩ ∧ o.fills = some x ∧
    Touches s.state i x := by
  have h := reach_call 9 9 1 (reach_call 16 9 0 (Reachable.init (D := mutualDecls)))
  have hf : nextFills (runN 16 (cachedStructInfoOf mutualDecls 9 0) State.init).1 = some (.info 0) := by decide +kernel
  obtain ⟨o, k, hp, hx⟩ := nextFills_eq hf
  refine ⟨_, 1, o, k, .info 0, h, fun r => (mutualDecls_uniform r).consistent, ?_, ?_, hx, ?_⟩
  · exact congrArg (fun p => some (Thread.mk 1 p)) (returns_eq (by decide +kernel))
  · exact congrArg (fun p => some (Thread.mk 0 p)) hp
  · obtain ⟨key, f, fs, hi, hc⟩ := firstCodec_eq (x := (runN 9 (cachedStructInfoOf mutualDecls 9 1)
      (runN 16 (cachedStructInfoOf mutualDecls 9 0) State.init).2).2.infos[1]?) (c := .heap 1) (by decide +kernel)
    have hb := msgBody_eq (x := (runN 9 (cachedStructInfoOf mutualDecls 9 1)
      (runN 16 (cachedStructInfoOf mutualDecls 9 0) State.init).2).2.codecs[1]?) (t := 0) (i := 0) (by decide +kernel)
    exact .ref 1 (.msg 0 0) _ (.field 1 key (f :: fs) f 1 .root hi List.mem_cons_self hc) hb List.mem_cons_self

/-- A message type with one field. -/
def oneDecls : Decls
  | 0 => [Sample.tagged "varint,1,opt" .bool]
  | _ => []

theorem oneDecls_uniform (r : TypeId) : Uniform oneDecls r where
  plain t _ f hf _ := by
    match t with
    | 0 => cases List.mem_singleton.mp hf; exact .one _ .bool
    | t + 1 => cases hf
  zigzag t u _ _ f hf g _ _ _ T hT hfT := by
    match t with
    | 0 => cases List.mem_singleton.mp hf; cases hfT
    | t + 1 => cases hf

/-- Two goroutines have analysed the type of `oneDecls` up to the write to `structInfoCache`, and the first has written there. -/
def twoStored : Cache.Sys :=
  let a := runN 4 (cachedStructInfoOf oneDecls 9 0) State.init
  let b := runN 4 (cachedStructInfoOf oneDecls 9 0) a.2
  let c := runN 9 a.1 b.2
  ⟨c.2, [⟨0, c.1⟩, ⟨0, b.1⟩]⟩

theorem twoStored_reachable : Reachable oneDecls twoStored :=
  reach_run 9 (j := 0) (reach_call 4 9 0 (reach_call 4 9 0 (Reachable.init (D := oneDecls)))) rfl

set_option maxRecDepth 100000 in
/-- C81. What is found in `structInfoCache` can change: walker.go:273 `Store` replaces the type info that another goroutine has stored for the
type. (Both work.) -/
theorem C81_info_replaced : ∃ s s', Reachable oneDecls s ∧ Steps oneDecls s s' ∧ s.state.infoCache (.named 0) = some 0 ∧
    s'.state.infoCache (.named 0) = some 1 :=
  ⟨twoStored, _, twoStored_reachable, steps_run 9 (j := 1) (t := 0) (p := twoStored.threads[1].prog) rfl, by decide +kernel, by decide +kernel⟩

theorem oneDecls_acyclic : Acyclic oneDecls fun _ => 0 := by
  intro t f hf _ _ T u hT hm
  match t with
  | 0 => cases List.mem_singleton.mp hf; cases hT; cases hm
  | t + 1 => cases hf

set_option maxRecDepth 100000 in
/-- A goroutine that has its type info, and another that goes on. -/
example : ∃ s s', Steps oneDecls s s' ∧ s.state.infoCache (.named 0) ≠ s'.state.infoCache (.named 0) ∧
    ∀ x, Touches s.state 0 x → s.state.ready x ∧ SameObj s.state s'.state x := by
  obtain ⟨s', hs, he⟩ : ∃ s', Steps oneDecls twoStored s' ∧ s'.state.infoCache (.named 0) = some 1 :=
    ⟨_, steps_run 9 (j := 1) (t := 0) (p := twoStored.threads[1].prog) rfl, by decide +kernel⟩
  refine ⟨twoStored, s', hs, ?_, (C81_reads_partial (k := 0) (t := 0) twoStored_reachable
    (fun t _ => (oneDecls_uniform t.root).consistent) (.inl ⟨_, oneDecls_acyclic⟩) ?_ hs).1⟩
  · rw [he]; decide +kernel
  · exact congrArg (fun p => some (Thread.mk 0 p)) (returns_eq (by decide +kernel))

set_option maxRecDepth 100000 in
/-- Message types that contain each other, analysed. However others go on, and whenever the objects are read, the codec of the field of `B` is a
codec for messages of the type `A`, with its type info. -/
example : ∃ s, Reachable mutualDecls s ∧ s.threads = [⟨0, .ret 0⟩] ∧ Touches s.state 0 (.info 1) ∧
    ∀ d c, ReadsAs (fun x => ∃ s', Steps mutualDecls s s' ∧ s'.state = x) (d + 1) (.heap 1) c ↔ c = .msg 0 := by
  have h := reach_call 99 9 0 (Reachable.init (D := mutualDecls))
  have hr : (runN 99 (cachedStructInfoOf mutualDecls 9 0) State.init).1 = .ret 0 := returns_eq (by decide +kernel)
  obtain ⟨key, f, fs, hi, hc⟩ := firstCodec_eq (x := (runN 99 (cachedStructInfoOf mutualDecls 9 0) State.init).2.infos[0]?) (c := .heap 0)
    (by decide +kernel)
  obtain ⟨key', f', fs', hi', hc'⟩ := firstCodec_eq (x := (runN 99 (cachedStructInfoOf mutualDecls 9 0) State.init).2.infos[1]?) (c := .heap 1)
    (by decide +kernel)
  have hb := msgBody_eq (x := (runN 99 (cachedStructInfoOf mutualDecls 9 0) State.init).2.codecs[0]?) (t := 1) (i := 1) (by decide +kernel)
  have hb' := msgBody_eq (x := (runN 99 (cachedStructInfoOf mutualDecls 9 0) State.init).2.codecs[1]?) (t := 0) (i := 0) (by decide +kernel)
  rw [hr] at h
  generalize (runN 99 (cachedStructInfoOf mutualDecls 9 0) State.init).2 = s at *
  have ht : Touches s 0 (.info 1) := .ref 0 (.msg 1 1) _ (.field 0 key (f :: fs) f 0 .root hi List.mem_cons_self hc) hb List.mem_cons_self
  have hq : Settled (Cache.Sys.mk s ([] ++ [⟨0, .ret 0⟩])) := fun t ht => ⟨0, by cases List.mem_singleton.mp ht; rfl⟩
  refine ⟨_, h, rfl, ht, fun d c => ?_⟩
  have e : s.codecAt (d + 1) (.heap 1) = .msg 0 := by simp only [State.codecAt, hb']
  obtain ⟨k', gs, h1, _, h3⟩ := C81_any_time_partial h (fun t _ => (mutualDecls_uniform t.root).consistent) (.inr hq) (k := 0) rfl ht
  simp only at h1 h3
  rw [hi'] at h1
  cases h1
  constructor
  · intro hc
    have := h3 f' List.mem_cons_self (d + 1) c (by rw [hc']; exact hc)
    rw [hc', e] at this
    exact this
  · rintro rfl
    rw [← e]
    exact reads_self ⟨_, .refl, rfl⟩ _ _

theorem one_fits (t : TypeId) : Go.An.DeclFits oneDecls 2 (.named t) := by
  match t with
  | 0 => exact ⟨by decide, fun f hf => by cases List.mem_singleton.mp hf; decide⟩
  | t + 1 => exact ⟨Nat.zero_le _, fun f hf => by cases hf⟩

theorem one_sound (t : TypeId) (f : FieldDecl) (hf : f ∈ oneDecls t) : Go.An.Sound f := by
  match t with
  | 0 => cases List.mem_singleton.mp hf; exact trivial
  | t + 1 => cases hf

set_option maxRecDepth 100000 in
/-- The same with the source text. -/
example : ∃ s', Go.An.TextSteps Go.An.walkProgram oneDecls 11 twoStored s' ∧
    twoStored.state.infoCache (.named 0) ≠ s'.state.infoCache (.named 0) ∧ Go.Got oneDecls twoStored 0 0 ∧
    ∀ x, Touches twoStored.state 0 x → twoStored.state.ready x ∧ SameObj twoStored.state s'.state x := by
  obtain ⟨s', hs, he⟩ : ∃ s', Steps oneDecls twoStored s' ∧ s'.state.infoCache (.named 0) = some 1 :=
    ⟨_, steps_run 9 (j := 1) (t := 0) (p := twoStored.threads[1].prog) rfl, by decide +kernel⟩
  have ht := text_of_steps (n := 11) (by decide) one_fits (by decide) one_sound hs
  have hG : Go.Got oneDecls twoStored 0 0 :=
    { reached := ⟨2, 11, by decide, one_fits, by decide, (C79_process (by decide) one_fits (by decide) one_sound _).mpr twoStored_reachable⟩
      sound := one_sound
      consistent := fun t _ => (oneDecls_uniform t.root).consistent
      quiet := .inl ⟨_, oneDecls_acyclic⟩
      got := ⟨0, congrArg (fun p => some (Thread.mk 0 p)) (returns_eq (by decide +kernel))⟩ }
  refine ⟨s', ht, ?_, hG, (C81_text_reads_partial hG (by decide) one_fits (by decide) ht).1⟩
  rw [he]; decide +kernel

end Pb.Props
