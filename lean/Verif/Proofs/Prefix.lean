import Verif.Proofs.Fold
/-
Truncated inputs, and the part of an input that was processed before a failure.
-/
namespace Pb
open Spec

theorem lookup_declared {fields : List Field} {n : Nat} {f : Field} : lookup fields n = some f ↔ Declared fields n f := by
  unfold lookup Declared
  rw [List.find?_eq_some_iff_append]
  constructor
  · rintro ⟨h1, as, bs, h2, h3⟩
    refine ⟨bs.reverse, as.reverse, ?_, by simpa using Eq.symm (by simpa using h1), ?_⟩
    · have := congrArg List.reverse h2
      simpa using this
    · intro g hg e
      have := h3 g (by simpa using hg)
      simp at this
      exact this e.symm
  · rintro ⟨xs, ys, rfl, h1, h2⟩
    refine ⟨by simpa using h1.symm, ys.reverse, xs.reverse, by simp, ?_⟩
    intro g hg
    simp at hg
    simpa using fun e => h2 g hg e.symm

theorem lookup_undeclared {fields : List Field} {n : Nat} : lookup fields n = none ↔ Undeclared fields n := by
  unfold lookup Undeclared
  rw [List.find?_eq_none]
  constructor
  · intro h g hg e; exact h g (by simpa using hg) (by simpa using e.symm)
  · intro h g hg e; exact h g (by simpa using hg) (by simpa using Eq.symm (by simpa using e))

theorem idxM_declared {env : Env} {t : TypeId} {n : Nat} {f : Field} (h : Declared (env t).fields n f) :
    idxM env t n = some (toD (zerosOf env) (decM env) f) := by
  unfold idxM; rw [lookup_declared.mpr h]; rfl

theorem idxM_undeclared {env : Env} {t : TypeId} {n : Nat} (h : Undeclared (env t).fields n) : idxM env t n = none := by
  unfold idxM; rw [lookup_undeclared.mpr h]; rfl

theorem idxM_some {env : Env} {t : TypeId} {n : Nat} {d : DField} (h : idxM env t n = some d) :
    ∃ f, Declared (env t).fields n f ∧ d = toD (zerosOf env) (decM env) f := by
  unfold idxM at h
  simp at h
  obtain ⟨g, hg, rfl⟩ := h
  exact ⟨g, lookup_declared.mp hg, rfl⟩

theorem Declared.mem {fields : List Field} {n : Nat} {f : Field} (h : Declared fields n f) : f ∈ fields := by
  obtain ⟨xs, ys, rfl, _⟩ := h; simp

theorem Declared.num {fields : List Field} {n : Nat} {f : Field} (h : Declared fields n f) :
    keyNumber f.tag.wiretag = n := by
  obtain ⟨xs, ys, _, h, _⟩ := h; exact h

/-! ### truncation -/

theorem decodeVarint_prefix {p q : Bytes} {n : Nat} (h : Varint (p ++ q) n) (hq : q ≠ []) :
    (decodeVarint p).2.2 = some .unexpectedEOF := by
  have key : ∀ p' r m, p = p' ++ r → Varint p' m → False := by
    intro p' r m e h'
    subst e
    have := (h.prefix_unique (r := []) (s := r ++ q) h' (by simp)).2.2
    simp at this
    exact hq this.2
  rcases decodeVarint_cases p with ⟨p', r, m, e, hp, _⟩ | ⟨p', r, m, e, hp, _⟩ | ⟨_, y, e⟩
  · exact (key p' r m e hp).elim
  · exact (key p' r m e hp).elim
  · rw [e]

theorem decodeTag_prefix {p q : Bytes} {num wt : Nat} (h : TagBytes (p ++ q) num wt) (hq : q ≠ []) :
    (decodeTag p).2.2.2 = some .unexpectedEOF := by
  have := decodeVarint_prefix h.2.1 hq
  unfold decodeTag
  rcases hd : decodeVarint p with ⟨v, n, e⟩
  rw [hd] at this
  simpa using this

theorem takePayload_prefix {wt : Nat} {d1 d2 : Bytes} (h : Payload wt (d1 ++ d2)) (h2 : d2 ≠ []) :
    takePayload d1 wt = .error .unexpectedEOF := by
  have hl : 0 < d2.length := List.length_pos_iff.mpr h2
  generalize hd : d1 ++ d2 = d at h
  cases h with
  | varint _ n h =>
    subst hd
    have := decodeVarint_prefix h.1 h2
    rcases he : decodeVarint d1 with ⟨v, n, e⟩
    rw [he] at this; cases this
    simp [takePayload, he]
  | fixed64 _ h =>
    have : d1.length < 8 := by rw [← hd] at h; simp at h; omega
    simp [takePayload, wtVarint, wtVarlen, wtFixed32, wtFixed64, this]
  | fixed32 _ h =>
    have : d1.length < 4 := by rw [← hd] at h; simp at h; omega
    simp [takePayload, wtVarint, wtVarlen, wtFixed32, this]
  | varlen p bs h =>
    rcases List.append_eq_append_iff.mp hd with ⟨q, rfl, rfl⟩ | ⟨q, rfl, rfl⟩
    · by_cases hq : q = []
      · subst hq
        have hb : 0 < bs.length := by simpa using hl
        have h3 := h.3
        simp only [List.append_nil] at h
        have := varint64_decode h
        simp [takePayload, this, Nat.mod_eq_of_lt h3]
        exact fun e => by simp [e] at hb
      · have := decodeVarint_prefix h.1 hq
        rcases he : decodeVarint d1 with ⟨v, n, e⟩
        rw [he] at this; cases this
        simp [takePayload, he]
    · have h3 := h.3
      simp only [takePayload, wtVarint, wtVarlen, decodeVarint_of h, BitVec.toNat_ofNat, Nat.mod_eq_of_lt h3]
      have : (q ++ d2).length > (p ++ q).length - p.length := by simp; omega
      rw [if_pos this]; simp

/-- The loop on a prefix of an accepted input: success, or an error caused by truncation. -/
theorem run_prefix {idx : Nat → Option DField} (hb : BoundedIdx idx) :
    ∀ b vs vs', run idx b vs = .ok (vs', none) → ∀ p q, b = p ++ q →
      ∃ vs1, run idx p vs = .ok (vs1, none) ∨ run idx p vs = .ok (vs1, some .unexpectedEOF) ∨
        ∃ num wt, run idx p vs = .ok (vs1, some (.field num wt .unexpectedEOF)) := by
  intro b
  induction hl : b.length using Nat.strongRecOn generalizing b with
  | ind k ih =>
    intro vs vs' h p q e
    by_cases hp0 : p = []
    · subst hp0; exact ⟨vs, .inl (run_nil _ _)⟩
    have h0 : b ≠ [] := by rintro rfl; simp at e; exact hp0 e.1
    rw [run_cons _ _ _ h0] at h
    rcases hs : stepS idx b vs with er | ⟨vs1, er⟩ | ⟨rest, vs1⟩ <;> simp only [hs] at h
    · simp at h
    · simp at h
    have hlt := stepS_lt hs
    rw [run_cons _ _ _ hp0]
    obtain ⟨tg, num, wt, data, ht, hpl, hcase⟩ := stepS_next_inv hs
    -- where the cut is
    have cut : ∀ rest', p ++ q = tg ++ (data ++ rest') →
        (∃ q1, q1 ≠ [] ∧ tg = p ++ q1) ∨ (∃ d1 d2, d2 ≠ [] ∧ data = d1 ++ d2 ∧ p = tg ++ d1) ∨
        (∃ r1, p = tg ++ (data ++ r1) ∧ rest' = r1 ++ q) := by
      intro rest' e
      rcases List.append_eq_append_iff.mp e with ⟨a, rfl, e2⟩ | ⟨a, rfl, e2⟩
      · by_cases ha : a = []
        · subst ha
          by_cases hd : data = []
          · subst hd; simp at e2; exact .inr (.inr ⟨[], by simp, by simpa using e2.symm⟩)
          · exact .inr (.inl ⟨[], data, hd, rfl, by simp⟩)
        · exact .inl ⟨a, ha, rfl⟩
      · rcases List.append_eq_append_iff.mp e2 with ⟨c, rfl, e3⟩ | ⟨c, rfl, e3⟩
        · exact .inr (.inr ⟨c, by simp, e3⟩)
        · by_cases hc : c = []
          · subst hc; exact .inr (.inr ⟨[], by simp, by simpa using e3.symm⟩)
          · exact .inr (.inl ⟨a, c, hc, rfl, rfl⟩)
    have short : (∃ q1, q1 ≠ [] ∧ tg = p ++ q1) → stepS idx p vs = .ok (.fail vs .unexpectedEOF) := by
      rintro ⟨q1, hq, rfl⟩
      have := decodeTag_prefix ht hq
      unfold stepS
      rcases hd : decodeTag p with ⟨a1, a2, a3, a4⟩
      rw [hd] at this; cases this; rfl
    rcases hcase with ⟨hi, rfl, rfl⟩ | ⟨f, rest', v, v', m, hi, rfl, rfl, hv, hdec, rfl, rfl⟩
    · rcases cut _ e.symm with hc | ⟨d1, d2, hd2, rfl, rfl⟩ | ⟨r1, rfl, rfl⟩
      · rw [short hc]; exact ⟨_, .inr (.inl rfl)⟩
      · simp only [stepS, decodeTag_of ht, hi, List.drop_left, takePayload_prefix hpl hd2]
        exact ⟨_, .inr (.inr ⟨num, wt, rfl⟩)⟩
      · have := stepS_unknown (idx := idx) (u := tg ++ data) ⟨tg, ht, hpl, rfl⟩ hi r1 vs1
        rw [List.append_assoc] at this
        rw [this]
        exact ih _ (by omega) (r1 ++ q) rfl vs1 vs' h r1 q rfl
    · rcases cut _ e.symm with hc | ⟨d1, d2, hd2, rfl, rfl⟩ | ⟨r1, rfl, rfl⟩
      · rw [short hc]; exact ⟨_, .inr (.inl rfl)⟩
      · simp only [stepS, decodeTag_of ht, hi, List.drop_left, takePayload_prefix hpl hd2, ne_eq, not_true, if_false]
        exact ⟨_, .inr (.inr ⟨num, f.wt, rfl⟩)⟩
      · have := stepS_known (idx := idx) (u := tg ++ data) ⟨tg, ht, hpl, rfl⟩ hi r1 vs
        have hm := hb num f hi _ _ _ _ hdec
        simp only [slotOf, hv, hdec] at this
        rw [List.append_assoc] at this
        rw [this]
        refine ih _ (by omega) _ rfl (vs.set f.offset v') vs' h _ q ?_
        simp only [List.drop_append_of_le_length hm, List.append_assoc]

/-! ### what happens before a failure -/

theorem exactOn_M {env : Env} (hr : ReadsOK env) {t : TypeId} {num : Nat} {f : DField} (hi : idxM env t num = some f)
    {data : Bytes} (hp : Payload f.wt data)
    (hb : ∀ g ∈ (env t).fields, keyNumber g.tag.wiretag = num → g.codec.isBool → data.length = 1) :
    ExactOn f.dec data := by
  obtain ⟨g, hg, rfl⟩ := idxM_some hi
  exact exact_codec env g.codec _ (hr t g hg.mem) data hp (fun hh => hb g hg.mem hg.num hh)

theorem boolsShort_tail {fields : List Field} {u r : Bytes} {num wt data} (hb : BoolsShort fields (u ++ r))
    (hu : Record u num wt data) : BoolsShort fields r := by
  intro a rs u' num' wt' data' r' e ha hu'
  exact hb (u ++ a) ((num, wt, data) :: rs) u' num' wt' data' r' (by rw [e]; simp) (.cons _ _ _ _ _ _ hu ha) hu'

theorem boolsShort_prefix {fields : List Field} {a r : Bytes} (hb : BoolsShort fields (a ++ r)) :
    BoolsShort fields a := by
  intro a' rs u' num' wt' data' r' e ha hu'
  exact hb a' rs u' num' wt' data' (r' ++ r) (by rw [e]; simp) ha hu'

theorem records_snoc {a : Bytes} {rs} (h : Records a rs) {u : Bytes} {num wt data} (hu : Record u num wt data) :
    Records (a ++ u) (rs ++ [(num, wt, data)]) := by
  induction h with
  | nil => simpa using Records.cons u [] num wt data [] hu .nil
  | cons b bs n w d rs hr _ ih => rw [List.append_assoc]; exact .cons _ _ _ _ _ _ hr ih

theorem records_append {a : Bytes} {rs} (h : Records a rs) {b : Bytes} {ss} (h' : Records b ss) :
    Records (a ++ b) (rs ++ ss) := by
  induction h with
  | nil => simpa using h'
  | cons b bs n w d rs hr _ ih => rw [List.append_assoc]; exact .cons _ _ _ _ _ _ hr ih

/-- The records whose boundaries the input passes. -/
theorem shortBools_of {fields : List Field} {a : Bytes} {rs} (h : Records a rs) :
    BoolsShort fields a → ShortBools fields rs := by
  induction h with
  | nil => intro _ r hr; simp at hr
  | cons b bs num wt data rs hr h ih =>
    intro hb r hm f hf hn hbool
    rcases List.mem_cons.mp hm with rfl | hm
    · exact hb [] [] b num wt data bs rfl .nil hr f hf hn hbool
    · exact ih (boolsShort_tail hb hr) r hm f hf hn hbool

theorem boolsShort_of {fields : List Field} {b : Bytes} {rs} (h : Records b rs) (hs : ShortBools fields rs) :
    BoolsShort fields b := by
  induction h with
  | nil =>
    intro a rs u num wt data r e ha hu
    obtain ⟨p, ht, _, rfl⟩ := hu
    have := ht.2.1.length_pos
    have := congrArg List.length e
    simp at this; omega
  | cons b bs num wt data rs hr h ih =>
    intro a rs' u num' wt' data' r e ha hu f hf hn hbool
    have tail := ih (fun r hr => hs r (by simp [hr]))
    -- compare the first records
    have first : ∀ {u u' r r' : Bytes} {n w d n' w' d'}, Record u n w d → Record u' n' w' d' → u ++ r = u' ++ r' →
        n = n' ∧ w = w' ∧ d = d' ∧ r = r' := by
      intro u u' r r' n w d n' w' d' h1 h2 e
      obtain ⟨p, ht, hp, rfl⟩ := h1
      obtain ⟨p', ht', hp', rfl⟩ := h2
      have e1 := decodeTag_of ht (d ++ r)
      have e2 := decodeTag_of ht' (d' ++ r')
      simp only [List.append_assoc] at e
      rw [e, e2] at e1
      simp only [Prod.mk.injEq, and_true] at e1
      obtain ⟨rfl, rfl, hl⟩ := e1
      obtain ⟨rfl, e'⟩ := List.append_inj e hl.symm
      obtain ⟨rfl, rfl⟩ := payload_unique hp hp' e'
      exact ⟨rfl, rfl, rfl, rfl⟩
    cases ha with
    | nil =>
      obtain ⟨rfl, rfl, rfl, rfl⟩ := first hr hu (by simpa using e)
      exact hs (num, wt, data) (by simp) f hf hn hbool
    | cons b' bs' n' w' d' rs' hr' ha' =>
      obtain ⟨rfl, rfl, rfl, e'⟩ := first hr hr' (r' := bs' ++ (u ++ r)) (by simpa using e)
      exact tail bs' rs' u num' wt' data' r e' ha' hu f hf hn hbool

/-- The loop processes complete records, then possibly fails on what follows. -/
theorem run_split {env : Env} (hr : ReadsOK env) (t : TypeId) :
    ∀ b vs vs' o, BoolsShort (env t).fields b → run (idxM env t) b vs = .ok (vs', o) →
      ∃ a rest rs vs1, b = a ++ rest ∧ Records a rs ∧ foldRecs (idxM env t) rs vs = .ok (vs1, none) ∧
        run (idxM env t) a vs = .ok (vs1, none) ∧
        ((rest = [] ∧ o = none ∧ vs' = vs1) ∨
        (∃ e, o = some e ∧ rest ≠ [] ∧ stepS (idxM env t) rest vs1 = .ok (.fail vs' e))) := by
  intro b
  induction hl : b.length using Nat.strongRecOn generalizing b with
  | ind k ih =>
    intro vs vs' o hb h
    by_cases h0 : b = []
    · subst h0
      rw [run_nil] at h; cases h
      exact ⟨[], [], [], vs, rfl, .nil, rfl, run_nil _ _, .inl ⟨rfl, rfl, rfl⟩⟩
    rw [run_cons _ _ _ h0] at h
    rcases hs : stepS (idxM env t) b vs with er | ⟨vs1, er⟩ | ⟨rest, vs1⟩ <;> simp only [hs] at h
    · simp at h
    · simp at h
      obtain ⟨rfl, rfl⟩ := h
      exact ⟨[], b, [], vs, rfl, .nil, rfl, run_nil _ _, .inr ⟨er, rfl, h0, hs⟩⟩
    have hlt := stepS_lt hs
    obtain ⟨tg, num, wt, data, ht, hp, hcase⟩ := stepS_next_inv hs
    have hrec : Record (tg ++ data) num wt data := ⟨tg, ht, hp, rfl⟩
    -- one record, exactly consumed
    have key : b = (tg ++ data) ++ rest ∧ applyRec (idxM env t) (num, wt, data) vs = .ok (vs1, none) := by
      rcases hcase with ⟨hi, rfl, rfl⟩ | ⟨f, rest', v, v', m, hi, rfl, rfl, hv, hdec, rfl, rfl⟩
      · exact ⟨by simp, by simp [applyRec, hi]⟩
      · have he : ExactOn f.dec data := exactOn_M hr hi hp fun g hg hn hbool =>
          hb [] [] (tg ++ data) num f.wt data rest' (by simp) .nil hrec g hg hn hbool
        have := he v v' m hdec
        subst this
        refine ⟨by simp, ?_⟩
        simp [applyRec, hi, slotOf, hv, hdec]
    obtain ⟨rfl, hap⟩ := key
    have hb' := boolsShort_tail hb hrec
    obtain ⟨a, r, rs, vs2, rfl, ha, hf, hra, hcase⟩ := ih rest.length (by omega) rest rfl vs1 vs' o hb' h
    refine ⟨(tg ++ data) ++ a, r, (num, wt, data) :: rs, vs2, by simp, .cons _ _ _ _ _ _ hrec ha, ?_, ?_, hcase⟩
    · simp only [foldRecs, hap]; exact hf
    · have he : ∀ f, idxM env t num = some f → f.wt = wt → ExactOn f.dec data := by
        rintro f hi rfl
        exact exactOn_M hr hi hp fun g hg hn hbool =>
          hb [] [] (tg ++ data) num f.wt data (a ++ r) (by simp) .nil hrec g hg hn hbool
      rw [stepS_record hrec he, hap]
      exact hra

/-- A complete list of records is applied one by one. -/
theorem run_records_M {env : Env} (hr : ReadsOK env) (t : TypeId) {b : Bytes} {rs} (h : Records b rs)
    (hb : BoolsShort (env t).fields b) (r : Bytes) (vs : List Val) :
    run (idxM env t) (b ++ r) vs = andThen (foldRecs (idxM env t) rs vs) (run (idxM env t) r) :=
  run_records h (exactRecs_M hr t h (shortBools_of h hb)) r vs

theorem fold_of_run {env : Env} (hr : ReadsOK env) (t : TypeId) {b : Bytes} {rs} (h : Records b rs)
    (hb : BoolsShort (env t).fields b) (vs : List Val) : run (idxM env t) b vs = foldRecs (idxM env t) rs vs :=
  run_records' h (exactRecs_M hr t h (shortBools_of h hb)) vs

end Pb
