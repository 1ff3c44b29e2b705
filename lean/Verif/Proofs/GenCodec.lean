import Verif.Spec.GenCodec
import Verif.Model.GenCodec
/-
Lemmas on `transformFuncBody`: what statements do to the names of variables, and that the number of the variables of a block matters only
for declarations.
-/
namespace Pb.Go

/-- Names of variables, innermost first. -/
def namesOf (vs : Vars) : List Text := vs.map Prod.fst

/-! ### names -/

theorem setVar_names {n : Text} {x : V} : ∀ {vs ws : Vars}, setVar n x vs = .ok ws → namesOf ws = namesOf vs
  | [], ws, h => by cases h
  | (m, v) :: r, ws, h => by
    rw [setVar] at h
    by_cases hm : m = n
    · rw [if_pos hm] at h
      cases ht : v.ty with
      | none => rw [ht] at h; cases h
      | some t =>
        simp only [ht, bind, Except.bind, pure, Except.pure] at h
        cases ha : assignable t x with
        | error e => rw [ha] at h; cases h
        | ok y => rw [ha] at h; cases h; rfl
    · rw [if_neg hm] at h
      simp only [bind, Except.bind, pure, Except.pure] at h
      cases hr : setVar n x r with
      | error e => rw [hr] at h; cases h
      | ok y => rw [hr] at h; cases h; simp only [namesOf, List.map]; exact congrArg _ (setVar_names hr)

/-- What is known after a statement: new variables are in front, with names among `ns`, and counted. -/
def Grown (ns : List Text) (s t : State) : Prop :=
  ∃ new, namesOf t.vars = new ++ namesOf s.vars ∧ (∀ n ∈ new, n ∈ ns) ∧ t.block = s.block + new.length

theorem Grown.refl {ns s} : Grown ns s s := ⟨[], rfl, (fun _ h => nomatch h), rfl⟩

theorem Grown.same {ns : List Text} {s t : State} (h : namesOf t.vars = namesOf s.vars) (hb : t.block = s.block) : Grown ns s t :=
  ⟨[], h, (fun _ h => nomatch h), hb⟩

theorem Grown.mono {ns ms : List Text} {s t : State} (h : Grown ns s t) (hs : ∀ n ∈ ns, n ∈ ms) : Grown ms s t := by
  obtain ⟨new, a, b, c⟩ := h
  exact ⟨new, a, fun n hn => hs n (b n hn), c⟩

theorem Grown.trans {ns ms : List Text} {s t u : State} (h : Grown ns s t) (g : Grown ms t u) : Grown (ns ++ ms) s u := by
  obtain ⟨new, a, b, c⟩ := h
  obtain ⟨new', a', b', c'⟩ := g
  refine ⟨new' ++ new, by rw [a', a, List.append_assoc], ?_, by rw [c', c, List.length_append]; omega⟩
  intro n hn
  rcases List.mem_append.1 hn with hn | hn
  · exact List.mem_append_right _ (b' n hn)
  · exact List.mem_append_left _ (b n hn)

theorem Grown.length {ns : List Text} {s t : State} (h : Grown ns s t) : s.vars.length ≤ t.vars.length := by
  obtain ⟨new, a, _, _⟩ := h
  have := congrArg List.length a
  simp only [namesOf, List.length_map, List.length_append] at this
  omega

theorem inBlock_same {body : State → Except Fault (Flow × State)} {s : State} {f : Flow} {t : State}
    (hb : ∀ f t, body { s with block := 0 } = .ok (f, t) → ∃ ns, Grown ns { s with block := 0 } t) (h : inBlock body s = .ok (f, t)) :
    Grown [] s t := by
  rw [inBlock] at h
  simp only [bind, Except.bind, pure, Except.pure] at h
  cases hr : body { s with block := 0 } with
  | error e => rw [hr] at h; cases h
  | ok r =>
    rw [hr] at h
    cases h
    obtain ⟨ns, new, a, _, _⟩ := hb _ _ hr
    refine Grown.same ?_ rfl
    have hl := congrArg List.length a
    simp only [namesOf, List.length_map, List.length_append] at hl a ⊢
    rw [List.map_drop, a, hl, Nat.add_sub_cancel, List.drop_left']
    rfl

theorem defineVar_grown {s : State} {n : Text} {x : V} {vs : Vars} (h : defineVar s.block n x s.vars = .ok vs) :
    Grown [n] s { s with vars := vs, block := s.block + (vs.length - s.vars.length) } := by
  rw [defineVar] at h
  by_cases h0 : n = t!"_"
  · rw [if_pos h0] at h; cases h; exact Grown.same rfl (by simp)
  · rw [if_neg h0] at h
    by_cases h1 : ((s.vars.take s.block).any fun v => decide (v.1 = n)) = true
    · rw [if_pos h1] at h
      have := setVar_names h
      refine Grown.same this ?_
      have := congrArg List.length this
      simp only [namesOf, List.length_map] at this
      simp [this]
    · rw [if_neg h1] at h
      simp only [bind, Except.bind, pure, Except.pure] at h
      cases hd : defaultV x with
      | error e => rw [hd] at h; cases h
      | ok y =>
        rw [hd] at h; cases h
        exact ⟨[n], rfl, fun _ h => h, by simp⟩

theorem defineList_grown : ∀ {l : Expr} {xs : List V} {s t : State}, defineList l xs s = .ok t → Grown (placeNames l) s t
  | .none, [], s, t, h => by cases h; exact .refl
  | .arg (.ident n) r, x :: xs, s, t, h => by
    rw [defineList] at h
    simp only [bind, Except.bind] at h
    cases hd : defineVar s.block n x s.vars with
    | error e => rw [hd] at h; cases h
    | ok vs =>
      rw [hd] at h
      exact (defineVar_grown hd).trans (defineList_grown h)
  | .none, _ :: _, _, _, h => by cases h
  | .arg (.ident _) _, [], _, _, h => by cases h
  | .ident _, _, _, _, h => by cases h
  | .num _, _, _, _, h => by cases h
  | .str _, _, _, _, h => by cases h
  | .un _ _, _, _, _, h => by cases h
  | .bin .., _, _, _, h => by cases h
  | .call .., _, _, _, h => by cases h
  | .sel .., _, _, _, h => by cases h
  | .index .., _, _, _, h => by cases h
  | .slice .., _, _, _, h => by cases h
  | .spread .., _, _, _, h => by cases h
  | .lit .., _, _, _, h => by cases h
  | .kv .., _, _, _, h => by cases h
  | .arg .none _, _, _, _, h => by cases h
  | .arg (.num _) _, _, _, _, h => by cases h
  | .arg (.str _) _, _, _, _, h => by cases h
  | .arg (.un _ _) _, _, _, _, h => by cases h
  | .arg (.bin ..) _, _, _, _, h => by cases h
  | .arg (.call ..) _, _, _, _, h => by cases h
  | .arg (.sel ..) _, _, _, _, h => by cases h
  | .arg (.index ..) _, _, _, _, h => by cases h
  | .arg (.slice ..) _, _, _, _, h => by cases h
  | .arg (.spread ..) _, _, _, _, h => by cases h
  | .arg (.lit ..) _, _, _, _, h => by cases h
  | .arg (.kv ..) _, _, _, _, h => by cases h
  | .arg (.arg ..) _, _, _, _, h => by cases h

/-- The result of a monadic computation, taken apart. -/
theorem bind_ok {α β : Type} {x : Except Fault α} {f : α → Except Fault β} {b : β} (h : (x >>= f) = .ok b) : ∃ a, x = .ok a ∧ f a = .ok b := by
  cases x with
  | error e => cases h
  | ok a => exact ⟨a, rfl, h⟩

theorem assign1_same {C : Calls} {l : Expr} {x : V} {s t : State} (h : assign1 C l x s = .ok t) :
    namesOf t.vars = namesOf s.vars ∧ t.block = s.block := by
  unfold assign1 at h
  split at h
  · split at h
    · cases h; exact ⟨rfl, rfl⟩
    · obtain ⟨vs, h1, h2⟩ := bind_ok h
      cases h2
      exact ⟨setVar_names h1, rfl⟩
  · obtain ⟨⟨v, m⟩, h1, h2⟩ := bind_ok h
    simp only at h2
    split at h2
    · obtain ⟨_, _, h2⟩ := bind_ok h2
      obtain ⟨_, _, h2⟩ := bind_ok h2
      obtain ⟨_, _, h2⟩ := bind_ok h2
      obtain ⟨_, _, h2⟩ := bind_ok h2
      cases h2; exact ⟨rfl, rfl⟩
    · cases h2
  · obtain ⟨⟨v, m⟩, h1, h2⟩ := bind_ok h
    simp only at h2
    split at h2
    · split at h2
      · obtain ⟨_, _, h2⟩ := bind_ok h2
        split at h2
        · obtain ⟨_, _, h2⟩ := bind_ok h2
          cases h2; exact ⟨rfl, rfl⟩
        · cases h2
      · cases h2
    · cases h2
  · cases h

theorem assignList_same {C : Calls} {l : Expr} : ∀ {xs : List V} {s t : State}, assignList C l xs s = .ok t →
    namesOf t.vars = namesOf s.vars ∧ t.block = s.block := by
  induction l with
  | none =>
    intro xs s t h
    cases xs with
    | nil => cases h; exact ⟨rfl, rfl⟩
    | cons _ _ => cases h
  | arg l r _ ih =>
    intro xs s t h
    cases xs with
    | nil => cases h
    | cons x xs =>
      rw [assignList] at h
      obtain ⟨u, h1, h2⟩ := bind_ok h
      have a := assign1_same h1
      have b := ih h2
      exact ⟨b.1.trans a.1, b.2.trans a.2⟩
  | _ => intro xs s t h; cases xs <;> cases h

theorem execExpr_same {C : Calls} {e : Expr} {s t : State} (h : execExpr C e s = .ok t) :
    namesOf t.vars = namesOf s.vars ∧ t.block = s.block := by
  unfold execExpr at h
  split at h
  · split at h
    · obtain ⟨_, _, h⟩ := bind_ok h
      obtain ⟨_, _, h⟩ := bind_ok h
      obtain ⟨_, _, h⟩ := bind_ok h
      obtain ⟨_, h1, h⟩ := bind_ok h
      cases h
      exact ⟨setVar_names h1, rfl⟩
    · obtain ⟨_, _, h⟩ := bind_ok h
      cases h; exact ⟨rfl, rfl⟩
  · split at h
    · obtain ⟨_, _, h⟩ := bind_ok h
      obtain ⟨_, _, h⟩ := bind_ok h
      split at h
      · obtain ⟨_, _, h⟩ := bind_ok h
        obtain ⟨_, h1, h⟩ := bind_ok h
        cases h
        exact ⟨setVar_names h1, rfl⟩
      · cases h
    · obtain ⟨_, _, h⟩ := bind_ok h
      cases h; exact ⟨rfl, rfl⟩
  · obtain ⟨_, _, h⟩ := bind_ok h
    cases h; exact ⟨rfl, rfl⟩

theorem execDefer_same {e : Expr} {s t : State} (h : execDefer e s = .ok t) : t = s := by
  unfold execDefer at h
  split at h
  · split at h
    · split at h
      · cases h; rfl
      · cases h
    · cases h
  · cases h

theorem rangeBytes_same {body : V → V → State → Except Fault (Flow × State)}
    (hb : ∀ i c s f t, body i c s = .ok (f, t) → Grown [] s t) : ∀ {b : Bytes} {i : Nat} {s : State} {f : Flow} {t : State},
    rangeBytes body i b s = .ok (f, t) → Grown [] s t
  | [], _, _, _, _, h => by cases h; exact .refl
  | c :: cs, i, s, f, t, h => by
    rw [rangeBytes] at h
    obtain ⟨⟨g, u⟩, h1, h2⟩ := bind_ok h
    have a := hb _ _ _ _ _ h1
    cases g with
    | ret vs => cases h2; exact a
    | next => exact a.trans (rangeBytes_same hb h2)
    | cont => exact a.trans (rangeBytes_same hb h2)

theorem rangeFields_same {body : V → V → State → Except Fault (Flow × State)}
    (hb : ∀ i c s f t, body i c s = .ok (f, t) → Grown [] s t) : ∀ {b : List Field} {i : Nat} {s : State} {f : Flow} {t : State},
    rangeFields body i b s = .ok (f, t) → Grown [] s t
  | [], _, _, _, _, h => by cases h; exact .refl
  | c :: cs, i, s, f, t, h => by
    rw [rangeFields] at h
    obtain ⟨⟨g, u⟩, h1, h2⟩ := bind_ok h
    have a := hb _ _ _ _ _ h1
    cases g with
    | ret vs => cases h2; exact a
    | next => exact a.trans (rangeFields_same hb h2)
    | cont => exact a.trans (rangeFields_same hb h2)

theorem rangeVar_grown (n : Text) (v : V) (s : State) : Grown [n] s (rangeVar n v s) := by
  unfold rangeVar
  split
  · exact .refl
  · exact ⟨[n], rfl, (fun _ h => h), rfl⟩

theorem loopN_grown {c : State → Except Fault (V × Val)} {body post : State → Except Fault (Flow × State)}
    (hb : ∀ s f t, body s = .ok (f, t) → ∃ ns, Grown ns s t) (hp : ∀ s f t, post s = .ok (f, t) → ∃ ns, Grown ns s t) :
    ∀ {d : Nat} {s : State} {f : Flow} {t : State}, loopN c body post d s = .ok (f, t) → ∃ ns, Grown ns s t
  | 0, _, _, _, h => by cases h
  | d + 1, s, f, t, h => by
    rw [loopN] at h
    obtain ⟨⟨v, m⟩, _, h⟩ := bind_ok h
    obtain ⟨b, _, h⟩ := bind_ok h
    have hm : ∀ ns, Grown ns s { s with mem := m } := fun ns => Grown.same rfl rfl
    cases b with
    | false => cases h; exact ⟨[], hm []⟩
    | true =>
      obtain ⟨⟨g, u⟩, h1, h⟩ := bind_ok h
      obtain ⟨ns, a⟩ := hb _ _ _ h1
      have a := (hm []).trans a
      have key : ∀ u, Grown ([] ++ ns) s u → (do let (_, s) ← post u; loopN c body post d s) = .ok (f, t) → ∃ ns, Grown ns s t := by
        intro u a h
        obtain ⟨⟨g', u'⟩, h2, h⟩ := bind_ok h
        obtain ⟨ms, b⟩ := hp _ _ _ h2
        obtain ⟨ks, e⟩ := loopN_grown hb hp h
        exact ⟨_, (a.trans b).trans e⟩
      cases g with
      | ret vs => cases h; exact ⟨_, a⟩
      | next => exact key u a h
      | cont => exact key u a h

/-- Statements declare the names they declare, and nothing of the variables that were there gets lost. -/
theorem exec_grown {C : Calls} {d : Nat} (st : Stmt) :
    (∀ {s : State} {f : Flow} {t : State}, exec C d st s = .ok (f, t) → Grown (declared st) s t) ∧
    (∀ {tag : Option V} {u : Option Unit} {s : State} {f : Flow} {t : State}, exec.cases C d tag u st s = .ok (f, t) → Grown [] s t) := by
  induction st with
  | skip =>
    refine ⟨fun {s f t} h => ?_, fun {tag u s f t} h => ?_⟩
    · rw [exec] at h; cases h; exact .refl
    · rw [exec.cases] at h; cases h; exact .refl
  | seq a b iha ihb =>
    refine ⟨fun {s f t} h => ?_, fun {tag u s f t} h => by rw [exec.cases] at h; cases h; all_goals (intros; simp_all)⟩
    rw [exec] at h
    obtain ⟨⟨g, w⟩, h1, h2⟩ := bind_ok h
    have a := iha.1 h1
    cases g with
    | next => exact a.trans (ihb.1 h2)
    | cont => cases h2; exact a.mono fun n hn => List.mem_append_left _ hn
    | ret vs => cases h2; exact a.mono fun n hn => List.mem_append_left _ hn
  | define l e =>
    refine ⟨fun {s f t} h => ?_, fun {tag u s f t} h => by rw [exec.cases] at h; cases h; all_goals (intros; simp_all)⟩
    rw [exec] at h
    obtain ⟨⟨v, m⟩, _, h⟩ := bind_ok h
    obtain ⟨w, h1, h⟩ := bind_ok h
    cases h
    have a : Grown [] s { s with mem := m } := Grown.same rfl rfl
    exact a.trans (defineList_grown h1)
  | assign l r =>
    refine ⟨fun {s f t} h => ?_, fun {tag u s f t} h => by rw [exec.cases] at h; cases h; all_goals (intros; simp_all)⟩
    rw [exec] at h
    obtain ⟨⟨v, m⟩, _, h⟩ := bind_ok h
    obtain ⟨w, h1, h⟩ := bind_ok h
    cases h
    have := assignList_same h1
    exact Grown.same this.1 this.2
  | opAssign o l r =>
    refine ⟨fun {s f t} h => ?_, fun {tag u s f t} h => by rw [exec.cases] at h; cases h; all_goals (intros; simp_all)⟩
    rw [exec] at h
    obtain ⟨⟨v, m⟩, _, h⟩ := bind_ok h
    obtain ⟨⟨v, m⟩, _, h⟩ := bind_ok h
    obtain ⟨_, _, h⟩ := bind_ok h
    obtain ⟨w, h1, h⟩ := bind_ok h
    cases h
    have := assign1_same h1
    exact Grown.same this.1 this.2
  | var n t =>
    refine ⟨fun {s f t} h => ?_, fun {tag u s f t} h => by rw [exec.cases] at h; cases h; all_goals (intros; simp_all)⟩
    rw [exec] at h
    split at h
    · obtain ⟨_, _, h⟩ := bind_ok h
      cases h
      exact ⟨[n], rfl, (fun _ h => h), rfl⟩
    · cases h
  | ret es =>
    refine ⟨fun {s f t} h => ?_, fun {tag u s f t} h => by rw [exec.cases] at h; cases h; all_goals (intros; simp_all)⟩
    rw [exec] at h
    obtain ⟨⟨v, m⟩, _, h⟩ := bind_ok h
    cases h
    exact Grown.same rfl rfl
  | expr e =>
    refine ⟨fun {s f t} h => ?_, fun {tag u s f t} h => by rw [exec.cases] at h; cases h; all_goals (intros; simp_all)⟩
    rw [exec] at h
    obtain ⟨w, h1, h⟩ := bind_ok h
    cases h
    have := execExpr_same h1
    exact Grown.same this.1 this.2
  | defer e =>
    refine ⟨fun {s f t} h => ?_, fun {tag u s f t} h => by rw [exec.cases] at h; cases h; all_goals (intros; simp_all)⟩
    rw [exec] at h
    obtain ⟨w, h1, h⟩ := bind_ok h
    cases h
    cases execDefer_same h1
    exact .refl
  | cont =>
    refine ⟨fun {s f t} h => ?_, fun {tag u s f t} h => by rw [exec.cases] at h; cases h; all_goals (intros; simp_all)⟩
    rw [exec] at h
    cases h; exact .refl
  | ite i c a b ihi iha ihb =>
    refine ⟨fun {s f t} h => ?_, fun {tag u s f t} h => by rw [exec.cases] at h; cases h; all_goals (intros; simp_all)⟩
    rw [exec] at h
    refine inBlock_same (fun g u h => ?_) h
    obtain ⟨⟨_, w⟩, h1, h⟩ := bind_ok h
    obtain ⟨⟨v, m⟩, _, h⟩ := bind_ok h
    obtain ⟨x, _, h⟩ := bind_ok h
    have a1 := ihi.1 h1
    have a2 : Grown [] w { w with mem := m } := Grown.same rfl rfl
    refine ⟨_, (a1.trans a2).trans (u := u) (ms := []) ?_⟩
    cases x with
    | true => exact inBlock_same (fun g u h => ⟨_, iha.1 h⟩) h
    | false => exact inBlock_same (fun g u h => ⟨_, ihb.1 h⟩) h
  | switch e cs ih =>
    refine ⟨fun {s f t} h => ?_, fun {tag u s f t} h => by rw [exec.cases] at h; cases h; all_goals (intros; simp_all)⟩
    by_cases he : e = .none
    · subst he
      rw [exec] at h
      exact ih.2 h
    · rw [exec] at h
      · obtain ⟨⟨v, m⟩, _, h⟩ := bind_ok h
        have a : Grown [] s { s with mem := m } := Grown.same rfl rfl
        exact a.trans (ih.2 h)
      · exact he
  | case es b r ihb ihr =>
    refine ⟨fun {s f t} h => (by rw [exec] at h; cases h), fun {tag u s f t} h => ?_⟩
    rw [exec.cases] at h
    obtain ⟨x, _, h⟩ := bind_ok h
    cases x with
    | true => exact inBlock_same (fun g u h => ⟨_, ihb.1 h⟩) h
    | false => exact ihr.2 h
  | default b r ihb ihr =>
    refine ⟨fun {s f t} h => (by rw [exec] at h; cases h), fun {tag u s f t} h => ?_⟩
    by_cases hr : r = .skip
    · subst hr
      rw [exec.cases] at h
      exact inBlock_same (fun g u h => ⟨_, ihb.1 h⟩) h
    · rw [exec.cases] at h; cases h; all_goals (intros; simp_all)
  | range k v e body ih =>
    refine ⟨fun {s f t} h => ?_, fun {tag u s f t} h => by rw [exec.cases] at h; cases h; all_goals (intros; simp_all)⟩
    rw [exec] at h
    obtain ⟨⟨x, m⟩, _, h⟩ := bind_ok h
    have a : Grown [] s { s with mem := m } := Grown.same rfl rfl
    have hb : ∀ i c s f t, inBlock (fun s => exec C d body (rangeVar v c (rangeVar k i s))) s = .ok (f, t) → Grown [] s t :=
      fun i c s f t h => inBlock_same (fun g u h => ⟨_, ((rangeVar_grown k i _).trans (rangeVar_grown v c _)).trans (ih.1 h)⟩) h
    simp only at h
    split at h
    · exact a.trans (rangeBytes_same hb h)
    · exact a.trans (rangeFields_same hb h)
    · cases h
  | loop i c p body ihi ihp ihb =>
    refine ⟨fun {s f t} h => ?_, fun {tag u s f t} h => by rw [exec.cases] at h; cases h; all_goals (intros; simp_all)⟩
    rw [exec] at h
    refine inBlock_same (fun g u h => ?_) h
    obtain ⟨⟨_, w⟩, h1, h⟩ := bind_ok h
    have a1 := ihi.1 h1
    obtain ⟨ns, a2⟩ := loopN_grown (fun s f t h => ⟨_, inBlock_same (fun g u h => ⟨_, ihb.1 h⟩) h⟩) (fun s f t h => ⟨_, ihp.1 h⟩) h
    exact ⟨_, a1.trans a2⟩

/-! ### the number of variables of a block -/

/-- States with the same variables and memory. -/
def State.Like (s t : State) : Prop := s.vars = t.vars ∧ s.mem = t.mem

/-- Results that differ in the number of variables of the block only. -/
def Alike : Except Fault (Flow × State) → Except Fault (Flow × State) → Prop
  | .error e, .error e' => e = e'
  | .ok (f, s), .ok (f', s') => f = f' ∧ s.Like s'
  | _, _ => False

theorem Alike.refl : ∀ {r}, Alike r r
  | .error _ => rfl
  | .ok _ => ⟨rfl, rfl, rfl⟩

theorem Alike.trans : ∀ {a b c}, Alike a b → Alike b c → Alike a c
  | .error _, .error _, .error _, h, g => Eq.trans h g
  | .ok _, .ok _, .ok _, h, g => ⟨h.1.trans g.1, h.2.1.trans g.2.1, h.2.2.trans g.2.2⟩

theorem Alike.bind : ∀ {r r'} {k k' : Flow × State → Except Fault (Flow × State)}, Alike r r' →
    (∀ f s s', s.Like s' → r = .ok (f, s) → r' = .ok (f, s') → Alike (k (f, s)) (k' (f, s'))) → Alike (r >>= k) (r' >>= k')
  | .error _, .error _, _, _, h, _ => h
  | .ok (f, s), .ok (f', s'), _, _, h, g => by
    obtain ⟨rfl, h⟩ := h
    exact g f s s' h rfl rfl

/-- A computation that does not look at the states, followed by something. -/
theorem alike_bind {α : Type} {x : Except Fault α} {k k' : α → Except Fault (Flow × State)} (h : ∀ a, Alike (k a) (k' a)) :
    Alike (x >>= k) (x >>= k') := by
  cases x with
  | error e => exact rfl
  | ok a => exact h a

/-- The result of a block does not depend on the number of variables of the block around it. -/
theorem inBlock_alike {body body' : State → Except Fault (Flow × State)} {s s' : State} (hs : s.Like s')
    (hb : Alike (body { s with block := 0 }) (body' { s' with block := 0 })) : Alike (inBlock body s) (inBlock body' s') := by
  rw [inBlock, inBlock]
  refine hb.bind fun f t t' ht _ _ => ?_
  exact ⟨rfl, by rw [ht.1, hs.1], ht.2⟩

theorem inBlock_like {body : State → Except Fault (Flow × State)} {s s' : State} (hs : s.Like s') :
    Alike (inBlock body s) (inBlock body s') := by
  obtain ⟨vs, b, m⟩ := s
  obtain ⟨vs', b', m'⟩ := s'
  obtain ⟨h1, h2⟩ := hs
  simp only at h1 h2
  subst h1 h2
  exact inBlock_alike ⟨rfl, rfl⟩ Alike.refl

theorem rangeBytes_alike {body : V → V → State → Except Fault (Flow × State)}
    (hb : ∀ i c s s', s.Like s' → Alike (body i c s) (body i c s')) : ∀ {b : Bytes} {i : Nat} {s s' : State}, s.Like s' →
    Alike (rangeBytes body i b s) (rangeBytes body i b s')
  | [], _, _, _, h => ⟨rfl, h⟩
  | c :: cs, i, s, s', h => by
    rw [rangeBytes, rangeBytes]
    refine (hb _ _ _ _ h).bind fun f t t' ht _ _ => ?_
    cases f with
    | ret vs => exact ⟨rfl, ht⟩
    | next => exact rangeBytes_alike hb ht
    | cont => exact rangeBytes_alike hb ht

theorem rangeFields_alike {body : V → V → State → Except Fault (Flow × State)}
    (hb : ∀ i c s s', s.Like s' → Alike (body i c s) (body i c s')) : ∀ {b : List Field} {i : Nat} {s s' : State}, s.Like s' →
    Alike (rangeFields body i b s) (rangeFields body i b s')
  | [], _, _, _, h => ⟨rfl, h⟩
  | c :: cs, i, s, s', h => by
    rw [rangeFields, rangeFields]
    refine (hb _ _ _ _ h).bind fun f t t' ht _ _ => ?_
    cases f with
    | ret vs => exact ⟨rfl, ht⟩
    | next => exact rangeFields_alike hb ht
    | cont => exact rangeFields_alike hb ht

/-- The name is that of a variable of this block. -/
def inB (s : State) (n : Text) : Prop := n ∈ (namesOf s.vars).take s.block

theorem inB_any {s : State} {n : Text} : ((s.vars.take s.block).any fun v => decide (v.1 = n)) = true ↔ inB s n := by
  simp only [inB, namesOf, ← List.map_take, List.any_eq_true, List.mem_map, decide_eq_true_eq]

theorem inB_grown {s s' t t' : State} {ns ms : List Text} (h : s.Like s') (g : t.Like t') (a : Grown ns s t) (b : Grown ms s' t') {n : Text}
    (hn : inB s n ↔ inB s' n) : inB t n ↔ inB t' n := by
  obtain ⟨new, a1, _, a3⟩ := a
  obtain ⟨new', b1, _, b3⟩ := b
  have e : new = new' := by
    rw [← g.1, ← h.1] at b1
    exact List.append_cancel_right (a1.symm.trans b1)
  subst e
  simp only [inB] at hn ⊢
  have l1 : List.take (s.block + new.length) new = new := List.take_of_length_le (by omega)
  have l2 : List.take (s'.block + new.length) new = new := List.take_of_length_le (by omega)
  rw [a1, b1, a3, b3, List.take_append, List.take_append, List.mem_append, List.mem_append, l1, l2, Nat.add_sub_cancel, Nat.add_sub_cancel, hn]

theorem defineVar_like {s s' : State} (h : s.Like s') {n : Text} {x : V} (hn : inB s n ↔ inB s' n) :
    defineVar s.block n x s.vars = defineVar s'.block n x s'.vars := by
  rw [← inB_any, ← inB_any] at hn
  rw [defineVar, defineVar]
  have hn' := Bool.eq_iff_iff.2 hn
  rw [← h.1] at hn' ⊢
  rw [hn']

theorem defineList_like : ∀ {l : Expr} {xs : List V} {s s' : State}, s.Like s' → (∀ n ∈ placeNames l, (inB s n ↔ inB s' n)) →
    Alike ((defineList l xs s).map (Prod.mk Flow.next)) ((defineList l xs s').map (Prod.mk Flow.next))
  | .none, [], s, s', h, _ => ⟨rfl, h⟩
  | .arg (.ident n) r, x :: xs, s, s', h, hn => by
    rw [defineList, defineList, defineVar_like h (hn n (List.mem_cons_self ..))]
    simp only [bind, Except.bind]
    cases hd : defineVar s'.block n x s'.vars with
    | error e => exact rfl
    | ok vs =>
      have hd' := hd
      rw [← defineVar_like h (hn n (List.mem_cons_self ..))] at hd
      have hl : State.Like { s with vars := vs, block := s.block + (vs.length - s.vars.length) }
          { s' with vars := vs, block := s'.block + (vs.length - s'.vars.length) } := ⟨rfl, h.2⟩
      refine defineList_like (l := r) (xs := xs) hl fun n' hn' => ?_
      exact inB_grown h hl (defineVar_grown hd) (defineVar_grown hd') (hn n' (List.mem_cons_of_mem _ hn'))
  | .none, _ :: _, _, _, _, _ => rfl
  | .arg (.ident _) _, [], _, _, _, _ => rfl
  | .ident _, _, _, _, _, _ => rfl
  | .num _, _, _, _, _, _ => rfl
  | .str _, _, _, _, _, _ => rfl
  | .un _ _, _, _, _, _, _ => rfl
  | .bin .., _, _, _, _, _ => rfl
  | .call .., _, _, _, _, _ => rfl
  | .sel .., _, _, _, _, _ => rfl
  | .index .., _, _, _, _, _ => rfl
  | .slice .., _, _, _, _, _ => rfl
  | .spread .., _, _, _, _, _ => rfl
  | .lit .., _, _, _, _, _ => rfl
  | .kv .., _, _, _, _, _ => rfl
  | .arg .none _, _, _, _, _, _ => rfl
  | .arg (.num _) _, _, _, _, _, _ => rfl
  | .arg (.str _) _, _, _, _, _, _ => rfl
  | .arg (.un _ _) _, _, _, _, _, _ => rfl
  | .arg (.bin ..) _, _, _, _, _, _ => rfl
  | .arg (.call ..) _, _, _, _, _, _ => rfl
  | .arg (.sel ..) _, _, _, _, _, _ => rfl
  | .arg (.index ..) _, _, _, _, _, _ => rfl
  | .arg (.slice ..) _, _, _, _, _, _ => rfl
  | .arg (.spread ..) _, _, _, _, _, _ => rfl
  | .arg (.lit ..) _, _, _, _, _, _ => rfl
  | .arg (.kv ..) _, _, _, _, _, _ => rfl
  | .arg (.arg ..) _, _, _, _, _, _ => rfl

/-- The results of an assignment. -/
def AlikeS (r r' : Except Fault State) : Prop := Alike (r.map (Prod.mk Flow.next)) (r'.map (Prod.mk Flow.next))

theorem alikeS_bind {α : Type} {x : Except Fault α} {k k' : α → Except Fault State} (h : ∀ a, AlikeS (k a) (k' a)) :
    AlikeS (x >>= k) (x >>= k') := by
  cases x with
  | error e => exact rfl
  | ok a => exact h a

theorem AlikeS.bind : ∀ {r r' : Except Fault State} {k k' : State → Except Fault State}, AlikeS r r' →
    (∀ s s', s.Like s' → AlikeS (k s) (k' s')) → AlikeS (r >>= k) (r' >>= k')
  | .error _, .error _, _, _, h, _ => h
  | .ok s, .ok s', _, _, h, g => g s s' h.2

theorem AlikeS.next : ∀ {r r' : Except Fault State}, AlikeS r r' → Alike (r >>= fun s => pure (Flow.next, s)) (r' >>= fun s => pure (Flow.next, s))
  | .error _, .error _, h => h
  | .ok _, .ok _, h => h

theorem assign1_like {C : Calls} {l : Expr} {x : V} {s s' : State} (h : s.Like s') : AlikeS (assign1 C l x s) (assign1 C l x s') := by
  obtain ⟨vs, b, m⟩ := s
  obtain ⟨vs', b', m'⟩ := s'
  obtain ⟨h1, h2⟩ := h
  simp only at h1 h2
  subst h1 h2
  unfold assign1
  simp only
  split
  · split
    · exact ⟨rfl, rfl, rfl⟩
    · exact alikeS_bind fun a => ⟨rfl, rfl, rfl⟩
  · refine alikeS_bind fun a => ?_
    split
    · exact alikeS_bind fun a => alikeS_bind fun a => alikeS_bind fun a => alikeS_bind fun a => ⟨rfl, rfl, rfl⟩
    · exact rfl
  · refine alikeS_bind fun a => ?_
    split
    · split
      · refine alikeS_bind fun a => ?_
        split
        · exact alikeS_bind fun a => ⟨rfl, rfl, rfl⟩
        · exact rfl
      · exact rfl
    · exact rfl
  · exact rfl

theorem assignList_like {C : Calls} {l : Expr} : ∀ {xs : List V} {s s' : State}, s.Like s' → AlikeS (assignList C l xs s) (assignList C l xs s') := by
  induction l with
  | none =>
    intro xs s s' h
    cases xs with
    | nil => exact ⟨rfl, h⟩
    | cons _ _ => exact rfl
  | arg l r _ ih =>
    intro xs s s' h
    cases xs with
    | nil => exact rfl
    | cons x xs =>
      rw [assignList, assignList]
      exact (assign1_like h).bind fun t t' ht => ih ht
  | _ => intro xs s s' h; cases xs <;> exact rfl

theorem execExpr_like {C : Calls} {e : Expr} {s s' : State} (h : s.Like s') : AlikeS (execExpr C e s) (execExpr C e s') := by
  obtain ⟨vs, b, m⟩ := s
  obtain ⟨vs', b', m'⟩ := s'
  obtain ⟨h1, h2⟩ := h
  simp only at h1 h2
  subst h1 h2
  unfold execExpr
  simp only
  split
  · split
    · exact alikeS_bind fun a => alikeS_bind fun a => alikeS_bind fun a => alikeS_bind fun a => ⟨rfl, rfl, rfl⟩
    · exact alikeS_bind fun a => ⟨rfl, rfl, rfl⟩
  · split
    · refine alikeS_bind fun a => alikeS_bind fun a => ?_
      split
      · exact alikeS_bind fun a => alikeS_bind fun a => ⟨rfl, rfl, rfl⟩
      · exact rfl
    · exact alikeS_bind fun a => ⟨rfl, rfl, rfl⟩
  · exact alikeS_bind fun a => ⟨rfl, rfl, rfl⟩

theorem execDefer_like {e : Expr} {s s' : State} (h : s.Like s') : AlikeS (execDefer e s) (execDefer e s') := by
  obtain ⟨vs, b, m⟩ := s
  obtain ⟨vs', b', m'⟩ := s'
  obtain ⟨h1, h2⟩ := h
  simp only at h1 h2
  subst h1 h2
  unfold execDefer
  simp only
  split
  · split
    · split
      · exact ⟨rfl, rfl, rfl⟩
      · exact rfl
    · exact rfl
  · exact rfl

theorem caseHolds_like {C : Calls} {tag : Option V} {e : Expr} {s s' : State} (h : s.Like s') :
    caseHolds C tag e s = caseHolds C tag e s' := by
  induction e with
  | arg e r _ ih => rw [caseHolds, caseHolds, h.1, h.2, ih]
  | _ => rfl

/-- The number of variables of a block matters only for what is declared in it. -/
theorem exec_like {C : Calls} {d : Nat} (st : Stmt) :
    (∀ {s s' : State}, s.Like s' → (∀ n ∈ declared st, (inB s n ↔ inB s' n)) → Alike (exec C d st s) (exec C d st s')) ∧
    (∀ {tag : Option V} {u : Option Unit} {s s' : State}, s.Like s' → Alike (exec.cases C d tag u st s) (exec.cases C d tag u st s')) := by
  induction st with
  | skip => exact ⟨fun h _ => by rw [exec, exec]; exact ⟨rfl, h⟩, fun h => by rw [exec.cases, exec.cases]; exact ⟨rfl, h⟩⟩
  | seq a b iha ihb =>
    refine ⟨fun {s s'} h hn => ?_, fun h => by rw [exec.cases, exec.cases]; exact rfl; all_goals (intros; simp_all)⟩
    rw [exec, exec]
    refine (iha.1 h fun n h => hn n (List.mem_append_left _ h)).bind fun f t t' ht h1 h2 => ?_
    cases f with
    | next => exact ihb.1 ht fun n hb => inB_grown h ht ((exec_grown a).1 h1) ((exec_grown a).1 h2) (hn n (List.mem_append_right _ hb))
    | cont => exact ⟨rfl, ht⟩
    | ret vs => exact ⟨rfl, ht⟩
  | define l e =>
    refine ⟨fun {s s'} h hn => ?_, fun h => by rw [exec.cases, exec.cases]; exact rfl; all_goals (intros; simp_all)⟩
    rw [exec, exec, h.1, h.2]
    refine alike_bind fun a => ?_
    have hl : State.Like { s with mem := a.2 } { s' with mem := a.2 } := ⟨h.1, rfl⟩
    have := defineList_like (l := l) (xs := valuesOf a.1) hl (fun n h => hn n h)
    rw [h.1] at this
    exact AlikeS.next this
  | assign l r =>
    refine ⟨fun {s s'} h hn => ?_, fun h => by rw [exec.cases, exec.cases]; exact rfl; all_goals (intros; simp_all)⟩
    rw [exec, exec, h.1, h.2]
    refine alike_bind fun a => AlikeS.next (assignList_like ?_)
    exact ⟨rfl, rfl⟩
  | opAssign o l r =>
    refine ⟨fun {s s'} h hn => ?_, fun h => by rw [exec.cases, exec.cases]; exact rfl; all_goals (intros; simp_all)⟩
    rw [exec, exec, h.1, h.2]
    refine alike_bind fun a => alike_bind fun b => alike_bind fun c => AlikeS.next (assign1_like ?_)
    exact ⟨rfl, rfl⟩
  | var n t =>
    refine ⟨fun {s s'} h hn => ?_, fun h => by rw [exec.cases, exec.cases]; exact rfl; all_goals (intros; simp_all)⟩
    rw [exec, exec]
    split
    · exact alike_bind fun a => ⟨rfl, by rw [h.1], h.2⟩
    · exact rfl
  | ret es =>
    refine ⟨fun {s s'} h hn => ?_, fun h => by rw [exec.cases, exec.cases]; exact rfl; all_goals (intros; simp_all)⟩
    rw [exec, exec, h.1, h.2]
    exact alike_bind fun a => ⟨rfl, rfl, rfl⟩
  | expr e =>
    refine ⟨fun {s s'} h hn => ?_, fun h => by rw [exec.cases, exec.cases]; exact rfl; all_goals (intros; simp_all)⟩
    rw [exec, exec]
    exact (execExpr_like h).next
  | defer e =>
    refine ⟨fun {s s'} h hn => ?_, fun h => by rw [exec.cases, exec.cases]; exact rfl; all_goals (intros; simp_all)⟩
    rw [exec, exec]
    exact (execDefer_like h).next
  | cont =>
    refine ⟨fun {s s'} h hn => ?_, fun h => by rw [exec.cases, exec.cases]; exact rfl; all_goals (intros; simp_all)⟩
    rw [exec, exec]
    exact ⟨rfl, h⟩
  | ite i c a b ihi iha ihb =>
    refine ⟨fun {s s'} h hn => ?_, fun h => by rw [exec.cases, exec.cases]; exact rfl; all_goals (intros; simp_all)⟩
    rw [exec, exec]
    exact inBlock_like h
  | switch e cs ih =>
    refine ⟨fun {s s'} h hn => ?_, fun h => by rw [exec.cases, exec.cases]; exact rfl; all_goals (intros; simp_all)⟩
    by_cases he : e = .none
    · subst he
      rw [exec, exec]
      exact ih.2 h
    · rw [exec, exec, h.1, h.2]
      · exact alike_bind fun a => ih.2 ⟨rfl, rfl⟩
      · exact he
      · exact he
  | case es b r ihb ihr =>
    refine ⟨fun {s s'} h hn => (by rw [exec, exec]; exact rfl), fun {tag u s s'} h => ?_⟩
    rw [exec.cases, exec.cases, caseHolds_like h]
    refine alike_bind fun x => ?_
    cases x with
    | true => exact inBlock_like h
    | false => exact ihr.2 h
  | default b r ihb ihr =>
    refine ⟨fun {s s'} h hn => (by rw [exec, exec]; exact rfl), fun {tag u s s'} h => ?_⟩
    by_cases hr : r = .skip
    · subst hr
      rw [exec.cases, exec.cases]
      exact inBlock_like h
    · rw [exec.cases, exec.cases]; exact rfl; all_goals (intros; simp_all)
  | range k v e body ih =>
    refine ⟨fun {s s'} h hn => ?_, fun h => by rw [exec.cases, exec.cases]; exact rfl; all_goals (intros; simp_all)⟩
    rw [exec, exec, h.1, h.2]
    refine alike_bind fun a => ?_
    obtain ⟨x, m⟩ := a
    simp only
    split
    · refine rangeBytes_alike ?_ ?_
      · exact fun i c s s' h => inBlock_like h
      · exact ⟨rfl, rfl⟩
    · refine rangeFields_alike ?_ ?_
      · exact fun i c s s' h => inBlock_like h
      · exact ⟨rfl, rfl⟩
    · exact rfl
  | loop i c p body ihi ihp ihb =>
    refine ⟨fun {s s'} h hn => ?_, fun h => by rw [exec.cases, exec.cases]; exact rfl; all_goals (intros; simp_all)⟩
    rw [exec, exec]
    exact inBlock_like h

/-! ### expressions -/

theorem dotted_mem : ∀ {e : Expr} {r : Text × Text}, dotted e = some r → r.1 ∈ idents e
  | .ident n, r, h => by cases h; simp [idents]
  | .sel e n, r, h => by
    rw [dotted] at h
    cases hd : dotted e with
    | none => rw [hd] at h; cases h
    | some q =>
      rw [hd] at h; cases h
      have := dotted_mem hd
      exact this
  | .none, _, h | .num _, _, h | .str _, _, h | .un _ _, _, h | .bin _ _ _, _, h | .call _ _, _, h | .index _ _, _, h
  | .slice _ _ _, _, h | .spread _, _, h | .lit _ _, _, h | .kv _ _, _, h | .arg _ _, _, h => by cases h

/-- The value of an expression depends only on the variables it mentions. -/
theorem eval_congr {C : Calls} {vs ws : Vars} : ∀ {e : Expr} {m : Val}, (∀ n ∈ idents e, lookup n vs = lookup n ws) →
    eval C vs e m = eval C ws e m
  | .none, _, _ => rfl
  | .num _, _, _ => rfl
  | .str _, _, _ => rfl
  | .ident n, m, h => by rw [eval, eval, h n (by simp [idents])]
  | .arg e r, m, h => by
    have a : ∀ {m}, eval C vs e m = eval C ws e m := eval_congr fun n hn => h n (by simp [idents, hn])
    have b : ∀ {m}, eval C vs r m = eval C ws r m := eval_congr fun n hn => h n (by simp [idents, hn])
    simp only [eval, a, b]
  | .spread e, m, h => by
    have a : ∀ {m}, eval C vs e m = eval C ws e m := eval_congr fun n hn => h n (by simp [idents, hn])
    simp only [eval, a]
  | .kv e r, m, h => by
    have b : ∀ {m}, eval C vs r m = eval C ws r m := eval_congr fun n hn => h n (by simp [idents, hn])
    simp only [eval, b]
  | .index e r, m, h => by
    have a : ∀ {m}, eval C vs e m = eval C ws e m := eval_congr fun n hn => h n (by simp [idents, hn])
    have b : ∀ {m}, eval C vs r m = eval C ws r m := eval_congr fun n hn => h n (by simp [idents, hn])
    simp only [eval, a, b]
  | .slice e r k, m, h => by
    have a : ∀ {m}, eval C vs e m = eval C ws e m := eval_congr fun n hn => h n (by simp [idents, hn])
    have b : ∀ {m}, eval C vs r m = eval C ws r m := eval_congr fun n hn => h n (by simp [idents, hn])
    have c : ∀ {m}, eval C vs k m = eval C ws k m := eval_congr fun n hn => h n (by simp [idents, hn])
    simp only [eval, a, b, c]
  | .bin o e r, m, h => by
    have a : ∀ {m}, eval C vs e m = eval C ws e m := eval_congr fun n hn => h n (by simp [idents, hn])
    have b : ∀ {m}, eval C vs r m = eval C ws r m := eval_congr fun n hn => h n (by simp [idents, hn])
    cases o <;> simp only [eval, a, b]
  | .un .addr (.sel e n), m, h => by
    have a : ∀ {m}, eval C vs e m = eval C ws e m := eval_congr fun n hn => h n (by simp [idents, hn])
    simp only [eval, a]
  | .un .addr (.lit t es), m, h => by
    have a : ∀ {m}, eval C vs (.lit t es) m = eval C ws (.lit t es) m := eval_congr fun n hn => h n (by simpa only [idents] using hn)
    have b : ∀ {m}, eval C vs es m = eval C ws es m := eval_congr fun n hn => h n (by simp [idents, hn])
    cases t with
    | ident t => simp only [eval, b]
    | _ =>
      change (eval C vs (.lit _ es) m >>= fun r => unOp .addr r.1 >>= fun v => pure (v, r.2)) = _
      rw [a]
      rfl
  | .un .addr (.ident i), m, h => by
    have a : ∀ {m}, eval C vs (.ident i) m = eval C ws (.ident i) m := eval_congr fun n hn => h n (by simpa only [idents] using hn)
    change (eval C vs (.ident i) m >>= fun r => unOp .addr r.1 >>= fun v => pure (v, r.2)) = _
    rw [a]
    rfl
  | .un .addr (.num i), m, h => by
    have a : ∀ {m}, eval C vs (.num i) m = eval C ws (.num i) m := eval_congr fun n hn => h n (by simpa only [idents] using hn)
    change (eval C vs (.num i) m >>= fun r => unOp .addr r.1 >>= fun v => pure (v, r.2)) = _
    rw [a]
    rfl
  | .un .addr (.str i), m, h => by
    have a : ∀ {m}, eval C vs (.str i) m = eval C ws (.str i) m := eval_congr fun n hn => h n (by simpa only [idents] using hn)
    change (eval C vs (.str i) m >>= fun r => unOp .addr r.1 >>= fun v => pure (v, r.2)) = _
    rw [a]
    rfl
  | .un .addr (.un i j), m, h => by
    have a : ∀ {m}, eval C vs (.un i j) m = eval C ws (.un i j) m := eval_congr fun n hn => h n (by simpa only [idents] using hn)
    change (eval C vs (.un i j) m >>= fun r => unOp .addr r.1 >>= fun v => pure (v, r.2)) = _
    rw [a]
    rfl
  | .un .addr (.bin i j k), m, h => by
    have a : ∀ {m}, eval C vs (.bin i j k) m = eval C ws (.bin i j k) m := eval_congr fun n hn => h n (by simpa only [idents] using hn)
    change (eval C vs (.bin i j k) m >>= fun r => unOp .addr r.1 >>= fun v => pure (v, r.2)) = _
    rw [a]
    rfl
  | .un .addr (.call i j), m, h => by
    have a : ∀ {m}, eval C vs (.call i j) m = eval C ws (.call i j) m := eval_congr fun n hn => h n (by simpa only [idents] using hn)
    change (eval C vs (.call i j) m >>= fun r => unOp .addr r.1 >>= fun v => pure (v, r.2)) = _
    rw [a]
    rfl
  | .un .addr (.index i j), m, h => by
    have a : ∀ {m}, eval C vs (.index i j) m = eval C ws (.index i j) m := eval_congr fun n hn => h n (by simpa only [idents] using hn)
    change (eval C vs (.index i j) m >>= fun r => unOp .addr r.1 >>= fun v => pure (v, r.2)) = _
    rw [a]
    rfl
  | .un .addr (.slice i j k), m, h => by
    have a : ∀ {m}, eval C vs (.slice i j k) m = eval C ws (.slice i j k) m := eval_congr fun n hn => h n (by simpa only [idents] using hn)
    change (eval C vs (.slice i j k) m >>= fun r => unOp .addr r.1 >>= fun v => pure (v, r.2)) = _
    rw [a]
    rfl
  | .un .addr (.spread i), m, h => by
    have a : ∀ {m}, eval C vs (.spread i) m = eval C ws (.spread i) m := eval_congr fun n hn => h n (by simpa only [idents] using hn)
    change (eval C vs (.spread i) m >>= fun r => unOp .addr r.1 >>= fun v => pure (v, r.2)) = _
    rw [a]
    rfl
  | .un .addr (.kv i j), m, h => by
    have a : ∀ {m}, eval C vs (.kv i j) m = eval C ws (.kv i j) m := eval_congr fun n hn => h n (by simpa only [idents] using hn)
    change (eval C vs (.kv i j) m >>= fun r => unOp .addr r.1 >>= fun v => pure (v, r.2)) = _
    rw [a]
    rfl
  | .un .addr .none, m, h => by
    have a : ∀ {m}, eval C vs .none m = eval C ws .none m := eval_congr fun n hn => h n (by simpa only [idents] using hn)
    change (eval C vs .none m >>= fun r => unOp .addr r.1 >>= fun v => pure (v, r.2)) = _
    rw [a]
    rfl
  | .un .addr (.arg i j), m, h => by
    have a : ∀ {m}, eval C vs (.arg i j) m = eval C ws (.arg i j) m := eval_congr fun n hn => h n (by simpa only [idents] using hn)
    change (eval C vs (.arg i j) m >>= fun r => unOp .addr r.1 >>= fun v => pure (v, r.2)) = _
    rw [a]
    rfl
  | .un .neg e, m, h => by
    have a : ∀ {m}, eval C vs e m = eval C ws e m := eval_congr fun n hn => h n (by simpa only [idents] using hn)
    simp only [eval, a]
  | .un .not e, m, h => by
    have a : ∀ {m}, eval C vs e m = eval C ws e m := eval_congr fun n hn => h n (by simpa only [idents] using hn)
    simp only [eval, a]
  | .un .deref e, m, h => by
    have a : ∀ {m}, eval C vs e m = eval C ws e m := eval_congr fun n hn => h n (by simpa only [idents] using hn)
    simp only [eval, a]
  | .un .sliceOf e, m, h => by
    have a : ∀ {m}, eval C vs e m = eval C ws e m := eval_congr fun n hn => h n (by simpa only [idents] using hn)
    simp only [eval, a]
  | .lit t es, m, h => by
    unfold eval
    split <;> first | rfl | simp_all
  | .sel e n, m, h => by
    have a : ∀ {m}, eval C vs e m = eval C ws e m := eval_congr fun n hn => h n (by simp [idents, hn])
    cases hd : dotted e with
    | none => simp only [eval, hd, a]
    | some r =>
      have := h r.1 (by simpa only [idents] using dotted_mem hd)
      simp only [eval, hd, a, this]
  | .call f args, m, h => by
    have b : ∀ {m}, eval C vs args m = eval C ws args m := eval_congr fun n hn => h n (by simp [idents, hn])
    cases ht : tyOf f with
    | some t => unfold eval; simp only [ht, b]
    | none =>
      match f, h, ht with
      | .ident n, h, ht =>
        by_cases hn : n = t!"make"
        · subst hn
          cases args with
          | arg t r =>
            have c : ∀ {m}, eval C vs r m = eval C ws r m := eval_congr fun n hn => h n (by simp [idents, hn])
            simp only [eval, ht, if_true, c]
          | _ => simp only [eval, ht, if_true]
        · unfold eval; simp only [ht, if_neg hn, b]
      | .sel e n, h, ht =>
        have a : ∀ {m}, eval C vs e m = eval C ws e m := eval_congr fun n hn => h n (by simp [idents, hn])
        cases hd : dotted e with
        | none => simp only [eval, ht, hd, a, b]
        | some r =>
          have := h r.1 (by simp [idents, dotted_mem hd])
          simp only [eval, ht, hd, a, b, this]
      | .none, _, ht | .num _, _, ht | .str _, _, ht | .un _ _, _, ht | .bin _ _ _, _, ht | .call _ _, _, ht | .index _ _, _, ht
      | .slice _ _ _, _, ht | .spread _, _, ht | .lit _ _, _, ht | .kv _ _, _, ht | .arg _ _, _, ht => simp only [eval, ht]

/-! ### the transformation -/

theorem hasReturn_eq (t : Stmt) : hasReturn t = returns t := by
  induction t with
  | seq a r _ ih =>
    cases a <;> simp only [hasReturn, returns, ih]
  | _ => rfl

theorem exec_append {C : Calls} {d : Nat} (t r : Stmt) (s : State) :
    exec C d (appendBlock t r) s = (exec C d t s >>= fun x => match x with
      | (.next, s) => exec C d r s
      | x => pure x) := by
  induction t generalizing s with
  | seq a b _ ih =>
    rw [appendBlock, exec, exec]
    cases exec C d a s with
    | error e => rfl
    | ok x =>
      obtain ⟨f, s'⟩ := x
      cases f with
      | next => exact ih s'
      | cont => rfl
      | ret vs => rfl
  | skip => rw [appendBlock, exec]; rfl
  | _ =>
    rw [appendBlock, exec]
    · rfl
    all_goals (intros; simp_all)

theorem exec_init {C : Calls} {d : Nat} (i t : Stmt) (s : State) : exec C d (withInit i t) s = exec C d (.seq i t) s := by
  cases i with
  | skip => rw [withInit, exec, exec]; rfl
  | _ => rfl

/-- A block with a return statement does not end at its end. -/
theorem returns_flow {C : Calls} {d : Nat} (t : Stmt) (h : returns t = true) (s s' : State) : exec C d t s ≠ .ok (.next, s') := by
  induction t generalizing s with
  | seq a r _ ih =>
    intro he
    rw [exec] at he
    obtain ⟨⟨f, u⟩, h1, h2⟩ := bind_ok he
    cases f with
    | cont => cases h2
    | ret vs => cases h2
    | next =>
      have hr : returns r = true := by
        cases a with
        | ret es =>
          rw [exec] at h1
          obtain ⟨_, _, h1⟩ := bind_ok h1
          cases h1
        | _ => exact h
      exact ih hr u h2
  | _ => cases h

theorem simple_flow {C : Calls} {d : Nat} {i : Stmt} (h : simple i = true) {s s' : State} {f : Flow} (he : exec C d i s = .ok (f, s')) : f = .next := by
  cases i with
  | skip => rw [exec] at he; cases he; rfl
  | define l e =>
    rw [exec] at he
    obtain ⟨_, _, he⟩ := bind_ok he
    obtain ⟨_, _, he⟩ := bind_ok he
    cases he; rfl
  | assign l e =>
    rw [exec] at he
    obtain ⟨_, _, he⟩ := bind_ok he
    obtain ⟨_, _, he⟩ := bind_ok he
    cases he; rfl
  | opAssign o l e =>
    rw [exec] at he
    obtain ⟨_, _, he⟩ := bind_ok he
    obtain ⟨_, _, he⟩ := bind_ok he
    obtain ⟨_, _, he⟩ := bind_ok he
    obtain ⟨_, _, he⟩ := bind_ok he
    cases he; rfl
  | expr e =>
    rw [exec] at he
    obtain ⟨_, _, he⟩ := bind_ok he
    cases he; rfl
  | _ => cases h

theorem exec_ite {C : Calls} {d : Nat} {i t e : Stmt} {c : Expr} {s : State} :
    exec C d (.ite i c t e) s = (exec C d i { s with block := 0 } >>= fun x => eval C x.2.vars c x.2.mem >>= fun y => truth y.1 >>= fun b =>
      exec C d (if b then t else e) { x.2 with block := 0, mem := y.2 } >>= fun z =>
        .ok (z.1, { z.2 with
          vars := (z.2.vars.drop (z.2.vars.length - x.2.vars.length)).drop ((z.2.vars.drop (z.2.vars.length - x.2.vars.length)).length - s.vars.length),
          block := s.block })) := by
  rw [exec, inBlock]
  cases exec C d i { s with block := 0 } with
  | error e => rfl
  | ok x =>
    simp only [bind, Except.bind, pure, Except.pure]
    cases eval C x.2.vars c x.2.mem with
    | error e => rfl
    | ok y =>
      simp only
      cases truth y.1 with
      | error e => rfl
      | ok b =>
        cases b with
        | true =>
          simp only [inBlock, bind, Except.bind, pure, Except.pure, if_true]
          cases exec C d t { x.2 with block := 0, mem := y.2 } with
          | error e => rfl
          | ok z => rfl
        | false =>
          simp only [inBlock, bind, Except.bind, pure, Except.pure, if_false]
          cases he : exec C d e { x.2 with block := 0, mem := y.2 } with
          | error e => simp [he]
          | ok z => simp [he]

theorem eval_always {C : Calls} {vs : Vars} {m : Val} : eval C vs always m = .ok (.bool true, m) := by
  simp only [always, eval]
  rfl

/-- The same results: an error, or the same end of the function with the same memory. -/
def Ends : Except Fault (Flow × State) → Except Fault (Flow × State) → Prop
  | .error e, .error e' => e = e'
  | .ok (f, s), .ok (f', s') => f = f' ∧ s.mem = s'.mem
  | _, _ => False

theorem Ends.refl : ∀ {r}, Ends r r
  | .error _ => rfl
  | .ok _ => ⟨rfl, rfl⟩

theorem lookup_drop {n : Text} : ∀ {vs : Vars} {new rest : List Text}, namesOf vs = new ++ rest → n ∉ new →
    lookup n vs = lookup n (vs.drop new.length)
  | _, [], _, _, _ => rfl
  | [], _ :: _, _, h, _ => by cases h
  | (m, v) :: vs, k :: new, rest, h, hn => by
    simp only [namesOf, List.map, List.cons_append, List.cons.injEq] at h
    obtain ⟨rfl, h⟩ := h
    have hm : ¬ m = n := fun e => hn (by rw [e]; exact List.mem_cons_self ..)
    rw [lookup, if_neg hm, List.length_cons, List.drop_succ_cons]
    exact lookup_drop h (fun e => hn (List.mem_cons_of_mem _ e))

theorem transform_ends {C : Calls} {d : Nat} (body : Stmt) : ∀ {ns : List Text} {s : State}, tidy ns body = true →
    (∀ n ∈ namesOf s.vars, n ∈ ns) → Ends (exec C d (transformFuncBody body) s) (exec C d (untested body) s) := by
  induction body with
  | seq a r _ ih =>
    intro ns s ht hs
    by_cases ha : ∃ i c t e, a = .ite i c t e
    · obtain ⟨i, c, t, e, rfl⟩ := ha
      rw [tidy] at ht
      simp only [Bool.and_eq_true, List.all_eq_true, decide_eq_true_eq] at ht
      obtain ⟨⟨⟨hi, hnew⟩, hdis⟩, hrest⟩ := ht
      have hflat : exec C d (transformFuncBody (.seq (.ite i c t e) r)) s = (exec C d i s >>= fun x =>
          exec C d (if hasReturn t then appendBlock t .skip else appendBlock t (transformFuncBody r)) x.2) := by
        rw [transformFuncBody, exec_init, exec]
        cases hx : exec C d i s with
        | error e => rfl
        | ok x =>
          obtain ⟨f, s1⟩ := x
          cases simple_flow hi hx
          rfl
      rw [hflat, untested, exec, exec_ite]
      have h1 : Alike (exec C d i s) (exec C d i { s with block := 0 }) := by
        refine (exec_like i).1 ⟨rfl, rfl⟩ fun n hn => ⟨fun h => ?_, fun h => ?_⟩
        · exact absurd (hs n (List.mem_of_mem_take h)) (hnew n (List.mem_append_left _ hn))
        · exact absurd h (by simp [inB])
      cases hx : exec C d i s with
      | error e =>
        cases hy : exec C d i { s with block := 0 } with
        | error e' => rw [hx, hy] at h1; exact h1
        | ok y => rw [hx, hy] at h1; exact h1.elim
      | ok x =>
        cases hy : exec C d i { s with block := 0 } with
        | error e' => rw [hx, hy] at h1; exact h1.elim
        | ok y =>
          obtain ⟨f, s1⟩ := x
          obtain ⟨g, s0⟩ := y
          rw [hx, hy] at h1
          obtain ⟨rfl, hl⟩ := h1
          cases simple_flow hi hx
          obtain ⟨new, a1, a2, a3⟩ := (exec_grown i).1 hx
          simp only [bind, Except.bind, eval_always, truth, if_true]
          have h2 : Alike (exec C d t s1) (exec C d t { s0 with block := 0 }) := by
            refine (exec_like t).1 ⟨hl.1, hl.2⟩ fun n hn => ⟨fun h => ?_, fun h => ?_⟩
            · have := List.mem_of_mem_take h
              rw [a1] at this
              rcases List.mem_append.1 this with h | h
              · exact absurd (a2 n h) (hdis n hn)
              · exact absurd (hs n h) (hnew n (List.mem_append_right _ hn))
            · exact absurd h (by simp [inB])
          have hout : exec C d (if hasReturn t then appendBlock t .skip else appendBlock t (transformFuncBody r)) s1 =
              (exec C d t s1 >>= fun x => match x with
                | (.next, s) => exec C d (transformFuncBody r) s
                | x => pure x) := by
            by_cases hr : hasReturn t = true
            · rw [if_pos hr, exec_append]
              cases hz : exec C d t s1 with
              | error e => rfl
              | ok z =>
                obtain ⟨f, u⟩ := z
                cases f with
                | next => exact absurd hz (returns_flow t (hasReturn_eq t ▸ hr) s1 u)
                | cont => rfl
                | ret vs => rfl
            · rw [if_neg hr, exec_append]
          rw [hout]
          cases hz : exec C d t s1 with
          | error e =>
            cases hw : exec C d t { s0 with block := 0 } with
            | error e' => rw [hz, hw] at h2; exact h2
            | ok y => rw [hz, hw] at h2; exact h2.elim
          | ok z =>
            cases hw : exec C d t { s0 with block := 0 } with
            | error e' => rw [hz, hw] at h2; exact h2.elim
            | ok w =>
              obtain ⟨f, t1⟩ := z
              obtain ⟨g, t0⟩ := w
              rw [hz, hw] at h2
              obtain ⟨rfl, hl2⟩ := h2
              obtain ⟨new', b1, b2, b3⟩ := (exec_grown t).1 hz
              cases f with
              | cont => exact ⟨rfl, hl2.2⟩
              | ret vs => exact ⟨rfl, hl2.2⟩
              | next =>
                have len1 := congrArg List.length a1
                have len2 := congrArg List.length b1
                simp only [namesOf, List.length_map, List.length_append] at len1 len2
                have hv : (t0.vars.drop (t0.vars.length - s0.vars.length)).drop
                    ((t0.vars.drop (t0.vars.length - s0.vars.length)).length - s.vars.length) = t1.vars.drop (new' ++ new).length := by
                  rw [← hl2.1, ← hl.1, List.drop_drop, List.length_drop, List.length_append]
                  congr 1
                  omega
                have hnames : namesOf t1.vars = (new' ++ new) ++ namesOf s.vars := by rw [b1, a1, List.append_assoc]
                by_cases he : (declared i ++ declared t).isEmpty = true
                · rw [if_pos he] at hrest
                  have hd : declared i ++ declared t = [] := by simpa using he
                  obtain ⟨d1, d2⟩ := List.append_eq_nil_iff.1 hd
                  have e1 : new = [] := List.eq_nil_iff_forall_not_mem.2 fun n hn => by simpa [d1] using a2 n hn
                  have e2 : new' = [] := List.eq_nil_iff_forall_not_mem.2 fun n hn => by simpa [d2] using b2 n hn
                  subst e1 e2
                  have hst : t1 = { t0 with
                      vars := (t0.vars.drop (t0.vars.length - s0.vars.length)).drop
                        ((t0.vars.drop (t0.vars.length - s0.vars.length)).length - s.vars.length),
                      block := s.block } := by
                    rw [hv]
                    cases t1; cases t0
                    simp only [State.Like] at hl2 b3 a3
                    simp only [List.append_nil, List.length_nil, List.drop_zero, State.mk.injEq, true_and]
                    refine ⟨?_, hl2.2⟩
                    simp only [List.length_nil, Nat.add_zero] at b3 a3
                    omega
                  simp only [bind, Except.bind]
                  rw [← hst]
                  refine ih hrest ?_
                  rw [hnames]
                  exact hs
                · rw [if_neg he] at hrest
                  simp only [Bool.or_eq_true] at hrest
                  rcases hrest with hrest | hrest
                  · exact absurd hz (returns_flow t hrest s1 t1)
                  · obtain ⟨es, r2, rfl⟩ : ∃ es r2, r = .seq (.ret es) r2 := by
                      unfold returnsWithout at hrest
                      split at hrest
                      · exact ⟨_, _, rfl⟩
                      · cases hrest
                    · simp only [returnsWithout, List.all_eq_true, decide_eq_true_eq] at hrest
                      simp only [bind, Except.bind]
                      rw [transformFuncBody, untested, exec, exec, exec, exec]
                      · have hev : eval C t1.vars es t1.mem = eval C (t1.vars.drop (new' ++ new).length) es t1.mem := by
                          refine eval_congr fun n hn => lookup_drop hnames fun hm => hrest n hn ?_
                          rcases List.mem_append.1 hm with hm | hm
                          · exact List.mem_append_right _ (b2 n hm)
                          · exact List.mem_append_left _ (a2 n hm)
                        rw [hev]
                        simp only [hv, ← hl2.2]
                        cases eval C (t1.vars.drop (new' ++ new).length) es t1.mem with
                        | error e => exact rfl
                        | ok y => exact ⟨rfl, rfl⟩
                      all_goals (intros; simp_all)
    · have e1 : transformFuncBody (.seq a r) = .seq a (transformFuncBody r) := by
        cases a <;> first | rfl | exact absurd ⟨_, _, _, _, rfl⟩ ha
      have e2 : untested (.seq a r) = .seq a (untested r) := by
        cases a <;> first | rfl | exact absurd ⟨_, _, _, _, rfl⟩ ha
      have e3 : tidy ns (.seq a r) = tidy (declared a ++ ns) r := by
        cases a <;> first | rfl | exact absurd ⟨_, _, _, _, rfl⟩ ha
      rw [e3] at ht
      rw [e1, e2, exec, exec]
      cases hx : exec C d a s with
      | error e => exact rfl
      | ok x =>
        obtain ⟨f, s1⟩ := x
        cases f with
        | cont => exact Ends.refl
        | ret vs => exact Ends.refl
        | next =>
          refine ih ht fun n hn => ?_
          obtain ⟨new, a1, a2, a3⟩ := (exec_grown a).1 hx
          rw [a1] at hn
          rcases List.mem_append.1 hn with h | h
          · exact List.mem_append_left _ (a2 n h)
          · exact List.mem_append_right _ (hs n h)
  | _ => intro ns s _ _; exact Ends.refl

/-- If the conditions hold, they need not be looked at. -/
theorem untested_exec {C : Calls} {d : Nat} (body : Stmt) : ∀ {s : State}, AllTrue C d body s → exec C d (untested body) s = exec C d body s := by
  induction body with
  | seq a r _ ih =>
    intro s h
    by_cases ha : ∃ i c t e, a = .ite i c t e
    · obtain ⟨i, c, t, e, rfl⟩ := ha
      rw [AllTrue] at h
      have hite : exec C d (.ite i always t e) s = exec C d (.ite i c t e) s := by
        rw [exec_ite, exec_ite]
        cases hx : exec C d i { s with block := 0 } with
        | error e => rfl
        | ok x =>
          simp only [bind, Except.bind]
          rw [h.1 x.1 x.2 hx, eval_always]
      rw [untested, exec, exec, hite]
      cases hy : exec C d (.ite i c t e) s with
      | error e => rfl
      | ok y =>
        obtain ⟨f, s'⟩ := y
        cases f with
        | next => exact ih (h.2 s' hy)
        | cont => rfl
        | ret vs => rfl
    · have e2 : untested (.seq a r) = .seq a (untested r) := by
        cases a <;> first | rfl | exact absurd ⟨_, _, _, _, rfl⟩ ha
      have h : ∀ s', exec C d a s = .ok (.next, s') → AllTrue C d r s' := by
        cases a <;> first | exact h | exact absurd ⟨_, _, _, _, rfl⟩ ha
      rw [e2, exec, exec]
      cases hy : exec C d a s with
      | error e => rfl
      | ok y =>
        obtain ⟨f, s'⟩ := y
        cases f with
        | next => exact ih (h s' hy)
        | cont => rfl
        | ret vs => rfl
  | _ => intro s _; rfl

theorem finish_ends {rs : List (Text × Expr)} : ∀ {a b : Except Fault (Flow × State)}, Ends a b → (a >>= finish rs) = (b >>= finish rs)
  | .error _, .error _, h => congrArg Except.error h
  | .ok (f, s), .ok (f', s'), h => by
    obtain ⟨rfl, h⟩ := h
    cases f with
    | ret vs => simp only [bind, Except.bind, finish, h]
    | next => rfl
    | cont => rfl

theorem bindParams_names : ∀ {ps : List (Text × Expr)} {vs : List V} {r : Vars}, bindParams ps vs = .ok r → namesOf r = ps.map Prod.fst
  | [], [], r, h => by cases h; rfl
  | (n, t) :: ps, v :: vs, r, h => by
    rw [bindParams] at h
    split at h
    · obtain ⟨_, _, h⟩ := bind_ok h
      obtain ⟨_, h1, h⟩ := bind_ok h
      cases h
      simp only [namesOf, List.map] at *
      rw [← bindParams_names h1]; rfl
    · cases h
  | [], _ :: _, _, h => by cases h
  | _ :: _, [], _, h => by cases h

theorem bindResults_names : ∀ {ps : List (Text × Expr)} {r : Vars}, bindResults ps = .ok r → ∀ n ∈ namesOf r, n ∈ ps.map Prod.fst
  | [], r, h => by cases h; exact fun _ h => h
  | (n, t) :: ps, r, h => by
    rw [bindResults] at h
    split at h
    · obtain ⟨q, h1, h⟩ := bind_ok h
      have := bindResults_names h1
      split at h
      · cases h; exact fun m hm => List.mem_cons_of_mem _ (this m hm)
      · obtain ⟨_, _, h⟩ := bind_ok h
        cases h
        intro m hm
        rcases List.mem_cons.1 hm with rfl | hm
        · exact List.mem_cons_self ..
        · exact List.mem_cons_of_mem _ (this m hm)
    · cases h

theorem bindRecv_names {m : Val} {r : Option (Text × Expr)} {v : Option V} {q : Vars} (h : bindRecv m r v = .ok q) :
    namesOf q = (r.map Prod.fst).toList := by
  unfold bindRecv at h
  split at h
  · cases h; rfl
  · cases h; rfl
  · obtain ⟨_, _, h⟩ := bind_ok h
    cases h; rfl
  · cases h

/-- A tidy function, transformed, does what it does without its tests. -/
theorem transformFunc_call {C : Calls} {d : Nat} {f : FuncDecl} (h : tidyFunc f = true) (recv : Option V) (args : List V) (m : Val) :
    callFunc C d (transformFunc f) recv args m = callFunc C d (untestedFunc f) recv args m := by
  simp only [callFunc, transformFunc, untestedFunc]
  cases h1 : bindRecv m f.recv recv with
  | error e => rfl
  | ok rv =>
    cases h2 : bindParams f.params args with
    | error e => rfl
    | ok ps =>
      cases h3 : bindResults f.results with
      | error e => rfl
      | ok rs =>
        refine finish_ends (transform_ends f.body h fun n hn => ?_)
        simp only [namesOf, List.map_append, List.mem_append] at hn ⊢
        rcases hn with (hn | hn) | hn
        · exact .inl (.inl (bindResults_names h3 n hn))
        · exact .inl (.inr (bindParams_names h2 ▸ hn))
        · exact .inr (bindRecv_names h1 ▸ hn)

/-! ### the template -/

/-- What gen/option repeats for each type. -/
def tmplBody : List Piece := [
  .text t!"\nvar ",
  .field t!"Codec",
  .text t!"OptionCodec = codec{\n\tsize:   sizeOf",
  .field t!"Name",
  .text t!"Option,\n\tencode: encode",
  .field t!"Name",
  .text t!"Option,\n\tdecode: decode",
  .field t!"Name",
  .text t!"Option,\n}\n\nfunc sizeOf",
  .field t!"Name",
  .text t!"Option(p unsafe.Pointer, f *structField) int {\n\to := (*Option[",
  .field t!"Type",
  .text t!"])(p)\n\tif o.IsSome() {\n\t\treturn sizeOf",
  .field t!"Name",
  .text t!"Required(o.unsafePointer(), f)\n\t}\n\treturn 0\n}\n\nfunc encode",
  .field t!"Name",
  .text t!"Option(b []byte, p unsafe.Pointer, f *structField) []byte {\n\to := (*Option[",
  .field t!"Type",
  .text t!"])(p)\n\tif o.IsSome() {\n\t\treturn encode",
  .field t!"Name",
  .text t!"Required(b, o.unsafePointer(), f)\n\t}\n\treturn b\n}\n\nfunc decode",
  .field t!"Name",
  .text t!"Option(b []byte, p unsafe.Pointer) (int, error) {\n\tv := (*Option[",
  .field t!"Type",
  .text t!"])(p)\n\tv.some = true\n\treturn decode",
  .field t!"Name",
  .text t!"(b, v.unsafePointer())\n}\n\n"]

theorem pieces_tmpl : pieces [] false decodeTmpl =
    some (.text t!"// Code generated by gen/option/main.go. DO NOT EDIT.\n\npackage proto\n\nimport \"unsafe\"\n\n" ::
      .range t!"Decoder" :: (tmplBody ++ [.stop, .text t!"\n"])) := by
  decide +kernel

theorem render_range {data : Text → Option (List Record)} {xs : List Record} {rest : List Piece} : ∀ (body acc : List Piece), .stop ∉ body →
    renderPieces data (some (xs, acc)) (body ++ .stop :: rest) = (match renderItems (acc.reverse ++ body) xs, renderPieces data none rest with
      | some t, some u => some (t ++ u)
      | _, _ => none)
  | [], acc, _ => by simp only [List.nil_append, List.append_nil]; rfl
  | p :: ps, acc, h => by
    have hp : p ≠ .stop := fun e => h (e ▸ List.mem_cons_self ..)
    have e : ∀ q, renderPieces data (some (xs, acc)) (p :: q) = renderPieces data (some (xs, p :: acc)) q := by
      intro q
      cases p <;> first | rfl | exact absurd rfl hp
    have := render_range (data := data) (xs := xs) (rest := rest) ps (p :: acc) (fun e => h (List.mem_cons_of_mem _ e))
    rw [List.cons_append, e, this, List.reverse_cons, List.append_assoc]
    rfl

end Pb.Go
