import Verif.Proofs.CacheSim
import Verif.Proofs.Program
import Verif.Proofs.Enc
import Verif.Proofs.Back
/-
Programs for which the caches are harmless, messages as concatenations of fields, and runs of one goroutine.
-/
namespace Pb.Cache
open Spec

variable {D : Decls} {r : TypeId}

/-! ### uniform programs -/

/-- The struct types analysis of `r` extends to: message types that are needed, and entry structs. -/
def PlainKey (D : Decls) (r : TypeId) (k : InfoKey) : Prop :=
  (∃ t, k = .named t ∧ Needs D r t) ∨ ∃ K V a b, Plain K ∧ Plain V ∧ (∀ u, Mentions K u → Needs D r u) ∧
    (∀ u, Mentions V u → Needs D r u) ∧ k = .anon (entryDecl K V a b)

theorem plain_asks (hD : Uniform D r) {k : InfoKey} (hw : PlainKey D r k)
    {f : FieldDecl} (hf : f ∈ k.decl D) (ha : f.Active) :
    PlainField f.ty ∧ ∀ T u, f.ty = .ty T → Mentions T u → Needs D r u := by
  rcases hw with ⟨t, rfl, hn⟩ | ⟨K, V, a, b, hK, hV, mK, mV, rfl⟩
  · exact ⟨hD.plain t hn f hf ha, fun T u hT hm => .field t f T u hn hf ha hT hm⟩
  · simp only [InfoKey.decl, entryDecl, List.mem_cons, List.not_mem_nil, or_false] at hf
    rcases hf with rfl | rfl
    · exact ⟨.one _ hK, fun T u hT hm => by cases hT; exact mK u hm⟩
    · exact ⟨.one _ hV, fun T u hT hm => by cases hT; exact mV u hm⟩

theorem plain_of_asks {f : FieldDecl} (h : PlainField f.ty) {conf : Conf} {T : GoType} (ha : Asks f conf T) : Plain T := by
  cases ha with
  | single text _ h1 h2 h3 h4 h5 h6 =>
    rw [h3] at h
    cases h with
    | one _ h => exact h
    | many E h => exact absurd rfl (h5 E)
    | map K V => exact absurd rfl (h6 K V)
  | elem text _ h1 h2 h3 h4 =>
    rw [h3] at h
    cases h with
    | one _ h => cases h; exact absurd rfl h4
    | many _ h => exact h
  | pointee text _ B h1 h2 h3 h4 =>
    rw [h3] at h
    cases h with
    | one _ h => cases h; cases h4
  | key text K V h1 h2 h3 =>
    rw [h3] at h
    cases h with
    | one _ h => cases h
    | map _ _ hK hV => exact hK
  | val text K V h1 h2 h3 =>
    rw [h3] at h
    cases h with
    | one _ h => cases h
    | map _ _ hK hV => exact hV

/-- What is asked for occurs in the type of the field. -/
theorem asks_mentions {f : FieldDecl} {conf : Conf} {T : GoType} (ha : Asks f conf T) {u : TypeId} (hm : Mentions T u) :
    ∃ T', f.ty = .ty T' ∧ Mentions T' u := by
  cases ha with
  | single text _ h1 h2 h3 h4 h5 h6 => exact ⟨_, h3, hm⟩
  | elem text _ h1 h2 h3 h4 => exact ⟨_, h3, .slice _ _ hm⟩
  | pointee text _ B h1 h2 h3 h4 => exact ⟨_, h3, .ptr _ _ hm⟩
  | key text K V h1 h2 h3 => exact ⟨_, h3, .key _ _ _ hm⟩
  | val text K V h1 h2 h3 => exact ⟨_, h3, .val _ _ _ hm⟩

mutual
theorem within_plain (hD : Uniform D r) {k : InfoKey} : Within D r k → PlainKey D r k
  | .root => .inl ⟨_, rfl, .root⟩
  | .msg _ t hu => .inl ⟨t, rfl, (uses_plain hD hu).2 t (.ptr _ _ (.named t))⟩
  | .entry k f text K V hw hf h1 h2 h3 => by
    obtain ⟨h, hm⟩ := plain_asks hD (within_plain hD hw) hf ⟨h1, by rw [h2]; simp⟩
    rw [h3] at h
    cases h with
    | one _ h => cases h
    | map _ _ hK hV =>
      exact .inr ⟨K, V, _, _, hK, hV, fun u hu => hm _ u h3 (.key _ _ _ hu), fun u hu => hm _ u h3 (.val _ _ _ hu), rfl⟩
theorem uses_plain (hD : Uniform D r) {conf : Conf} {T : GoType} : Uses D r conf T → Plain T ∧ ∀ u, Mentions T u → Needs D r u
  | .field k f _ _ hw hf ha => by
    have hact : f.Active := by cases ha <;> (rename_i h1 h2 _; exact ⟨by assumption, by simp [*]⟩)
    have h := plain_asks hD (within_plain hD hw) hf hact
    refine ⟨plain_of_asks h.1 ha, fun u hu => ?_⟩
    obtain ⟨T', e, hm⟩ := asks_mentions ha hu
    exact h.2 T' u e hm
  | .ptr _ _ hu hn => by
    have := (uses_plain hD hu).1
    cases this
    exact absurd rfl (hn _)
end

/-- A codec for a plain type does not depend on the settings but for `int32` and `int64`. -/
theorem wCodec_plain {T : GoType} (h : Plain T) (z z' q : Bool) (hz : T = .int32 ∨ T = .int64 → z = z') :
    wCodec ⟨z, q⟩ T = wCodec ⟨z', q⟩ T := by
  cases h with
  | int32 => rw [hz (.inl rfl)]
  | int64 => rw [hz (.inr rfl)]
  | _ => rfl

/-- In uniform messages whatever analysis finds in its cache is what it is looking for. -/
theorem Uniform.consistent (hD : Uniform D r) : Consistent D r where
  asked conf T c hu hk := by
    have hp := (uses_plain hD hu).1
    cases hk with
    | msg t => rfl
    | ptr _ X _ hu' hn => cases hp; exact absurd rfl (hn _)
    | slice k f conf' _ E c hw hf hc hcE =>
      cases hc with
      | slice text _ h1 h2 h3 h4 => cases hp; exact absurd rfl h4
      | pointer text _ B h1 h2 h3 h4 => cases hp; cases h4
    | map => cases hp
  collected k f conf T E c c' hw hf hc hcE hk := by
    have pf : ∀ {k f}, Within D r k → f ∈ k.decl D → f.Active → PlainField f.ty := fun hw hf ha =>
      (plain_asks hD (within_plain hD hw) hf ha).1
    cases hc with
    | pointer text _ B h1 h2 h3 h4 =>
      have h := pf hw hf ⟨h1, by rw [h2]; simp⟩
      rw [h3] at h
      cases h with
      | one _ h => cases h; cases h4
    | slice text _ h1 h2 h3 h4 =>
      have hact : f.Active := ⟨h1, by rw [h2]; simp⟩
      have h := pf hw hf hact
      rw [h3] at h
      have hE : Plain E := by
        cases h with
        | one _ h => cases h; exact absurd rfl h4
        | many _ h => exact h
      generalize hT : GoType.slice E = T at hk
      cases hk with
      | msg t => cases hT
      | ptr => cases hT
      | map => cases hT
      | slice k' f' conf' _ E' c₂ hw' hf' hc' hcE' =>
        cases hc' with
        | pointer => cases hT
        | slice text' _ h1' h2' h3' h4' =>
          cases hT
          have hact' : f'.Active := ⟨h1', by rw [h2']; simp⟩
          have key : ∀ {k f}, Within D r k → f ∈ k.decl D → f.ty = .ty (.slice E) → ∃ t, Needs D r t ∧ f ∈ D t := by
            intro k f hw hf hty
            rcases within_plain hD hw with ⟨t, rfl, hn⟩ | ⟨K, V, a, b, hK, hV, _, _, rfl⟩
            · exact ⟨t, hn, hf⟩
            · simp only [InfoKey.decl, entryDecl, List.mem_cons, List.not_mem_nil, or_false] at hf
              rcases hf with rfl | rfl
              · cases hty; cases hK; exact absurd rfl h4
              · cases hty; cases hV; exact absurd rfl h4
          obtain ⟨t, nt, ht⟩ := key hw hf h3
          obtain ⟨u, nu, hu⟩ := key hw' hf' h3'
          have := wCodec_plain hE (parseStructTag text).1.zigzag (parseStructTag text').1.zigzag true
            fun hi => hD.zigzag t u nt nu f ht f' hu hact hact' E hi h3 h3' text text' h2 h2'
          rw [this, hcE'] at hcE
          cases hcE
          rfl

/-! ### fields -/

/-- The bytes of a field, from its declaration and its value. -/
def encDecl (D : Decls) (f : FieldDecl) (v : Val) : Except Fault Bytes :=
  match f.tag with
  | none => .error .panic
  | some s =>
    match fieldCodec (parseStructTag s).1 f.keyTag f.valTag f.ty with
    | .error e => .error e
    | .ok c => encP (sizeM (envOf D)) (encM (envOf D)) c v
        ⟨(parseStructTag s).1.wiretag, sizeOfVarint (parseStructTag s).1.wiretag⟩

theorem catAll_cons {α : Type} (g : α → Except Fault Bytes) (x : α) (xs : List α) {b : Bytes} (h : catAll g (x :: xs) = .ok b) :
    ∃ p q, g x = .ok p ∧ catAll g xs = .ok q ∧ b = p ++ q := by
  unfold catAll at h
  cases hg : g x with
  | error e => simp [hg] at h
  | ok p =>
    cases hc : catAll g xs with
    | error e => simp [hg, hc] at h
    | ok q =>
      refine ⟨p, q, rfl, rfl, ?_⟩
      simp [hg, hc] at h
      exact h.symm

theorem parts_of_walk (vs : List Val) : ∀ (fs : List FieldDecl) (i : Nat) (gs : List Field) (b : Bytes),
    walkFields i fs = .ok gs → encFields (encP (sizeM (envOf D)) (encM (envOf D))) (.struct vs) gs = .ok b →
    ∃ ps, FieldParts (encDecl D) vs i fs ps ∧ b = ps.flatten := by
  intro fs
  induction fs with
  | nil =>
    intro i gs b h hb
    cases h
    cases hb
    exact ⟨[], .nil i, rfl⟩
  | cons f fs ih =>
    intro i gs b h hb
    have skip : ¬ f.Active → walkFields (i + 1) fs = .ok gs → ∃ ps, FieldParts (encDecl D) vs i (f :: fs) ps ∧ b = ps.flatten := by
      intro hna hw
      obtain ⟨ps, h1, h2⟩ := ih (i + 1) gs b hw hb
      exact ⟨ps, .skip _ _ _ _ hna h1, h2⟩
    simp only [walkFields] at h
    by_cases he : f.exported = true
    · simp only [he, if_true] at h
      cases ht : f.tag with
      | none =>
        simp only [ht] at h
        exact skip (fun ha => ha.2 ht) h
      | some s =>
        simp only [ht, bind, Except.bind, pure, Except.pure, throw, throwThe, MonadExceptOf.throw] at h
        cases hp : parseStructTag s with
        | mk t err =>
          simp only [hp] at h
          cases err with
          | true => simp at h
          | false =>
            simp only [Bool.false_eq_true, if_false] at h
            cases hc : fieldCodec t f.keyTag f.valTag f.ty with
            | error e => simp [hc] at h
            | ok c =>
              simp only [hc] at h
              cases hr : walkFields (i + 1) fs with
              | error e => simp [hr] at h
              | ok rest =>
                simp only [hr, Except.ok.injEq] at h
                subst h
                obtain ⟨p, q, h1, h2, rfl⟩ := catAll_cons _ _ _ hb
                obtain ⟨ps, h3, rfl⟩ := ih (i + 1) rest q hr h2
                simp only [slotOf] at h1
                cases hv : vs[i]? with
                | none => simp [hv] at h1
                | some v =>
                  simp only [hv] at h1
                  refine ⟨p :: ps, .part _ _ _ _ v p ⟨he, by rw [ht]; simp⟩ hv ?_ h3, rfl⟩
                  unfold encDecl
                  simp only [ht, hp, hc]
                  exact h1
    · simp only [he] at h
      exact skip (fun ha => he ha.1) h

theorem marshal_parts {t : TypeId} {vs : List Val} {b : Bytes} {info : TypeInfo} (ha : walkStruct (D t) = .ok info)
    (h : Pb.marshal (envOf D) (.msg t (.struct vs)) = .ok (.ok b)) :
    ∃ ps, FieldParts (encDecl D) vs 0 (D t) ps ∧ b = ps.flatten := by
  have hw : ∃ gs, walkFields 0 (D t) = .ok gs ∧ (envOf D t).fields = gs := by
    unfold walkStruct at ha
    cases hw : walkFields 0 (D t) with
    | error e => simp [hw, bind, Except.bind] at ha
    | ok gs =>
      refine ⟨gs, rfl, ?_⟩
      simp [envOf, walkStruct, hw, bind, Except.bind, pure, Except.pure]
  obtain ⟨gs, hg, hf⟩ := hw
  refine parts_of_walk vs (D t) 0 gs b hg ?_
  rw [← hf, ← encM_eq]
  exact marshal_inv h

/-! ### runs of one goroutine -/

/-- Up to `n` operations of a goroutine. -/
def runN : Nat → Prog Nat → State → Prog Nat × State
  | n + 1, .op o k, s => runN n (k (exec o s).1) (exec o s).2
  | _, p, s => (p, s)

theorem reach_run (n : Nat) : ∀ {s : State} {ts : List Thread} {j : Nat} {t : TypeId} {p : Prog Nat},
    Reachable D ⟨s, ts⟩ → ts[j]? = some ⟨t, p⟩ → Reachable D ⟨(runN n p s).2, ts.set j ⟨t, (runN n p s).1⟩⟩ := by
  induction n with
  | zero =>
    intro s ts j t p h hj
    have hl : j < ts.length := (List.getElem?_eq_some_iff.mp hj).1
    have : ts.set j ⟨t, p⟩ = ts := by
      apply List.ext_getElem?
      intro m
      rw [List.getElem?_set]
      split
      · next h => subst h; rw [hj]
      · rfl
    simp only [runN]; rw [this]; exact h
  | succ n ih =>
    intro s ts j t p h hj
    have hl : j < ts.length := (List.getElem?_eq_some_iff.mp hj).1
    have same : ts.set j ⟨t, p⟩ = ts := by
      apply List.ext_getElem?
      intro m
      rw [List.getElem?_set]
      split
      · next h => subst h; rw [hj]
      · rfl
    cases p with
    | op o k =>
      have h' := Reachable.step _ _ h (Step.run ⟨s, ts⟩ j t o k hj)
      have := ih (j := j) (t := t) (p := k (exec o s).1) h' (by simp [hl])
      rw [List.set_set] at this
      exact this
    | ret a => simp only [runN]; rw [same]; exact h
    | panic => simp only [runN]; rw [same]; exact h
    | stuck => simp only [runN]; rw [same]; exact h

/-- What a goroutine has returned. -/
def returns : Prog Nat → Option Nat
  | .ret i => some i
  | _ => none

theorem returns_eq {p : Prog Nat} {i : Nat} (h : returns p = some i) : p = .ret i := by
  cases p with
  | ret a => cases h; rfl
  | _ => cases h

/-- Whether a goroutine has panicked. -/
def panics : Prog Nat → Bool
  | .panic => true
  | _ => false

theorem panics_eq {p : Prog Nat} (h : panics p = true) : p = .panic := by
  cases p with
  | panic => rfl
  | _ => cases h

/-- The bytes of a successful `Marshal`. -/
def output : Except Fault (Except ApiErr Bytes) → Option Bytes
  | .ok (.ok b) => some b
  | _ => none

theorem output_eq {r : Except Fault (Except ApiErr Bytes)} {b : Bytes} (h : output r = some b) : r = .ok (.ok b) := by
  rcases r with e | (e | c)
  · cases h
  · cases h
  · cases h; rfl

/-- A goroutine calls an API function with a message of type `t` and runs for `n` operations. -/
theorem reach_call (n d : Nat) (t : TypeId) {s : State} {ts : List Thread} (h : Reachable D ⟨s, ts⟩) :
    Reachable D ⟨(runN n (cachedStructInfoOf D d t) s).2, ts ++ [⟨t, (runN n (cachedStructInfoOf D d t) s).1⟩]⟩ := by
  have h' := reach_run n (j := ts.length) (t := t) (p := cachedStructInfoOf D d t)
    (Reachable.step _ _ h (Step.call ⟨s, ts⟩ d t)) (by simp)
  have e : ∀ a b : Thread, (ts ++ [a]).set ts.length b = ts ++ [b] := by
    intro a b
    rw [List.set_append_right _ _ (Nat.le_refl _), Nat.sub_self]
    rfl
  rw [e] at h'
  exact h'

/-! ### goroutines that have returned -/

theorem accepted_of {must : Prop} {s : State} {G : Ghost} (hI : Inv D must s G) {i : Nat} {t : TypeId} (h : At s i t) :
    ∃ info, walkStruct (D t) = .ok info := by
  obtain ⟨⟨o, ho⟩, k, fs, hk⟩ := h
  rw [hk] at ho
  cases ho
  have := (hI.info i _ fs hk).1
  simp only [InfoKey.decl] at this
  exact ⟨_, by unfold walkStruct; rw [this]; rfl⟩

theorem returned {must : Prop} {s : Sys} {G : Ghost} {Ps : List Pend} (h : SysInv D must s G Ps) {n : Nat} {t : TypeId} {i : Nat}
    (ht : s.threads[n]? = some ⟨t, .ret i⟩) : At s.state i t ∧ Ps[n]? = some ([], []) := by
  have hn : n < Ps.length := by rw [h.len]; exact (List.getElem?_eq_some_iff.mp ht).1
  have hp : Ps[n]? = some Ps[n] := List.getElem?_eq_getElem hn
  obtain ⟨h1, h2, h3⟩ := h.safe n _ _ ht hp
  exact ⟨⟨h2, h3⟩, by rw [hp, h1]⟩

theorem works_acyclic {rank : TypeId → Nat} (hA : Acyclic D rank) {s : Sys} (h : Reachable D s)
    (hC : ∀ t ∈ s.threads, Consistent D t.root) {n : Nat} {t : TypeId} {i : Nat} (ht : s.threads[n]? = some ⟨t, .ret i⟩) :
    Works D s.state i t ∧ ∃ info, walkStruct (D t) = .ok info := by
  obtain ⟨G, Ps, hI⟩ := sysInv (must := True) (fun _ => hA) h hC
  exact ⟨works hI.inv (returned hI ht).1, accepted_of hI.inv (returned hI ht).1⟩

theorem settled_inv {s : Sys} (h : Reachable D s) (hC : ∀ t ∈ s.threads, Consistent D t.root) (hq : Settled s) :
    ∃ G, Inv D True s.state G ∧ ∀ (n : Nat) t i, s.threads[n]? = some ⟨t, .ret i⟩ → At s.state i t := by
  obtain ⟨G, Ps, hI⟩ := sysInv (must := False) (rank := fun _ => 0) (fun h => h.elim) h hC
  have all : ∀ P ∈ Ps, P = ([], []) := by
    intro P hP
    obtain ⟨m, hm⟩ := List.getElem?_of_mem hP
    have hml : m < s.threads.length := by rw [← hI.len]; exact (List.getElem?_eq_some_iff.mp hm).1
    have hth := List.getElem?_eq_getElem hml
    obtain ⟨j, hj⟩ := hq _ (List.getElem_mem hml)
    have := (returned hI (n := m) (t := s.threads[m].root) (i := j) (by rw [hth, ← hj])).2
    rw [hm] at this
    exact Option.some.inj this
  have hI' := hI.inv.all
    (fun m hm => by
      obtain ⟨P, hP, h⟩ := hI.openC m hm
      rw [all P hP] at h; cases h)
    (fun m hm => by
      obtain ⟨P, hP, h⟩ := hI.openI m hm
      rw [all P hP] at h; cases h)
  exact ⟨G, hI', fun n t i ht => (returned hI ht).1⟩

theorem works_quiescent {s : Sys} (h : Reachable D s) (hC : ∀ t ∈ s.threads, Consistent D t.root)
    (hq : Settled s) {n : Nat} {t : TypeId} {i : Nat} (ht : s.threads[n]? = some ⟨t, .ret i⟩) :
    Works D s.state i t ∧ ∃ info, walkStruct (D t) = .ok info := by
  obtain ⟨G, hI, hat⟩ := settled_inv h hC hq
  exact ⟨works hI (hat n t i ht), accepted_of hI (hat n t i ht)⟩

end Pb.Cache
