import Verif.Proofs.Pool
import Verif.Props.Safety
/-
C42: the pooled scratch structs of map decoding, with goroutines that call `Unmarshal` concurrently (Model/Pool.lean).
`SysReachable env s` ranges over all numbers of calls, all inputs and targets, all interleavings and all behaviours of
`sync.Pool` and of the garbage collector.
-/
namespace Pb.Props
open Spec

/-- C42. A scratch struct in a pool is zero, whatever calls have succeeded, failed or are under way: whoever takes it next
starts from the zero of the struct type. -/
theorem C42_scratch_zero {env : Env} {s : Sys} (h : SysReachable env s) (z : Val) (a : Nat) (hp : (z, a) ∈ s.pool) :
    s.mem a = some z := by
  obtain ⟨own, hi⟩ := inv_reachable h
  exact (hi.pool z a hp).1

/-- C42. A scratch struct is used by one goroutine at a time: two calls that are about to read, write or put back the same
struct are the same call, the struct is not in a pool, and it is in no pool twice. -/
theorem C42_exclusive {env : Env} {s : Sys} (h : SysReachable env s) :
    (∀ (i j : Nat) (c d : Call) (a : Nat), s.calls[i]? = some c → s.calls[j]? = some d → c.prog.touches = some a → d.prog.touches = some a → i = j) ∧
    (∀ (i : Nat) (c : Call) (a : Nat) (z : Val), s.calls[i]? = some c → c.prog.touches = some a → (z, a) ∉ s.pool) ∧
    (s.pool.map Prod.snd).Nodup := by
  obtain ⟨own, hi⟩ := inv_reachable h
  have owns : ∀ (i : Nat) (c : Call) (a : Nat), s.calls[i]? = some c → c.prog.touches = some a → own i a ≠ none := by
    intro i c a hc ht
    have hs := hi.calls i c hc
    cases hp : c.prog with
    | ret | fail | get | new => rw [hp] at ht; cases ht
    | load a' k =>
      rw [hp] at ht hs; cases ht
      obtain ⟨v, hv, _⟩ := hs
      rw [hv]; simp
    | store a' v k => rw [hp] at ht hs; cases ht; exact hs.1
    | put z a' k => rw [hp] at ht hs; cases ht; rw [hs.1]; simp
  refine ⟨fun i j c d a hc hd h1 h2 => hi.disj i j a (owns i c a hc h1) (owns j d a hd h2), fun i c a z hc h1 hm => ?_,
    hi.nodup⟩
  exact owns i c a hc h1 ((hi.pool z a hm).2 i)

/-- C42. A call of `Unmarshal` that runs concurrently with others, with scratch structs used before, gives what it gives
alone with fresh structs: the same target and the same error. -/
theorem C42_result {env : Env} {s : Sys} (h : SysReachable env s) (i : Nat) (c : Call) (hc : s.calls[i]? = some c) :
    (∀ r, c.prog = .ret r → unmarshal env c.input c.arg = .ok r) ∧
    (∀ f, c.prog = .fail f → unmarshal env c.input c.arg = .error f) := by
  obtain ⟨own, hi⟩ := inv_reachable h
  have hs := hi.calls i c hc
  constructor
  · intro r hr; rw [hr] at hs; exact Eq.symm hs
  · intro f hf; rw [hf] at hs; exact Eq.symm hs

/-- C42. A call that has not ended can go on, whatever the others do; in particular it never reads a scratch struct that
does not exist. -/
theorem C42_progress {env : Env} {s : Sys} (h : SysReachable env s) (i : Nat) (c : Call) (hc : s.calls[i]? = some c) :
    (∃ r, c.prog = .ret r) ∨ (∃ f, c.prog = .fail f) ∨
    ∃ s' p, SysStep env s s' ∧ s'.calls[i]? = some { c with prog := p } := by
  obtain ⟨own, hi⟩ := inv_reachable h
  have hl : i < s.calls.length := (List.getElem?_eq_some_iff.mp hc).1
  have hset : ∀ p, (s.calls.set i { c with prog := p })[i]? = some { c with prog := p } :=
    fun p => List.getElem?_set_self hl
  cases hp : c.prog with
  | ret r => exact .inl ⟨r, rfl⟩
  | fail f => exact .inr (.inl ⟨f, rfl⟩)
  | get z k => exact .inr (.inr ⟨_, _, .getNone s i c z k hc hp, hset _⟩)
  | new z k =>
    obtain ⟨N, hN⟩ := hi.fin
    exact .inr (.inr ⟨_, _, .new s i c z k N hc hp (hN N (Nat.le_refl _)), hset _⟩)
  | load a k =>
    have hs := hi.calls i c hc
    rw [hp] at hs
    obtain ⟨v, hv, _⟩ := hs
    exact .inr (.inr ⟨_, _, .load s i c a k v hc hp (hi.mem i a v hv), hset _⟩)
  | store a v k => exact .inr (.inr ⟨_, _, .store s i c a v k hc hp, hset _⟩)
  | put z a k => exact .inr (.inr ⟨_, _, .put s i c z a k hc hp, hset _⟩)

/-- C42. From every state, every call can be brought to its end; for well-formed types and a target of the right type, the
end is a return and not a fault. -/
theorem C42_completes {L : Layout} {env : Env} (hwf : WFEnv L env) {s : Sys} (h : SysReachable env s) (i : Nat) (c : Call)
    (hc : s.calls[i]? = some c) (ha : c.arg ≠ .nilIface) (hv : ∀ t v, c.arg = .msg t v → FitsMsg L t v) :
    ∃ s' r, SysSteps env s s' ∧ s'.calls[i]? = some { c with prog := .ret r } ∧ unmarshal env c.input c.arg = .ok r := by
  obtain ⟨r, hr⟩ := C03_unmarshal_safe_arg hwf c.input c.arg ha hv
  have main : ∀ (p : Prog UnmarshalRes) (s : Sys), SysReachable env s → s.calls[i]? = some { c with prog := p } →
      ∃ s', SysSteps env s s' ∧ s'.calls[i]? = some { c with prog := .ret r } := by
    intro p
    have next : ∀ {s s' : Sys} (_ : SysReachable env s) (_ : SysStep env s s')
        (_ : SysReachable env s' → ∃ s'', SysSteps env s' s'' ∧ s''.calls[i]? = some { c with prog := .ret r }),
        ∃ s'', SysSteps env s s'' ∧ s''.calls[i]? = some { c with prog := .ret r } := by
      intro s s' hs hst hk
      obtain ⟨s'', h1, h2⟩ := hk (.step _ _ hs hst)
      exact ⟨s'', .step _ _ _ hst h1, h2⟩
    have hset : ∀ {s : Sys} {q : Prog UnmarshalRes} (_ : s.calls[i]? = some { c with prog := q }) (p : Prog UnmarshalRes),
        (s.calls.set i { c with prog := p })[i]? = some { c with prog := p } :=
      fun h p => List.getElem?_set_self (List.getElem?_eq_some_iff.mp h).1
    induction p with
    | ret r' =>
      intro s hs hc
      have := (C42_result hs i _ hc).1 r' rfl
      rw [hr] at this; cases this
      exact ⟨s, .refl _, hc⟩
    | fail f =>
      intro s hs hc
      have := (C42_result hs i _ hc).2 f rfl
      rw [hr] at this; cases this
    | get z k ih =>
      intro s hs hc
      exact next hs (.getNone s i _ z k hc rfl) fun h' => ih none _ h' (hset hc _)
    | new z k ih =>
      intro s hs hc
      obtain ⟨own, hi⟩ := inv_reachable hs
      obtain ⟨N, hN⟩ := hi.fin
      exact next hs (.new s i _ z k N hc rfl (hN N (Nat.le_refl _))) fun h' => ih N _ h' (hset hc _)
    | load a k ih =>
      intro s hs hc
      obtain ⟨own, hi⟩ := inv_reachable hs
      obtain ⟨v, hv, _⟩ := hi.calls i _ hc
      exact next hs (.load s i _ a k v hc rfl (hi.mem i a v hv)) fun h' => ih v _ h' (hset hc _)
    | store a v k ih =>
      intro s hs hc
      exact next hs (.store s i _ a v k hc rfl) fun h' => ih _ h' (hset hc _)
    | put z a k ih =>
      intro s hs hc
      exact next hs (.put s i _ z a k hc rfl) fun h' => ih _ h' (hset hc _)
  obtain ⟨s', h1, h2⟩ := main c.prog s h hc
  exact ⟨s', r, h1, h2, hr⟩

/-- A first call fails inside a map entry, after the key `A` was decoded, and gives its scratch struct back; a second call
takes this struct and decodes an entry without a key into it. -/
example : ∃ s, SysReachable Sample.env s ∧ s.mem 0 = some (.struct [.str [], .str []]) ∧
    s.calls.map Call.prog =
    [.ret ⟨.msg 0 (.struct [.w32 0#32, .str [], .slice true [] [], .opt false (.w64 0#64), .map false [], .opaque 0,
        .bytes none, .nilp]), some (.decode (.field 5 2 (.field 2 2 .unexpectedEOF)))⟩,
     .ret ⟨.msg 0 (.struct [.w32 0#32, .str [], .slice true [] [], .opt false (.w64 0#64),
        .map false [(.str [], .str [66#8])], .opaque 0, .bytes none, .nilp]), none⟩] := by
  have h := SysReachable.step _ _ (.start (env := Sample.env))
    (.call _ [42#8, 5#8, 10#8, 1#8, 65#8, 18#8, 9#8] (.msg 0 Sample.emptyNode))
  have h := SysReachable.step _ _ h (.call _ [42#8, 3#8, 18#8, 1#8, 66#8] (.msg 0 Sample.emptyNode))
  have h := SysReachable.step _ _ h (.getNone _ 0 _ _ _ rfl rfl)
  have h := SysReachable.step _ _ h (.new _ 0 _ _ _ 0 rfl rfl rfl)
  have h := SysReachable.step _ _ h (.load _ 0 _ _ _ _ rfl rfl rfl)
  have h := SysReachable.step _ _ h (.store _ 0 _ _ _ _ rfl rfl)
  have h := SysReachable.step _ _ h (.load _ 0 _ _ _ _ rfl rfl rfl)
  have h := SysReachable.step _ _ h (.store _ 0 _ _ _ _ rfl rfl)
  have h := SysReachable.step _ _ h (.put _ 0 _ _ _ _ rfl rfl)
  have h := SysReachable.step _ _ h (.getSome _ 1 _ _ _ [] 0 [] rfl rfl rfl)
  have h := SysReachable.step _ _ h (.load _ 1 _ _ _ _ rfl rfl rfl)
  have h := SysReachable.step _ _ h (.store _ 1 _ _ _ _ rfl rfl)
  have h := SysReachable.step _ _ h (.load _ 1 _ _ _ _ rfl rfl rfl)
  have h := SysReachable.step _ _ h (.store _ 1 _ _ _ _ rfl rfl)
  have h := SysReachable.step _ _ h (.put _ 1 _ _ _ _ rfl rfl)
  exact ⟨_, h, rfl, rfl⟩

end Pb.Props
