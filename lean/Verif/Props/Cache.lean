import Verif.Proofs.CacheEnds
import Verif.Props.Program
import Verif.Spec.SampleDecls
/-
C40, C41: type analysis with its caches, shared by all goroutines (Model/Cache.lean).
`Reachable D s` ranges over all numbers of calls, all message types of the program `D`, all interleavings of the operations
on the caches, and calls that panicked or are still running. A goroutine whose program is `.ret i` has got the type info at
address `i` from `cachedStructInfoOf`.

Both properties are false of the library: `C40_false_field`, `C40_false_history`, `C41_false_concurrent` and
`C41_false_after_panic` are runs that break them. The `_partial` theorems say for which programs they hold:
* C40 for programs in which analysis of one message type never asks for codecs of one Go type with different settings
  (`Consistent`); `C40_uniform` gives a simple sufficient condition.
* C41 in addition only if no message type contains itself (`Acyclic`), or once no analysis is under way and none has panicked.
-/
namespace Pb.Props
open Spec Cache

/-! ### C41 -/

/-- C41. If no message type contains itself, then in every interleaving, and also after other calls have panicked, a goroutine
that gets a type info gets one with which the API functions work as they do with type infos made for this call alone; and the
message type is one that analysis accepts. Missing from the full statement: message types that contain themselves
(`C41_false_concurrent`, `C41_false_after_panic`), and programs that are not `Consistent` (`C40_false_field`). -/
theorem C41_acyclic_partial {D : Decls} {rank : TypeId → Nat} (hA : Acyclic D rank) {s : Sys} (h : Reachable D s)
    (hC : ∀ t ∈ s.threads, Consistent D t.root) {n : Nat} {t : TypeId} {i : Nat} (ht : s.threads[n]? = some ⟨t, .ret i⟩) :
    Works D s.state i t ∧ ∃ info, walkStruct (D t) = .ok info :=
  works_acyclic hA h hC ht

/-- C41. For every program, recursive types included: once all goroutines have got their type infos, the API functions work
with each of them as they do with type infos made for this call alone. Missing from the full statement: as for
`C41_acyclic_partial`, here for states with calls under way or after calls that panicked. -/
theorem C41_settled_partial {D : Decls} {s : Sys} (h : Reachable D s) (hC : ∀ t ∈ s.threads, Consistent D t.root)
    (hq : Settled s) {n : Nat} {t : TypeId} {i : Nat} (ht : s.threads[n]? = some ⟨t, .ret i⟩) :
    Works D s.state i t ∧ ∃ info, walkStruct (D t) = .ok info :=
  works_quiescent h hC hq ht

/-- Message types that contain each other: `A { B *B; X bool }`, `B { A *A }`. -/
def mutualDecls : Decls
  | 0 => [Sample.tagged "bytes,1,opt" (.ptr (.named 1)), Sample.tagged "varint,2,opt" .bool]
  | 1 => [Sample.tagged "bytes,1,opt" (.ptr (.named 0))]
  | _ => []

theorem mutualDecls_uniform (r : TypeId) : Uniform mutualDecls r where
  plain t _ f hf _ := by
    match t with
    | 0 =>
      simp only [mutualDecls, List.mem_cons, List.not_mem_nil, or_false] at hf
      rcases hf with rfl | rfl
      · exact .one _ (.msg 1)
      · exact .one _ .bool
    | 1 =>
      simp only [mutualDecls, List.mem_cons, List.not_mem_nil, or_false] at hf
      subst hf
      exact .one _ (.msg 0)
    | _ + 2 => cases hf
  zigzag t u _ _ f hf g hg _ _ T hT hfT := by
    match t with
    | 0 =>
      simp only [mutualDecls, List.mem_cons, List.not_mem_nil, or_false] at hf
      rcases hf with rfl | rfl <;> cases hfT
    | 1 =>
      simp only [mutualDecls, List.mem_cons, List.not_mem_nil, or_false] at hf
      subst hf
      cases hfT
    | _ + 2 => cases hf

/-- The message `B { A: &A { X: true } }`. -/
def mutualMsg : Val := .struct [.ptr (.struct [.nilp, .b8 true])]

/-- C41 is false for message types that contain each other: while a goroutine is analysing `A` for the first time, another one
calls `Marshal` with a message of type `B`. It uses the type info of `A` before that has got its fields, and the contents of
the nested message are silently lost. -/
theorem C41_false_concurrent : ∃ s i, Reachable mutualDecls s ∧ s.threads[1]? = some ⟨1, .ret i⟩ ∧
    (∀ r, Consistent mutualDecls r) ∧
    marshal (envOf mutualDecls) (.msg 1 mutualMsg) = .ok (.ok [0x0a#8, 0x02#8, 0x10#8, 0x01#8]) ∧
    marshalAt mutualDecls s.state i mutualMsg = .ok (.ok [0x0a#8, 0x00#8]) := by
  have h := reach_call 9 9 1 (reach_call 14 9 0 (Reachable.init (D := mutualDecls)))
  refine ⟨_, 1, h, ?_, fun r => (mutualDecls_uniform r).consistent, output_eq ?_, output_eq ?_⟩
  · exact congrArg (fun p => some (Thread.mk 1 p)) (returns_eq (by decide +kernel))
  · decide +kernel
  · decide +kernel

/-- As `mutualDecls`, with a field of an unsupported type: `A { B *B; X bool; C chan int }`, `B { A *A }`. -/
def badDecls : Decls
  | 0 => [Sample.tagged "bytes,1,opt" (.ptr (.named 1)), Sample.tagged "varint,2,opt" .bool, Sample.tagged "varint,3,opt" .other]
  | 1 => [Sample.tagged "bytes,1,opt" (.ptr (.named 0))]
  | _ => []

/-- The message `B { A: &A { X: true } }`. -/
def badMsg : Val := .struct [.ptr (.struct [.nilp, .b8 true, .opaque 0])]

/-- C41 is false after a panic: `Marshal` with a message of type `B` panics, since `A` has a field of an unsupported type. But
if a call with a message of type `A` has panicked before, it succeeds from then on, and silently loses the contents of the
nested message. -/
theorem C41_false_after_panic :
    (∃ s, Reachable badDecls s ∧ s.threads = [⟨1, .panic⟩]) ∧
    ∃ s i, Reachable badDecls s ∧ s.threads = [⟨0, .panic⟩, ⟨1, .ret i⟩] ∧
      marshalAt badDecls s.state i badMsg = .ok (.ok [0x0a#8, 0x00#8]) := by
  constructor
  · have h := reach_call 99 9 1 (Reachable.init (D := badDecls))
    refine ⟨_, h, ?_⟩
    exact congrArg (fun p => [Thread.mk 1 p]) (panics_eq (by decide +kernel))
  · have h := reach_call 99 9 1 (reach_call 99 9 0 (Reachable.init (D := badDecls)))
    refine ⟨_, 1, h, ?_, output_eq (by decide +kernel)⟩
    have e : ∀ p q : Prog Nat, p = .panic → q = .ret 1 → [Thread.mk 0 p] ++ [Thread.mk 1 q] = [⟨0, .panic⟩, ⟨1, .ret 1⟩] := by
      rintro p q rfl rfl; rfl
    exact e _ _ (panics_eq (by decide +kernel)) (returns_eq (by decide +kernel))

/-! ### C40 -/

/-- C40. If the fields of a message type and of those it contains have types as the generator declares (`Plain`), and do not
mix `int32` with `sint32` (`int64` with `sint64`) in repeated fields, its analysis never asks for codecs of one Go type with
different settings. -/
theorem C40_uniform {D : Decls} {r : TypeId} (hD : Uniform D r) : Consistent D r := hD.consistent

/-- C40. What `Size`, `Marshal` and `Unmarshal` do with messages of a type does not depend on the history of the process: which
types have been used before, by which goroutines, and in which order. Missing from the full statement: programs that are not
`Consistent` (`C40_false_history`), and message types that contain themselves while they are being analysed or after a panic. -/
theorem C40_history_partial {D : Decls} {s s' : Sys} (h : Reachable D s) (h' : Reachable D s')
    (hC : ∀ t ∈ s.threads, Consistent D t.root) (hC' : ∀ t ∈ s'.threads, Consistent D t.root)
    (hA : (∃ rank, Acyclic D rank) ∨ (Settled s ∧ Settled s')) {n n' : Nat} {t : TypeId} {i i' : Nat}
    (ht : s.threads[n]? = some ⟨t, .ret i⟩) (ht' : s'.threads[n']? = some ⟨t, .ret i'⟩) :
    (∀ v, sizeAt D s.state i v = sizeAt D s'.state i' v) ∧ (∀ v, marshalAt D s.state i v = marshalAt D s'.state i' v) ∧
      ∀ b v, unmarshalAt D s.state b i v = unmarshalAt D s'.state b i' v := by
  have hw : Works D s.state i t ∧ Works D s'.state i' t := by
    rcases hA with ⟨rank, hA⟩ | ⟨hS, hS'⟩
    · exact ⟨(works_acyclic hA h hC ht).1, (works_acyclic hA h' hC' ht').1⟩
    · exact ⟨(works_quiescent h hC hS ht).1, (works_quiescent h' hC' hS' ht').1⟩
  exact ⟨fun v => by rw [hw.1.size, hw.2.size], fun v => by rw [hw.1.marshal, hw.2.marshal],
    fun b v => by rw [hw.1.unmarshal, hw.2.unmarshal]⟩

/-- C40. There is one encoding of fields, which looks at the declaration of the field and at its value only, such that every
message, of whatever type, marshals to the encodings of its fields, in the order of their declaration. Missing from the full
statement: as for `C40_history_partial`; see `C40_false_field`. -/
theorem C40_fields_partial (D : Decls) : ∃ enc : FieldDecl → Val → Except Fault Bytes,
    ∀ s, Reachable D s → (∀ t ∈ s.threads, Consistent D t.root) → ((∃ rank, Acyclic D rank) ∨ Settled s) →
    ∀ (n : Nat) t i vs b, s.threads[n]? = some ⟨t, .ret i⟩ → marshalAt D s.state i (.struct vs) = .ok (.ok b) →
      ∃ ps, FieldParts enc vs 0 (D t) ps ∧ b = ps.flatten := by
  refine ⟨encDecl D, fun s h hC hA n t i vs b ht hb => ?_⟩
  have hw : Works D s.state i t ∧ ∃ info, walkStruct (D t) = .ok info := by
    rcases hA with ⟨rank, hA⟩ | hS
    · exact works_acyclic hA h hC ht
    · exact works_quiescent h hC hS ht
  obtain ⟨hw, info, ha⟩ := hw
  rw [hw.marshal] at hb
  exact marshal_parts ha hb

/-- `repeated int32` and `repeated sint32` fields: type 0 has both, types 1 and 2 have one of them. -/
def mixedDecls : Decls
  | 0 => [Sample.tagged "varint,1,rep" (.slice .int32), Sample.tagged "zigzag32,2,rep" (.slice .int32)]
  | 1 => [Sample.tagged "zigzag32,2,rep" (.slice .int32)]
  | _ => []

/-- C40 is false of a field next to another one: the second field of type 0 is declared as the one of type 1, and the first is
nil; but the value `[]int32{-1}` is encoded as in the other field. -/
theorem C40_false_field :
    ∃ s s' i i', Reachable mixedDecls s ∧ Reachable mixedDecls s' ∧ s.threads = [⟨0, .ret i⟩] ∧ s'.threads = [⟨1, .ret i'⟩] ∧
      marshalAt mixedDecls s'.state i' (.struct [.slice false [.w32 (-1#32)] []]) = .ok (.ok [0x10#8, 0x01#8]) ∧
      marshalAt mixedDecls s.state i (.struct [.slice true [] [], .slice false [.w32 (-1#32)] []]) =
        .ok (.ok [0x10#8, 0xff#8, 0xff#8, 0xff#8, 0xff#8, 0xff#8, 0xff#8, 0xff#8, 0xff#8, 0xff#8, 0x01#8]) := by
  have h := reach_call 99 9 0 (Reachable.init (D := mixedDecls))
  have h' := reach_call 99 9 1 (Reachable.init (D := mixedDecls))
  refine ⟨_, _, 0, 0, h, h', ?_, ?_, output_eq (by decide +kernel), output_eq (by decide +kernel)⟩
  · exact congrArg (fun p => [Thread.mk 0 p]) (returns_eq (by decide +kernel))
  · exact congrArg (fun p => [Thread.mk 1 p]) (returns_eq (by decide +kernel))

/-- C40 is false of the history: if a message of type 1 has been marshalled before one of type 0, the field is encoded as
declared; otherwise it is not. -/
theorem C40_false_history : ∃ v s s' i i' j, Reachable mixedDecls s ∧ Reachable mixedDecls s' ∧ s.threads = [⟨0, .ret i⟩] ∧
    s'.threads = [⟨1, .ret j⟩, ⟨0, .ret i'⟩] ∧
    marshalAt mixedDecls s.state i v =
      .ok (.ok [0x10#8, 0xff#8, 0xff#8, 0xff#8, 0xff#8, 0xff#8, 0xff#8, 0xff#8, 0xff#8, 0xff#8, 0x01#8]) ∧
    marshalAt mixedDecls s'.state i' v = .ok (.ok [0x10#8, 0x01#8]) := by
  have h := reach_call 99 9 0 (Reachable.init (D := mixedDecls))
  have h' := reach_call 99 9 0 (reach_call 99 9 1 (Reachable.init (D := mixedDecls)))
  refine ⟨.struct [.slice true [] [], .slice false [.w32 (-1#32)] []], _, _, 0, 1, 0, h, h', ?_, ?_,
    output_eq (by decide +kernel), output_eq (by decide +kernel)⟩
  · exact congrArg (fun p => [Thread.mk 0 p]) (returns_eq (by decide +kernel))
  · have e : ∀ p q : Prog Nat, p = .ret 0 → q = .ret 1 → [Thread.mk 1 p] ++ [Thread.mk 0 q] = [⟨1, .ret 0⟩, ⟨0, .ret 1⟩] := by
      rintro p q rfl rfl; rfl
    exact e _ _ (returns_eq (by decide +kernel)) (returns_eq (by decide +kernel))

/-! ### C53 -/

/-- C53. Analysis ends, also of types that contain each other, if finitely many types are involved: whatever other goroutines
do to the caches, there is a depth of recursion it does not exceed, and it executes finitely many operations. -/
theorem C53_ends {D : Decls} {r : TypeId} {ts : List TypeId} (hfin : ∀ u, Needs D r u → u ∈ ts) :
    (∃ d₀, ∀ d, d₀ ≤ d → ∀ q, Later (cachedStructInfoOf D d r) q → q ≠ .stuck) ∧
    ∀ f : Nat → Prog Nat, ¬ ∀ n, ∃ o k r, f n = .op o k ∧ f (n + 1) = k r := by
  constructor
  · obtain ⟨d₀, h⟩ := analysis_ends (pan := True) hfin (fun h => absurd trivial h)
    refine ⟨d₀, fun d hd q hq => ?_⟩
    have := (h d hd).later hq
    rintro rfl
    exact this
  · intro f h
    have : ∀ (p : Prog Nat) n, f n ≠ p := by
      intro p
      induction p with
      | op o k ih =>
        intro n hn
        obtain ⟨o', k', r, h1, h2⟩ := h n
        rw [hn] at h1
        cases h1
        exact ih r (n + 1) h2
      | _ =>
        intro n hn
        obtain ⟨o', k', r, h1, h2⟩ := h n
        rw [hn] at h1
        cases h1
    exact this _ 0 rfl

/-- C53. Analysis does not panic if all exported, tagged fields of all types involved have well-formed tags and supported types;
whatever other goroutines do to the caches. -/
theorem C53_no_panic {D : Decls} {r : TypeId} {ts : List TypeId} (hfin : ∀ u, Needs D r u → u ∈ ts)
    (hacc : ∀ u, Needs D r u → ∀ f ∈ D u, f.Active → DeclAccepted f) :
    ∃ d₀, ∀ d, d₀ ≤ d → ∀ q, Later (cachedStructInfoOf D d r) q → q ≠ .panic ∧ q ≠ .stuck := by
  obtain ⟨d₀, h⟩ := analysis_ends (pan := False) hfin fun _ u hu => acc_iff.mpr ((C53_accepts_iff (D u)).1.mpr (hacc u hu))
  refine ⟨d₀, fun d hd q hq => ?_⟩
  have := (h d hd).later hq
  constructor <;> (rintro rfl; exact this)

/-- C53. Conversely, if a goroutine gets a type info, all exported, tagged fields of all types involved have well-formed tags
and supported types. Missing from the full statement: as for C41 (`C41_false_after_panic`), and programs that are not
`Consistent` (`C53_false_nested_slices`). -/
theorem C53_accepted_partial {D : Decls} {s : Sys} (h : Reachable D s) (hC : ∀ t ∈ s.threads, Consistent D t.root)
    (hA : (∃ rank, Acyclic D rank) ∨ Settled s) {n : Nat} {t : TypeId} {i : Nat} (ht : s.threads[n]? = some ⟨t, .ret i⟩) {u : TypeId}
    (hn : Needs D t u) : ∀ f ∈ D u, f.Active → DeclAccepted f :=
  (C53_accepts_iff (D u)).1.mp (needs_accepted h hC hA ht hn)

/-- `{ A []int32; B [][]int32 }` and `{ A []int32 }`. -/
def nestedDecls : Decls
  | 0 => [Sample.tagged "varint,1,rep" (.slice .int32), Sample.tagged "varint,2,rep" (.slice (.slice .int32))]
  | 1 => [Sample.tagged "varint,1,rep" (.slice .int32)]
  | _ => []

/-- C53 is false for slices of slices: they are not supported, but if the struct has a field of the inner type before, analysis
finds a codec for it. It does panic if a slice of that type occurred in a type used earlier. -/
theorem C53_false_nested_slices : (∃ f ∈ nestedDecls 0, f.Active ∧ ¬ DeclAccepted f) ∧
    (∃ s i, Reachable nestedDecls s ∧ s.threads = [⟨0, .ret i⟩]) ∧
    ∃ s i, Reachable nestedDecls s ∧ s.threads = [⟨1, .ret i⟩, ⟨0, .panic⟩] := by
  refine ⟨(C53_accepts_iff (nestedDecls 0)).2.mp (by rfl), ?_, ?_⟩
  · have h := reach_call 99 9 0 (Reachable.init (D := nestedDecls))
    exact ⟨_, 0, h, congrArg (fun p => [Thread.mk 0 p]) (returns_eq (by decide +kernel))⟩
  · have h := reach_call 99 9 0 (reach_call 99 9 1 (Reachable.init (D := nestedDecls)))
    refine ⟨_, 0, h, ?_⟩
    have e : ∀ p q : Prog Nat, p = .ret 0 → q = .panic → [Thread.mk 1 p] ++ [Thread.mk 0 q] = [⟨1, .ret 0⟩, ⟨0, .panic⟩] := by
      rintro p q rfl rfl; rfl
    exact e _ _ (returns_eq (by decide +kernel)) (panics_eq (by decide +kernel))

/-! ### programs and states that meet the hypotheses -/

/-- A program without recursive types, with slices, maps, nested messages and zigzag encoding. -/
def treeDecls : Decls
  | 0 => [Sample.tagged "bytes,1,opt" (.ptr (.named 1)), Sample.tagged "bytes,2,rep" (.slice (.ptr (.named 2))),
          Sample.tagged3 "bytes,3,rep" "bytes,1,opt" "bytes,2,opt" .string (.ptr (.named 2)), Sample.tagged "zigzag32,4,rep" (.slice .int32)]
  | 1 => [Sample.tagged "zigzag32,1,rep" (.slice .int32), Sample.tagged "bytes,2,opt" (.ptr (.named 2))]
  | 2 => [Sample.tagged "varint,1,opt" .bool, { tag := some "zigzag64,2,opt".toList, ty := .opt .int64 }]
  | _ => []

theorem treeDecls_uniform (r : TypeId) : Uniform treeDecls r where
  plain t _ f hf _ := by
    match t with
    | 0 =>
      simp only [treeDecls, List.mem_cons, List.not_mem_nil, or_false] at hf
      rcases hf with rfl | rfl | rfl | rfl
      · exact .one _ (.msg 1)
      · exact .many _ (.msg 2)
      · exact .map _ _ .string (.msg 2)
      · exact .many _ .int32
    | 1 =>
      simp only [treeDecls, List.mem_cons, List.not_mem_nil, or_false] at hf
      rcases hf with rfl | rfl
      · exact .many _ .int32
      · exact .one _ (.msg 2)
    | 2 =>
      simp only [treeDecls, List.mem_cons, List.not_mem_nil, or_false] at hf
      rcases hf with rfl | rfl
      · exact .one _ .bool
      · exact .opt _
    | _ + 3 => cases hf
  zigzag t u _ _ f hf g hg _ _ T hT hfT hgT x y hx hy := by
    have zig : ∀ t, ∀ f ∈ treeDecls t, (T = .int32 ∨ T = .int64) → f.ty = .ty (.slice T) → ∀ x, f.tag = some x →
        (parseStructTag x).1.zigzag = true := by
      intro t f hf hT hfT x hx
      match t with
      | 0 =>
        simp only [treeDecls, List.mem_cons, List.not_mem_nil, or_false] at hf
        rcases hf with rfl | rfl | rfl | rfl
        · cases hfT
        · rcases hT with rfl | rfl <;> cases hfT
        · cases hfT
        · cases hx; decide +kernel
      | 1 =>
        simp only [treeDecls, List.mem_cons, List.not_mem_nil, or_false] at hf
        rcases hf with rfl | rfl
        · cases hx; decide +kernel
        · cases hfT
      | 2 =>
        simp only [treeDecls, List.mem_cons, List.not_mem_nil, or_false] at hf
        rcases hf with rfl | rfl <;> cases hfT
      | _ + 3 => cases hf
    rw [zig t f hf hT hfT x hx, zig u g hg hT hgT y hy]

theorem treeDecls_acyclic : Acyclic treeDecls (fun t => 2 - t) := by
  intro t f hf _ _ T u hT hm
  match t with
  | 0 =>
    simp only [treeDecls, List.mem_cons, List.not_mem_nil, or_false] at hf
    rcases hf with rfl | rfl | rfl | rfl
    · cases hT; cases hm with | ptr _ _ h => cases h; decide
    · cases hT; cases hm with | slice _ _ h => cases h with | ptr _ _ h => cases h; decide
    · cases hT
      cases hm with
      | key _ _ _ h => cases h
      | val _ _ _ h => cases h with | ptr _ _ h => cases h; decide
    · cases hT; cases hm with | slice _ _ h => cases h
  | 1 =>
    simp only [treeDecls, List.mem_cons, List.not_mem_nil, or_false] at hf
    rcases hf with rfl | rfl
    · cases hT; cases hm with | slice _ _ h => cases h
    · cases hT; cases hm with | ptr _ _ h => cases h; decide
  | 2 =>
    simp only [treeDecls, List.mem_cons, List.not_mem_nil, or_false] at hf
    rcases hf with rfl | rfl
    · cases hT; cases hm
    · cases hT
  | _ + 3 => cases hf

/-- One goroutine has been interrupted in the middle of its analysis of type 0, after it has analysed type 1; another one has
got the type info of type 1 meanwhile. -/
example : ∃ s p i, Reachable treeDecls s ∧ (∀ t ∈ s.threads, Consistent treeDecls t.root) ∧
    s.threads = [⟨0, p⟩, ⟨1, .ret i⟩] ∧ returns p = none ∧ panics p = false := by
  have h := reach_call 99 9 1 (reach_call 30 9 0 (Reachable.init (D := treeDecls)))
  refine ⟨_, (runN 30 (cachedStructInfoOf treeDecls 9 0) State.init).1, 1, h, fun _ _ => (treeDecls_uniform _).consistent, ?_, ?_, ?_⟩
  · have e : ∀ p q : Prog Nat, q = .ret 1 → [Thread.mk 0 p] ++ [Thread.mk 1 q] = [⟨0, p⟩, ⟨1, .ret 1⟩] := by
      rintro p q rfl; rfl
    exact e _ _ (returns_eq (by decide +kernel))
  · decide +kernel
  · decide +kernel

/-- Two goroutines have analysed the recursive types of `mutualDecls` at the same time, and have settled. -/
example : ∃ s i j, Reachable mutualDecls s ∧ Settled s ∧ s.threads = [⟨0, .ret i⟩, ⟨1, .ret j⟩] ∧
    marshalAt mutualDecls s.state j mutualMsg = .ok (.ok [0x0a#8, 0x02#8, 0x10#8, 0x01#8]) := by
  have h := reach_run 99 (j := 0) (reach_call 99 9 1 (reach_call 14 9 0 (Reachable.init (D := mutualDecls)))) rfl
  have e : ∀ p q : Prog Nat, p = .ret 0 → q = .ret 1 → ([Thread.mk 0 p] ++ [Thread.mk 1 q]) = [⟨0, .ret 0⟩, ⟨1, .ret 1⟩] := by
    rintro p q rfl rfl; rfl
  have e := e _ _ (returns_eq (p := (runN 99 (runN 14 (cachedStructInfoOf mutualDecls 9 0) State.init).1
    (runN 99 (cachedStructInfoOf mutualDecls 9 1) (runN 14 (cachedStructInfoOf mutualDecls 9 0) State.init).2).2).1) (by decide +kernel))
    (returns_eq (p := (runN 99 (cachedStructInfoOf mutualDecls 9 1) (runN 14 (cachedStructInfoOf mutualDecls 9 0) State.init).2).1) (by decide +kernel))
  refine ⟨_, 0, 1, h, ?_, e, output_eq (by decide +kernel)⟩
  intro t ht
  replace ht := (congrArg (t ∈ ·) e).mp ht
  simp only [List.mem_cons, List.not_mem_nil, or_false] at ht
  rcases ht with rfl | rfl
  · exact ⟨0, rfl⟩
  · exact ⟨1, rfl⟩

/-- The types of `mutualDecls` that contain each other. -/
example : ∀ u, Needs mutualDecls 0 u → u ∈ [0, 1] := by
  intro u h
  induction h with
  | root => decide
  | field t f T u _ hf _ hT hm ih =>
    simp only [List.mem_cons, List.not_mem_nil, or_false] at ih
    rcases ih with rfl | rfl
    · simp only [mutualDecls, List.mem_cons, List.not_mem_nil, or_false] at hf
      rcases hf with rfl | rfl
      · cases hT; cases hm with | ptr _ _ h => cases h; decide
      · cases hT; cases hm
    · simp only [mutualDecls, List.mem_cons, List.not_mem_nil, or_false] at hf
      subst hf
      cases hT; cases hm with | ptr _ _ h => cases h; decide

end Pb.Props
