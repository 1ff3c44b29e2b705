import Verif.Proofs.SourceWalkInfo
import Verif.Props.Cache
import Verif.Model.Source
/-
C79: type analysis from its source text. `cachedStructInfoOf` with all it calls, read from the text of walker.go, slice.go, map.go,
struct.go and proto.go and run statement by statement, does what the model of C40, C41 and C53 does.
-/
namespace Pb.Props
open Pb Spec Cache Go Go.An

set_option maxRecDepth 100000

/-- C79. The texts can be read, and these are the trees. -/
theorem C79_trees : readFuncs walkTexts = some analysis := by decide +kernel

theorem walkProgram_eq : walkProgram = analysis := by rw [walkProgram, C79_trees]; rfl


/-- C79. The function literals in these texts are the texts that C76 runs. -/
theorem C79_literals :
    literalsOf WalkText.structCodecGo = some [literalIn messageSizeGo, literalIn messageEncodeGo, literalIn messageDecodeGo] ∧
    literalsOf WalkText.pointerSizeFuncOfGo = some [literalIn pointerSizeGo] ∧
    literalsOf WalkText.pointerEncodeFuncOfGo = some [literalIn pointerEncodeGo] ∧
    literalsOf WalkText.pointerDecodeFuncOfGo = some [literalIn pointerDecodeGo] ∧
    literalsOf WalkText.sliceSizeFuncOfGo = some [literalIn sliceSizeGo] ∧
    literalsOf WalkText.sliceEncodeFuncOfGo = some [literalIn sliceEncodeGo] ∧
    literalsOf WalkText.sliceDecodeFuncOfGo = some [literalIn sliceDecodeGo] ∧
    literalsOf WalkText.mapSizeFuncOfGo = some [literalIn mapSizeGo] ∧
    literalsOf WalkText.mapEncodeFuncOfGo = some [literalIn mapEncodeGo] ∧
    literalsOf WalkText.mapDecodeFuncOfGo = some [literalIn mapDecodeGo] := by
  refine ⟨?_, ?_, ?_, ?_, ?_, ?_, ?_, ?_, ?_, ?_⟩ <;> decide +kernel

/-- C79. `cachedStructInfoOf`, run from its text, does what the model does: the same allocations and accesses to the caches, in the same
order, with the same outcome, whatever other goroutines do to the caches meanwhile; but for one codec that is allocated before a panic. The
bounds on loops and nested calls depend on the declarations only. -/
theorem C79_analysis {D : Decls} {m : Nat} (hm : 2 ≤ m) (hD : ∀ t, DeclFits D m (.named t)) {n : Nat} (hn : 3 * m + 5 ≤ n) (d : Nat) (t : TypeId) :
    Like True (analyse walkProgram D n d t) (cachedStructInfoOf D d t) := by
  rw [walkProgram_eq, analyse, cached_runs m hm hD hn]
  exact cached_like (fun _ => .inl trivial) d t Walk.init

/-- C79. If messages are in fields by pointers only, and `Option` types have codecs, nothing is different. -/
theorem C79_analysis_eq {D : Decls} {m : Nat} (hm : 2 ≤ m) (hD : ∀ t, DeclFits D m (.named t)) {n : Nat} (hn : 3 * m + 5 ≤ n)
    (hS : ∀ t, ∀ f ∈ D t, Sound f) (d : Nat) (t : TypeId) :
    analyse walkProgram D n d t = cachedStructInfoOf D d t := by
  rw [walkProgram_eq, analyse, cached_runs m hm hD hn]
  exact (cached_like (P := False) (fun t => .inr (hS t)) d t Walk.init).eq

/-- C79. So processes whose goroutines run the text get into the states of the model. -/
theorem C79_process {D : Decls} {m : Nat} (hm : 2 ≤ m) (hD : ∀ t, DeclFits D m (.named t)) {n : Nat} (hn : 3 * m + 5 ≤ n)
    (hS : ∀ t, ∀ f ∈ D t, Sound f) (s : Sys) : TextReachable walkProgram D n s ↔ Reachable D s := by
  have e := C79_analysis_eq hm hD hn hS
  constructor
  · intro h
    induction h with
    | init => exact .init
    | step s s' _ h ih =>
      refine .step s s' ih ?_
      cases h with
      | call d t => rw [e]; exact .call s d t
      | run i t o k h => exact .run s i t o k h
  · intro h
    induction h with
    | init => exact .init
    | step s s' _ h ih =>
      refine .step s s' ih ?_
      cases h with
      | call d t => rw [← e]; exact .call s d t
      | run i t o k h => exact .run s i t o k h

/-- C79. C41 for the text: if no message type contains itself, in every interleaving of goroutines that run the text a goroutine that gets a
type info gets one with which the API functions work as with type infos made for this call alone. -/
theorem C79_acyclic_partial {D : Decls} {m : Nat} (hm : 2 ≤ m) (hD : ∀ t, DeclFits D m (.named t)) {n : Nat} (hn : 3 * m + 5 ≤ n)
    (hS : ∀ t, ∀ f ∈ D t, Sound f) {rank : TypeId → Nat} (hA : Acyclic D rank) {s : Sys} (h : TextReachable walkProgram D n s)
    (hC : ∀ t ∈ s.threads, Consistent D t.root) {j : Nat} {t : TypeId} {i : Nat} (ht : s.threads[j]? = some ⟨t, .ret i⟩) :
    Works D s.state i t :=
  (C41_acyclic_partial hA ((C79_process hm hD hn hS s).mp h) hC ht).1

/-- C79. The same for every program, recursive types included, once all goroutines have got their type infos. -/
theorem C79_settled_partial {D : Decls} {m : Nat} (hm : 2 ≤ m) (hD : ∀ t, DeclFits D m (.named t)) {n : Nat} (hn : 3 * m + 5 ≤ n)
    (hS : ∀ t, ∀ f ∈ D t, Sound f) {s : Sys} (h : TextReachable walkProgram D n s) (hC : ∀ t ∈ s.threads, Consistent D t.root)
    (hq : Settled s) {j : Nat} {t : TypeId} {i : Nat} (ht : s.threads[j]? = some ⟨t, .ret i⟩) :
    Works D s.state i t :=
  (C41_settled_partial ((C79_process hm hD hn hS s).mp h) hC hq ht).1

theorem later_like {b : Prop} {α : Type} {p q : Prog α} (h : Later p q) : ∀ {p' : Prog α}, Like b p p' →
    q = .panic ∨ ∃ q', Later p' q' ∧ Like b q q' := by
  induction h with
  | refl p => exact fun h => .inr ⟨_, .refl _, h⟩
  | op o k r q hl ih =>
    intro p' h
    cases h with
    | op _ _ k' h =>
      rcases ih (h r) with h | ⟨q', h, h'⟩
      · exact .inl h
      · exact .inr ⟨q', .op o k' r q' h, h'⟩
    | alloc _ =>
      cases hl
      exact .inl rfl

/-- C79. Analysis run from its text ends, also for types that contain each other, and never does what the interpreter has no meaning for. -/
theorem C79_ends {D : Decls} {m : Nat} (hm : 2 ≤ m) (hD : ∀ t, DeclFits D m (.named t)) {n : Nat} (hn : 3 * m + 5 ≤ n) {r : TypeId}
    {ts : List TypeId} (hfin : ∀ u, Needs D r u → u ∈ ts) :
    ∃ d₀, ∀ d, d₀ ≤ d → ∀ q, Later (analyse walkProgram D n d r) q → q ≠ .stuck := by
  obtain ⟨d₀, h⟩ := (C53_ends hfin).1
  refine ⟨d₀, fun d hd q hq e => ?_⟩
  subst e
  rcases later_like hq (C79_analysis hm hD hn d r) with h' | ⟨q', h1, h2⟩
  · cases h'
  · cases h2
    exact h d hd _ h1 rfl

/-- C79. It does not panic if all exported, tagged fields of all types involved have well-formed tags and supported types. -/
theorem C79_no_panic {D : Decls} {m : Nat} (hm : 2 ≤ m) (hD : ∀ t, DeclFits D m (.named t)) {n : Nat} (hn : 3 * m + 5 ≤ n) {r : TypeId}
    (hS : ∀ t, ∀ f ∈ D t, Sound f) {ts : List TypeId} (hfin : ∀ u, Needs D r u → u ∈ ts)
    (hacc : ∀ u, Needs D r u → ∀ f ∈ D u, f.Active → DeclAccepted f) :
    ∃ d₀, ∀ d, d₀ ≤ d → ∀ q, Later (analyse walkProgram D n d r) q → q ≠ .panic ∧ q ≠ .stuck := by
  obtain ⟨d₀, h⟩ := C53_no_panic hfin hacc
  refine ⟨d₀, fun d hd q hq => ?_⟩
  rw [C79_analysis_eq hm hD hn hS] at hq
  exact h d hd q hq

/-- C79. `parseStructTag`, run from its text, gives what the model (C45) says, and an error where the model does. -/
theorem C79_struct_tag (D : Decls) (n d : Nat) (s : Text) (w : Walk) :
    An.run walkProgram D (n + 2) d t!"parseStructTag" [.str s] w =
      .ret ([.stag (parseStructTag s).1, if (parseStructTag s).2 then .err else .nil], w) := by
  rw [walkProgram_eq]
  exact calls_parse n s w

/-! ### examples -/

theorem mutual_fits (t : TypeId) : DeclFits mutualDecls 2 (.named t) := by
  match t with
  | 0 => exact ⟨by decide, by decide⟩
  | 1 => exact ⟨by decide, by decide⟩
  | t + 2 => exact ⟨by simp [InfoKey.decl, mutualDecls], by simp [InfoKey.decl, mutualDecls]⟩

theorem mutual_sound (t : TypeId) : ∀ f ∈ mutualDecls t, Sound f := by
  match t with
  | 0 => simp [mutualDecls, Sample.tagged, Sound, ByRef]
  | 1 => simp [mutualDecls, Sample.tagged, Sound, ByRef]
  | t + 2 => simp [mutualDecls]

/-- C79. The text has the fault of C41: while a goroutine analyses a message type that contains itself, `Marshal` of another one loses data. -/
theorem C79_false_concurrent : ∃ s i, TextReachable walkProgram mutualDecls 11 s ∧ s.threads[1]? = some ⟨1, .ret i⟩ ∧
    marshal (envOf mutualDecls) (.msg 1 mutualMsg) = .ok (.ok [0x0a#8, 0x02#8, 0x10#8, 0x01#8]) ∧
    marshalAt mutualDecls s.state i mutualMsg = .ok (.ok [0x0a#8, 0x00#8]) := by
  obtain ⟨s, i, h, h1, _, h2, h3⟩ := C41_false_concurrent
  exact ⟨s, i, (C79_process (by decide) mutual_fits (by decide) mutual_sound s).mpr h, h1, h2, h3⟩

/-- A message by value: `{ A M }`. -/
def valueDecls : Decls
  | 0 => [Sample.tagged "bytes,1,opt" (.named 1)]
  | _ => []

/-- The difference between text and model: the text allocates one more codec before it panics. -/
example : analyse walkProgram valueDecls 11 9 0 ≠ cachedStructInfoOf valueDecls 9 0 := by
  have h : (runN 9 (analyse walkProgram valueDecls 11 9 0) State.init).2.codecs.length ≠
      (runN 9 (cachedStructInfoOf valueDecls 9 0) State.init).2.codecs.length := by
    rw [walkProgram_eq]
    decide +kernel
  exact fun e => h (by rw [e])

/-- A struct with a scalar, a repeated message, an unexported field, a map, an `Option` and a pointer. -/
def wideDecls : Decls
  | 0 => [Sample.tagged "varint,1,opt" .int32, Sample.tagged "bytes,2,rep" (.slice (.ptr (.named 1))),
      { exported := false, tag := none, ty := .ty .int32 }, Sample.tagged3 "bytes,4,rep" "varint,1,opt" "bytes,2,opt" .int32 (.ptr (.named 0)),
      { tag := some t!"fixed32,5,opt", ty := .opt .float32 }, Sample.tagged "zigzag32,6,opt" (.ptr .int32)]
  | _ => [Sample.tagged "bytes,1,opt" (.ptr (.named 0)), Sample.tagged "bytes,2,opt" .string]

theorem wide_fits (t : TypeId) : DeclFits wideDecls 6 (.named t) := by
  match t with
  | 0 => exact ⟨by decide, by decide⟩
  | t + 1 => exact ⟨by show 2 ≤ 6; decide, by intro f hf; simp only [InfoKey.decl, wideDecls, List.mem_cons, List.not_mem_nil, or_false] at hf; rcases hf with rfl | rfl <;> decide⟩

/-- The type info the text makes for it has the fields with these wire tags, and the text does as the model. -/
example : (runN 99 (analyse walkProgram wideDecls 23 9 0) State.init).2.infos.map (fun i => (i.fields.getD []).map fun f => f.tag.wiretag) =
    [[8#64, 18#64, 34#64, 45#64, 48#64], [10#64, 18#64], [8#64, 18#64]] ∧
    returns (runN 99 (analyse walkProgram wideDecls 23 9 0) State.init).1 = some 0 ∧
    Like True (analyse walkProgram wideDecls 23 9 0) (cachedStructInfoOf wideDecls 9 0) := by
  refine ⟨?_, ?_, C79_analysis (by decide) wide_fits (by decide) 9 0⟩ <;> (rw [walkProgram_eq]; decide +kernel)

end Pb.Props
