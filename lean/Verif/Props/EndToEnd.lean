import Verif.Proofs.EndToEnd
import Verif.Props.Cache
import Verif.Props.Generator
/-
C56: from .proto files to bytes and back, through the code generator, type analysis with its shared caches, Marshal and
Unmarshal. The theorems of C11, C38, C41 put together; hypotheses are about the .proto files.
-/
namespace Pb.Props
open Spec Cache

section
variable {P : Protos} {tracked : TypeId → Bool} {name : TypeId → Nat → Text}

/-- The caches do no harm to generated messages. -/
theorem works_gen (h : ProtosOK P) (hn : ∀ t i, PlainText (name t i)) {s : Sys} (hs : Reachable (genProgram tracked name P) s)
    (hx : ∀ t ∈ s.threads, NoMixing P t.root) (hA : (∃ rank, ProtoAcyclic P rank) ∨ Settled s) {n : Nat} {t : TypeId} {i : Nat}
    (ht : s.threads[n]? = some ⟨t, .ret i⟩) : Works (genProgram tracked name P) s.state i t := by
  have hC : ∀ t ∈ s.threads, Consistent (genProgram tracked name P) t.root := fun t ht => C40_uniform (uniform_gen h hn (hx t ht))
  rcases hA with ⟨rank, hA⟩ | hS
  · exact (C41_acyclic_partial (acyclic_gen h hn hA) hs hC ht).1
  · exact (C41_settled_partial hs hC hS ht).1

/-- C56. In a process with any number of goroutines, whatever messages it has used before and is using: what Marshal returns for
a generated message is the wire format the .proto file describes. Missing from the full statement: protobuf types the library
does not handle (`ProtosOK`, see C38), maps with different types of keys and values (`ProtoMapsAlike`), members of oneofs, messages
that mix `int32` and `sint32` in repeated fields (`C56_false_mixing`), and recursive messages while some goroutine has not got its
type info (`C41_false_concurrent`). -/
theorem C56_wire_format_partial (h : ProtosOK P) (hm : ProtoMapsAlike P) (hn : ∀ t i, PlainText (name t i)) {s : Sys}
    (hs : Reachable (genProgram tracked name P) s) (hx : ∀ t ∈ s.threads, NoMixing P t.root)
    (hA : (∃ rank, ProtoAcyclic P rank) ∨ Settled s) {n : Nat} {t : TypeId} {i : Nat} (ht : s.threads[n]? = some ⟨t, .ret i⟩)
    {vs : List Val} (hv : FitsMsg (layoutOf (genProgram tracked name P)) t (.struct vs))
    (hl : ∀ n, sizeAt (genProgram tracked name P) s.state i (.struct vs) = .ok n → n < 2 ^ 64) :
    ∃ b, marshalAt (genProgram tracked name P) s.state i (.struct vs) = .ok (.ok b) ∧ ProtoMsg P [] (P t) vs b := by
  have hw := works_gen h hn hs hx hA ht
  obtain ⟨b, h1, h2⟩ := C38_wire_format_partial h hm tracked name hn t vs hv (by rw [hw.size] at hl; exact hl)
  exact ⟨b, by rw [hw.marshal]; exact h1, h2⟩

/-- C56. What one process has written, another one reads back (or the same one, later): each may
have used other messages before, in any order. Missing: as above, and messages that are not canonical, see C01. -/
theorem C56_round_trip_partial (h : ProtosOK P) (hm : ProtoMapsAlike P) (hn : ∀ t i, PlainText (name t i)) {s s' : Sys}
    (hs : Reachable (genProgram tracked name P) s) (hx : ∀ t ∈ s.threads, NoMixing P t.root)
    (hs' : Reachable (genProgram tracked name P) s') (hx' : ∀ t ∈ s'.threads, NoMixing P t.root)
    (hA : (∃ rank, ProtoAcyclic P rank) ∨ (Settled s ∧ Settled s')) {n n' : Nat} {t : TypeId} {i i' : Nat}
    (ht : s.threads[n]? = some ⟨t, .ret i⟩) (ht' : s'.threads[n']? = some ⟨t, .ret i'⟩)
    {vs : List Val} (hv : FitsMsg (layoutOf (genProgram tracked name P)) t (.struct vs))
    (hc : Canon (envOf (genProgram tracked name P)) (.msg t) (.ptr (.struct vs)))
    (hl : ∀ n, sizeAt (genProgram tracked name P) s.state i (.struct vs) = .ok n → n < 2 ^ 64) :
    ∃ b w, marshalAt (genProgram tracked name P) s.state i (.struct vs) = .ok (.ok b) ∧
      unmarshalAt (genProgram tracked name P) s'.state b i' (zeroStruct (genProgram tracked name P t)) = .ok (w, none) ∧
      w.obs = (Val.struct vs).obs := by
  have hw := works_gen h hn hs hx (hA.imp id And.left) ht
  have hw' := works_gen h hn hs' hx' (hA.imp id And.right) ht'
  obtain ⟨b, w, h1, h2, h3⟩ := C38_round_trip_partial h hm tracked name hn t vs hv hc (by rw [hw.size] at hl; exact hl)
  exact ⟨b, w, by rw [hw.marshal]; exact h1, by rw [hw'.unmarshal, h2]; rfl, h3⟩

end

/-- `message Mixed { repeated int32 a = 1; repeated sint32 b = 2; }` -/
def mixedProto : ProtoMessage := [⟨1, .int32, .repeated⟩, ⟨2, .sint32, .repeated⟩]

theorem mixedProto_ok : ProtosOK (oneMessage mixedProto) where
  numbers t := by
    match t with
    | 0 => exact ⟨by decide, by simp [oneMessage, mixedProto]⟩
    | _ + 1 => exact ⟨by simp [oneMessage], by simp [oneMessage]⟩
  handled t f hf ho := by
    match t with
    | 0 =>
      simp only [oneMessage, mixedProto, List.mem_cons, List.not_mem_nil, or_false] at hf
      rcases hf with rfl | rfl
      · exact .repeated _ _ (.mk _ (.scalar _ _ .int32) (by simp) (by simp))
      · exact .repeated _ _ (.mk _ (.scalar _ _ .sint32) (by simp) (by simp))
    | _ + 1 => simp [oneMessage] at hf

/-- C56 is false for messages that mix `int32` and `sint32` in repeated fields: the sint32 field with the value -1 is written as
an int32 field, and other implementations of protobuf will read another value. -/
theorem C56_false_mixing : ProtosOK (oneMessage mixedProto) ∧ ProtoAcyclic (oneMessage mixedProto) (fun _ => 0) ∧
    ∃ s i vs b, Reachable (generated mixedProto) s ∧ s.threads = [⟨0, .ret i⟩] ∧
      FitsMsg (layoutOf (generated mixedProto)) 0 (.struct vs) ∧
      marshalAt (generated mixedProto) s.state i (.struct vs) = .ok (.ok b) ∧ ¬ ProtoMsg (oneMessage mixedProto) [] mixedProto vs b := by
  refine ⟨mixedProto_ok, ?_, ?_⟩
  · intro t f hf ho u hu
    match t with
    | 0 =>
      simp only [oneMessage, mixedProto, List.mem_cons, List.not_mem_nil, or_false] at hf
      rcases hf with rfl | rfl <;> cases hu
    | _ + 1 => simp [oneMessage] at hf
  · have h := reach_call 99 9 0 (Reachable.init (D := generated mixedProto))
    refine ⟨_, 0, [.slice true [] [], .slice false [.w32 (-1#32)] []], _, h, ?_, ?_, output_eq (b := [0x10#8, 0xff#8, 0xff#8, 0xff#8, 0xff#8, 0xff#8, 0xff#8, 0xff#8, 0xff#8, 0xff#8, 0x01#8]) (by decide +kernel), ?_⟩
    · exact congrArg (fun p => [Thread.mk 0 p]) (returns_eq (by decide +kernel))
    · refine .msg _ _ rfl fun i s v hs hv => ?_
      match i with
      | 0 => cases hs; cases hv; constructor <;> simp
      | 1 => cases hs; cases hv; exact .slice _ _ _ _ (by simp) (by simpa using .w32 _) (by simp)
      | _ + 2 => cases hs
    · intro hm
      generalize hb : [0x10#8, 0xff#8, 0xff#8, 0xff#8, 0xff#8, 0xff#8, 0xff#8, 0xff#8, 0xff#8, 0xff#8, 0x01#8] = b at hm
      cases hm with
      | oneof _ _ _ _ _ _ _ h => cases h
      | oneofSeen _ _ _ _ _ _ h => cases h
      | field _ _ _ _ _ ds b ho hf hm =>
        cases hf with
        | repeated _ _ _ _ _ hl =>
          cases hl
          cases hm with
          | oneof _ _ _ _ _ _ _ h => cases h
          | oneofSeen _ _ _ _ _ _ h => cases h
          | field _ _ _ _ _ ds b ho hf hm =>
            cases hf with
            | repeated _ _ _ _ _ hl =>
              cases hl with
              | cons _ _ _ ds ds' hv hl =>
                cases hl
                cases hm
                cases hv with
                | scalar _ _ s _ hk =>
                  cases hk
                  exact absurd (congrArg List.length hb) (by decide +kernel)

/-! ### a process that meets the hypotheses -/

theorem sampleProto_noMixing (r : TypeId) : NoMixing (oneMessage sampleProto) r := by
  intro t u _ _ f hf g hg hl hl' hs
  match t with
  | 0 =>
    simp only [oneMessage, sampleProto, List.mem_cons, List.not_mem_nil, or_false] at hf
    rcases hf with rfl | rfl | rfl | rfl | rfl | rfl | rfl <;> cases hl
    cases hs with
    | w32 h => simp at h
    | w64 h => simp at h
  | _ + 1 => simp [oneMessage] at hf

/-- `{ f1: Some(-3), f2: [&{ f3: {7: 8} }], f3: {5: 6}, f5: 9, f536870911: "a" }` -/
def sampleValue : List Val :=
  [.opt true (.w64 (-3#64)), .slice false [.ptr (.struct [.opt false (.w64 0#64), .slice true [] [],
      .map false [(.w32 7#32, .w32 8#32)], .opaque 0, .w64 0#64, .bytes none])] [],
    .map false [(.w32 5#32, .w32 6#32)], .opaque 0, .w64 9#64, .bytes (some [97#8])]

theorem sampleProto_layout : layoutOf (generated sampleProto) 0 =
    [.opt .w64, .slice (.msg 0), .map .w32 .w32, .opaque, .w64, .bytes] := rfl

theorem sampleValue_fits : FitsMsg (layoutOf (generated sampleProto)) 0 (.struct sampleValue) := by
  refine .msg _ _ (by rw [sampleProto_layout]; rfl) fun i s v hs hv => ?_
  rw [sampleProto_layout] at hs
  match i with
  | 0 => cases hs; cases hv; exact .some _ _ (.w64 _)
  | 1 =>
    cases hs; cases hv
    refine .slice _ _ _ _ (by simp) ?_ (by simp)
    intro e he
    simp only [List.mem_cons, List.not_mem_nil, or_false] at he
    subst he
    refine .msg _ _ (by rw [sampleProto_layout]; rfl) fun i s v hs hv => ?_
    rw [sampleProto_layout] at hs
    match i with
    | 0 => cases hs; cases hv; exact .none .w64
    | 1 => cases hs; cases hv; constructor <;> simp
    | 2 => cases hs; cases hv; exact .map _ _ _ _ (by simp) (by simp) (by simpa using .w32 _) (by simpa using .w32 _)
    | 3 => cases hs; cases hv; constructor
    | 4 => cases hs; cases hv; constructor
    | 5 => cases hs; cases hv; constructor
    | _ + 6 => cases hs
  | 2 => cases hs; cases hv; exact .map _ _ _ _ (by simp) (by simp) (by simpa using .w32 _) (by simpa using .w32 _)
  | 3 => cases hs; cases hv; constructor
  | 4 => cases hs; cases hv; constructor
  | 5 => cases hs; cases hv; constructor
  | _ + 6 => cases hs

theorem sampleProto_env : envOf (generated sampleProto) 0 =
    { fields := [⟨0, ⟨8#64, 1⟩, .option .zigzag64⟩, ⟨1, ⟨18#64, 1⟩, .slice .nilp (.msg 0)⟩,
        ⟨2, ⟨26#64, 1⟩, .map ⟨26#64, ⟨8#64, 1⟩, ⟨16#64, 1⟩, 8#64, 16#64, .w32 0#32, .w32 0#32⟩ (.required .int32) (.required .int32)
          (.normal .int32) (.normal .int32)⟩, ⟨4, ⟨41#64, 1⟩, .normal .fixed64⟩, ⟨5, ⟨4294967290#64, 5⟩, .bytes⟩]
      zero := .struct [.opt false (.w64 0#64), .slice true [] [], .map true [], .opaque 0, .w64 0#64, .bytes none] } := rfl

theorem sampleValue_canon : Canon (envOf (generated sampleProto)) (.msg 0) (.ptr (.struct sampleValue)) := by
  have pad : ∀ i : Nat, (∀ f ∈ (envOf (generated sampleProto) 0).fields, f.offset ≠ i) → i = 3 ∨ 6 ≤ i := by
    intro i hi
    rw [sampleProto_env] at hi
    simp at hi
    omega
  refine .msg 0 _ [.opt false (.w64 0#64), .slice true [] [], .map true [], .opaque 0, .w64 0#64, .bytes none]
    (by rw [sampleProto_env]) ?_ ?_
  · intro f hf v hv
    rw [sampleProto_env] at hf
    simp only [List.mem_cons, List.not_mem_nil, or_false] at hf
    rcases hf with rfl | rfl | rfl | rfl | rfl <;> cases hv
    · exact .option _ _
    · refine .slice _ _ [_] [] (by simp [Written]) ?_
      intro e he
      simp only [List.mem_cons, List.not_mem_nil, or_false] at he
      subst he
      refine .msg 0 _ [.opt false (.w64 0#64), .slice true [] [], .map true [], .opaque 0, .w64 0#64, .bytes none]
        (by rw [sampleProto_env]) ?_ ?_
      · intro f hf v hv
        rw [sampleProto_env] at hf
        simp only [List.mem_cons, List.not_mem_nil, or_false] at hf
        rcases hf with rfl | rfl | rfl | rfl | rfl <;> cases hv
        · exact .option _ _
        · exact .slice _ _ [] [] (by simp) (by simp)
        · exact .map _ _ _ _ _ _ (by simp) (by simpa using .required _ _)
        · exact .normal _ _
        · exact .bytes _
      · intro i hi
        rcases pad i hi with rfl | h
        · rfl
        · simp [h]
    · exact .map _ _ _ _ _ _ (by simp) (by simpa using .required _ _)
    · exact .normal _ _
    · exact .bytes _
  · intro i hi
    rcases pad i hi with rfl | h
    · rfl
    · simp [sampleValue, h]

/-- Two goroutines have used the type, which is recursive, one after the other. -/
example : ∃ s i j b, Reachable (generated sampleProto) s ∧ (∀ t ∈ s.threads, NoMixing (oneMessage sampleProto) t.root) ∧
    s.threads = [⟨0, .ret i⟩, ⟨0, .ret j⟩] ∧ Settled s ∧ marshalAt (generated sampleProto) s.state i (.struct sampleValue) = .ok (.ok b) ∧
    b.length = 32 := by
  have h := reach_call 99 9 0 (reach_call 99 9 0 (Reachable.init (D := generated sampleProto)))
  have e : ∀ p q : Prog Nat, p = .ret 0 → q = .ret 0 → [Thread.mk 0 p] ++ [Thread.mk 0 q] = [⟨0, .ret 0⟩, ⟨0, .ret 0⟩] := by
    rintro p q rfl rfl; rfl
  have e := e (runN 99 (cachedStructInfoOf (generated sampleProto) 9 0) State.init).1
    (runN 99 (cachedStructInfoOf (generated sampleProto) 9 0) (runN 99 (cachedStructInfoOf (generated sampleProto) 9 0) State.init).2).1
    (returns_eq (by decide +kernel)) (returns_eq (by decide +kernel))
  refine ⟨_, 0, 0, _, h, fun t _ => sampleProto_noMixing _, e, ?_, output_eq (b := [0x08#8, 0x05#8, 0x12#8,
      0x06#8, 0x1a#8, 0x04#8, 0x08#8, 0x07#8, 0x10#8, 0x08#8, 0x1a#8, 0x04#8, 0x08#8, 0x05#8, 0x10#8, 0x06#8, 0x29#8, 0x09#8, 0x00#8,
      0x00#8, 0x00#8, 0x00#8, 0x00#8, 0x00#8, 0x00#8, 0xfa#8, 0xff#8, 0xff#8, 0xff#8, 0x0f#8, 0x01#8, 0x61#8]) (by decide +kernel), rfl⟩
  intro t ht
  replace ht := (congrArg (t ∈ ·) e).mp ht
  simp only [List.mem_cons, List.not_mem_nil, or_false] at ht
  rcases ht with rfl | rfl <;> exact ⟨0, rfl⟩

end Pb.Props
