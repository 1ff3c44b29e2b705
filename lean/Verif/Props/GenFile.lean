import Verif.Proofs.GenFile
/-
C59: the generator declares every type of a file once. C60: getters of oneof members.
-/
namespace Pb.Props
open Spec

/-- C59. A Go struct is declared for a message exactly if the file declares the message, at any depth, and it is not the entry of a
map. -/
theorem C59_messages_declared (file : ProtoFile) (i : Nat) :
    .message i ∈ generateDecls file ↔ ∃ m, Within file m ∧ m.isMapEntry = false ∧ m.id = i := by
  have h : ∀ m, m ∈ (newFileInfo file).allMessages ↔ Within file m := fun m => by
    rw [(allMessages_perm file).mem_iff, within_iff]
  simp only [generateDecls, List.mem_append, List.mem_map, reduceCtorEq, and_false, exists_false, false_or, List.mem_flatMap, h,
    genMessageDecl]
  constructor
  · rintro ⟨m, h1, h2⟩
    by_cases he : m.isMapEntry
    · simp [he] at h2
    · simp [he] at h2; exact ⟨m, h1, by simpa using he, h2.symm⟩
  · rintro ⟨m, h1, h2, rfl⟩
    exact ⟨m, h1, by simp [h2]⟩

/-- C59. An enum type is declared exactly for the enums of the file and of its messages, at any depth. -/
theorem C59_enums_declared (file : ProtoFile) (i : Nat) :
    .enum i ∈ generateDecls file ↔ i ∈ file.enums ∨ ∃ m, Within file m ∧ i ∈ m.enums := by
  simp [generateDecls, newFileInfo_eq, within_iff, genMessageDecl]

/-- C59. Nothing is declared twice. -/
theorem C59_declared_once (file : ProtoFile) (h : DistinctDecls file) : (generateDecls file).Nodup := by
  obtain ⟨h1, h2⟩ := h
  have hm : ((newFileInfo file).allMessages.map MsgTree.id).Nodup :=
    ((allMessages_perm file).map _).nodup_iff.mpr (by rw [preorders_ids]; exact h1)
  have he : (newFileInfo file).allEnums.Nodup := by rw [newFileInfo_eq, preorders_enums]; exact h2
  rw [generateDecls, List.nodup_append]
  refine ⟨?_, ?_, ?_⟩
  · exact List.Pairwise.map _ (fun a b h e => h (by cases e; rfl)) he
  · generalize (newFileInfo file).allMessages = ms at hm
    induction ms with
    | nil => simp
    | cons m ms ih =>
      rw [List.map_cons, List.nodup_cons] at hm
      rw [List.flatMap_cons, List.nodup_append]
      refine ⟨by unfold genMessageDecl; split <;> simp, ih hm.2, ?_⟩
      intro a ha b hb e
      subst e
      simp only [genMessageDecl] at ha
      split at ha
      · cases ha
      · simp at ha
        subst ha
        simp only [List.mem_flatMap, genMessageDecl] at hb
        obtain ⟨n, hn, hb⟩ := hb
        split at hb
        · cases hb
        · simp at hb
          exact hm.1 (List.mem_map.mpr ⟨n, hn, hb.symm⟩)
  · intro a ha b hb e
    subst e
    simp only [List.mem_map] at ha
    obtain ⟨i, _, rfl⟩ := ha
    simp [genMessageDecl] at hb

/-- A file with an enum, a message with a map and two levels of nested messages, and a second message. -/
def sampleFile : ProtoFile :=
  ⟨[1], [.node 1 false [2] [.node 2 true [] [], .node 3 false [] [.node 4 false [3, 4] []]], .node 5 false [] []]⟩

example : DistinctDecls sampleFile := by unfold DistinctDecls; decide
example : generateDecls sampleFile =
    [.enum 1, .enum 2, .enum 3, .enum 4, .message 1, .message 5, .message 3, .message 4] := by decide

theorem default_iff (first : U32) (k : Kind) (d : Val) : FieldDefault first k none d ↔ getterDefault first k = d := by
  constructor
  · rintro (_ | ⟨_, h⟩)
    cases h with
    | num32 k h => rcases h with rfl | rfl | rfl | rfl | rfl | rfl <;> rfl
    | num64 k h => rcases h with rfl | rfl | rfl | rfl | rfl | rfl <;> rfl
    | _ => rfl
  · rintro rfl
    refine .none _ ?_
    cases k <;> first | exact .bool | exact .enum | exact .string | exact .bytes | exact .message _ | exact .group _ |
      exact .num32 _ (by simp) | exact .num64 _ (by simp)

/-- C60. A getter of a oneof member yields the value the member was set to, and the default of its type if another member or none is
set or the message is nil. Missing: defaults given in the .proto file are ignored, and a nil pointer to the member's wrapper makes the
getter panic, see below. -/
theorem C60_getter_partial (first : U32) (k : Kind) (member : Nat) (x : Receiver) (hx : x ≠ .msg (.nilWrapper member)) (v : Val) :
    OneofGet first k none member x v ↔ getMember first k member x = .ok v := by
  have hd := default_iff first k
  constructor
  · intro h
    cases h with
    | set v => simp [getMember, getOneof]
    | other m v d hm h => simp [getMember, getOneof, hm, (hd _).mp h]
    | nilWrapper m d h =>
      have hm : m ≠ member := fun e => hx (by rw [e])
      simp [getMember, getOneof, hm, (hd _).mp h]
    | unset d h => simp [getMember, getOneof, (hd _).mp h]
    | nil d h => simp [getMember, getOneof, (hd _).mp h]
  · intro h
    cases x with
    | nil => cases h; exact .nil _ ((hd _).mpr rfl)
    | msg o =>
      cases o with
      | none => cases h; exact .unset _ ((hd _).mpr rfl)
      | wrapper m v =>
        by_cases hm : m = member
        · subst hm
          simp only [getMember, getOneof, if_true] at h
          cases h
          exact .set v
        · simp only [getMember, getOneof, hm, if_false] at h
          cases h
          exact .other _ _ _ hm ((hd _).mpr rfl)
      | nilWrapper m =>
        have hm : m ≠ member := fun e => hx (by rw [e])
        simp only [getMember, getOneof, hm, if_false] at h
        cases h
        exact .nilWrapper _ _ ((hd _).mpr rfl)

/-- C60 fails for a nil pointer to the member's wrapper: for every member and type the getter panics, though nothing is set. -/
theorem C60_false_nil_wrapper (first : U32) (k : Kind) (member : Nat) :
    OneofGet first k none member (.msg (.nilWrapper member)) (getterDefault first k) ∧
    getMember first k member (.msg (.nilWrapper member)) = .error .panic :=
  ⟨.nilWrapper _ _ ((default_iff first k _).mpr rfl), by simp [getMember, getOneof]⟩

/-- C60 fails for a default given in the .proto file: with `int32 a = 1 [default = 5]` in a oneof that is not set, the getter yields
0, not 5. -/
theorem C60_false_given_default :
    OneofGet 0#32 .int32 (some (.w32 5#32)) 1 (.msg .none) (.w32 5#32) ∧ getMember 0#32 .int32 1 (.msg .none) = .ok (.w32 0#32) :=
  ⟨.unset _ (.given _), rfl⟩

/-- A member that is set, read by its own getter and by that of another member. -/
example : OneofGet 0#32 .string none 2 (.msg (.wrapper 2 (.str [104#8]))) (.str [104#8]) ∧
    getMember 3#32 .enum 1 (.msg (.wrapper 2 (.str [104#8]))) = .ok (.w32 3#32) := ⟨.set _, rfl⟩

end Pb.Props
