import Verif.Spec.GenFile
/-
Walking over the messages of a file.
-/
namespace Pb
open Spec

mutual
/-- A message and all messages inside it, outer ones first. -/
def preorder : MsgTree → List MsgTree
  | .node i e es ms => .node i e es ms :: preorders ms
/-- The same for several messages. -/
def preorders : List MsgTree → List MsgTree
  | [] => []
  | m :: ms => preorder m ++ preorders ms
end

mutual
theorem walkMessage_foldl {σ : Type} (f : σ → MsgTree → σ) : ∀ (m : MsgTree) (s : σ), walkMessage f s m = (preorder m).foldl f s
  | .node i e es ms, s => by
    rw [walkMessage, preorder, List.foldl_cons]
    exact walkMessages_foldl f ms _
theorem walkMessages_foldl {σ : Type} (f : σ → MsgTree → σ) : ∀ (ms : List MsgTree) (s : σ), walkMessages f s ms = (preorders ms).foldl f s
  | [], _ => rfl
  | m :: ms, s => by
    rw [walkMessages, preorders, List.foldl_append, walkMessage_foldl f m s]
    exact walkMessages_foldl f ms _
end

theorem foldl_info (ms : List MsgTree) (f : FileInfo) :
    ms.foldl (fun f m => (f.initEnumInfos m.enums).initMessageInfos m.nested) f =
      ⟨f.allEnums ++ ms.flatMap MsgTree.enums, f.allMessages ++ ms.flatMap MsgTree.nested⟩ := by
  induction ms generalizing f with
  | nil => simp
  | cons m ms ih => rw [List.foldl_cons, ih]; simp [FileInfo.initEnumInfos, FileInfo.initMessageInfos]

theorem newFileInfo_eq (file : ProtoFile) : newFileInfo file =
    ⟨file.enums ++ (preorders file.messages).flatMap MsgTree.enums, file.messages ++ (preorders file.messages).flatMap MsgTree.nested⟩ := by
  simp only [newFileInfo, walkMessages_foldl, foldl_info]
  simp [FileInfo.initEnumInfos, FileInfo.initMessageInfos]

mutual
/-- Everything inside a message is nested in something in it, once. -/
theorem nested_perm : ∀ m : MsgTree, (m :: (preorder m).flatMap MsgTree.nested).Perm (preorder m)
  | .node i e es ms => by
    rw [preorder, List.flatMap_cons]
    refine .cons _ ?_
    exact nesteds_perm ms
theorem nesteds_perm : ∀ ms : List MsgTree, (ms ++ (preorders ms).flatMap MsgTree.nested).Perm (preorders ms)
  | [] => .refl _
  | m :: ms => by
    have h1 := nested_perm m
    have h2 := nesteds_perm ms
    rw [preorders, List.flatMap_append]
    refine .trans ?_ (h1.append h2)
    rw [List.cons_append, List.cons_append]
    refine .cons _ ?_
    rw [← List.append_assoc, ← List.append_assoc]
    exact List.perm_append_comm.append_right _
end

mutual
theorem preorder_ids : ∀ m : MsgTree, (preorder m).map MsgTree.id = msgIds m
  | .node i e es ms => by rw [preorder, msgIds, List.map_cons, preorders_ids ms]; rfl
theorem preorders_ids : ∀ ms : List MsgTree, (preorders ms).map MsgTree.id = msgsIds ms
  | [] => rfl
  | m :: ms => by rw [preorders, msgsIds, List.map_append, preorder_ids m, preorders_ids ms]
end

mutual
theorem preorder_enums : ∀ m : MsgTree, (preorder m).flatMap MsgTree.enums = msgEnums m
  | .node i e es ms => by rw [preorder, msgEnums, List.flatMap_cons, preorders_enums ms]; rfl
theorem preorders_enums : ∀ ms : List MsgTree, (preorders ms).flatMap MsgTree.enums = msgsEnums ms
  | [] => rfl
  | m :: ms => by rw [preorders, msgsEnums, List.flatMap_append, preorder_enums m, preorders_enums ms]
end

mutual
theorem within_preorder {file : ProtoFile} : ∀ (m : MsgTree), Within file m → ∀ n ∈ preorder m, Within file n
  | .node i e es ms, h, n, hn => by
    rw [preorder, List.mem_cons] at hn
    rcases hn with rfl | hn
    · exact h
    · exact within_preorders ms (fun m hm => .inside _ m h hm) n hn
theorem within_preorders {file : ProtoFile} : ∀ (ms : List MsgTree), (∀ m ∈ ms, Within file m) → ∀ n ∈ preorders ms, Within file n
  | [], _, n, hn => by cases hn
  | m :: ms, h, n, hn => by
    rw [preorders, List.mem_append] at hn
    rcases hn with hn | hn
    · exact within_preorder m (h m (by simp)) n hn
    · exact within_preorders ms (fun m hm => h m (by simp [hm])) n hn
end

theorem self_preorder (m : MsgTree) : m ∈ preorder m := by cases m; simp [preorder]

theorem preorders_mem {ms : List MsgTree} {m n : MsgTree} (h : m ∈ ms) (hn : n ∈ preorder m) : n ∈ preorders ms := by
  induction ms with
  | nil => cases h
  | cons a ms ih =>
    rw [preorders, List.mem_append]
    rcases List.mem_cons.mp h with rfl | h
    · exact .inl hn
    · exact .inr (ih h)

mutual
theorem preorder_closed : ∀ (a m n : MsgTree), m ∈ preorder a → n ∈ m.nested → n ∈ preorder a
  | .node i e es ms, m, n, hm, hn => by
    rw [preorder, List.mem_cons] at hm ⊢
    right
    rcases hm with rfl | hm
    · exact preorders_mem hn (self_preorder n)
    · exact preorders_closed ms m n hm hn
theorem preorders_closed : ∀ (as : List MsgTree) (m n : MsgTree), m ∈ preorders as → n ∈ m.nested → n ∈ preorders as
  | [], _, _, hm, _ => by cases hm
  | a :: as, m, n, hm, hn => by
    rw [preorders, List.mem_append] at hm ⊢
    rcases hm with hm | hm
    · exact .inl (preorder_closed a m n hm hn)
    · exact .inr (preorders_closed as m n hm hn)
end

/-- The messages of the file are those of the walk. -/
theorem within_iff {file : ProtoFile} {m : MsgTree} : Within file m ↔ m ∈ preorders file.messages := by
  constructor
  · intro h
    induction h with
    | top m h => exact preorders_mem h (self_preorder m)
    | inside m n _ hn ih => exact preorders_closed _ m n ih hn
  · exact fun h => within_preorders _ (fun m hm => .top m hm) m h

theorem allMessages_perm (file : ProtoFile) : (newFileInfo file).allMessages.Perm (preorders file.messages) := by
  rw [newFileInfo_eq]; exact nesteds_perm _

end Pb
