import Verif.Spec.Source
import Verif.Spec.WalkProcess
import Verif.Spec.Cache
/-
The exported functions run from their source text in a process whose goroutines share the caches of type analysis: the type info is what
`cachedStructInfoOf`, run from its own text, has left in the shared state.
-/
namespace Pb.Go

/-- The type infos of message types in the shared state, by address. (Those of map entries are found in the codecs of maps, see
`Cache.State.codecAt`.) -/
def infoEnv (D : Decls) (s : Cache.State) : Env := fun i =>
  match s.infos[i]? with
  | some ⟨.named _, _⟩ => s.env D i
  | _ => { fields := [], zero := .struct [] }

/-- What proto.go calls, in a goroutine for which `cachedStructInfoOf` (proto.go:111-125) has returned the address `i` for the message type
`t`: the methods of that type info, and all codecs, are run from their source text. -/
def sharedCalls (D : Decls) (s : Cache.State) (t : TypeId) (i : Nat) (hit : List V → Val → Bool) (d j : Nat) : Calls
  | none, n, args, m =>
    if n = t!"cachedStructInfoOf" then
      match args with
      | [.gotype (some (.struct u))] => if u = t then .ok ([.info (infoEnv D s i).fields], m) else .error .confused
      | _ => .error .confused
    else .error .confused
  | some (.info fs), n, args, m => invoke program (codecs (infoEnv D s) hit d j) d 6 (some (.info fs)) n args m
  | _, _, _, _ => .error .confused

/-- Call of an exported function in this goroutine. -/
def runShared (D : Decls) (s : Cache.State) (t : TypeId) (i : Nat) (hit : List V → Val → Bool) (d j : Nat) (n : Text) (args : List V)
    (m : Val) : Except Fault (List V × Val) :=
  invoke apiProgram (sharedCalls D s t i hit d j) d 2 none n args m

open An in
/-- `Got D s t i`: in a process whose goroutines run the text of type analysis, one of them has got the type info at `i` for the message type
`t`. The conditions are those of C79: bounds on the declarations, messages in fields by pointers only, nothing in the caches that is not
what is asked for; and no message type contains itself, or no analysis is going on. -/
structure Got (D : Decls) (s : Cache.Sys) (t : TypeId) (i : Nat) : Prop where
  reached : ∃ m n, 2 ≤ m ∧ (∀ t, DeclFits D m (.named t)) ∧ 3 * m + 5 ≤ n ∧ TextReachable walkProgram D n s
  sound : ∀ t, ∀ f ∈ D t, Sound f
  consistent : ∀ t ∈ s.threads, Cache.Consistent D t.root
  quiet : (∃ rank, Cache.Acyclic D rank) ∨ Cache.Settled s
  got : ∃ k : Nat, s.threads[k]? = some ⟨t, .ret i⟩

end Pb.Go
