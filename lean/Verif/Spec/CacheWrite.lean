import Verif.Spec.Cache
import Verif.Spec.WalkProcess
/-
Objects of type analysis as memory that goroutines share: what a later state of the process is, and which objects a call of `Size`,
`Marshal` or `Unmarshal` can come to read.
-/
namespace Pb.Cache

/-- The process can go from one state to the other. -/
inductive Steps (D : Decls) (s : Sys) : Sys → Prop
  | refl : Steps D s s
  | tail (s' s'') : Steps D s s' → Step D s' s'' → Steps D s s''

/-- An object in memory: a type info or an allocated codec. -/
inductive Obj where
  | info (i : Nat)
  | codec (n : Nat)
deriving DecidableEq

/-- The object has been filled in. -/
def State.ready (s : State) : Obj → Prop
  | .info i => ∃ k fs, s.infos[i]? = some ⟨k, some fs⟩
  | .codec n => ∃ b, s.codecs[n]? = some (some b)

/-- The object is there, and is the same in both states. -/
def SameObj (s s' : State) : Obj → Prop
  | .info i => ∃ o, s.infos[i]? = some o ∧ s'.infos[i]? = some o
  | .codec n => ∃ b, s.codecs[n]? = some b ∧ s'.codecs[n]? = some b

/-- The objects that a codec refers to. -/
def CBody.refs : CBody → List Obj
  | .ptr _ (.heap n) => [.codec n]
  | .ptr _ (.glob _) => []
  | .msg _ i => [.info i]
  | .slice _ (.heap n) => [.codec n]
  | .slice _ (.glob _) => []
  | .map _ kc vc i => .info i :: (heaps kc ++ heaps vc)
where
  heaps : CPtr → List Obj
    | .heap n => [.codec n]
    | .glob _ => []

/-- `Touches s i o`: a call that has got the type info at `i` can come to the object `o` in the state `s`. -/
inductive Touches (s : State) (i : Nat) : Obj → Prop
  | root : Touches s i (.info i)
  | field (j k fs f n) : Touches s i (.info j) → s.infos[j]? = some ⟨k, some fs⟩ → f ∈ fs → f.codec = .heap n → Touches s i (.codec n)
  | ref (n b o) : Touches s i (.codec n) → s.codecs[n]? = some (some b) → o ∈ b.refs → Touches s i o

/-- As `State.codecAt`, where each object is read in a state of its own out of those in `R`: other goroutines may have gone on between any two
reads. Objects are read again whenever they are come to again. -/
inductive ReadsAs (R : State → Prop) : Nat → CPtr → Codec → Prop
  | glob (d g) : ReadsAs R d (.glob g) g.codec
  | deep (n) : ReadsAs R 0 (.heap n) (.option .bool)
  | empty (d n s) : R s → (∀ b, s.codecs[n]? ≠ some (some b)) → ReadsAs R (d + 1) (.heap n) (.option .bool)
  | ptr (d n s z p c) : R s → s.codecs[n]? = some (some (.ptr z p)) → ReadsAs R d p c → ReadsAs R (d + 1) (.heap n) (.ptr z c)
  | msg (d n s t i) : R s → s.codecs[n]? = some (some (.msg t i)) → ReadsAs R (d + 1) (.heap n) (.msg i)
  | slice (d n s z p c) : R s → s.codecs[n]? = some (some (.slice z p)) → ReadsAs R d p c → ReadsAs R (d + 1) (.heap n) (.slice z c)
  | map (d n s s' i kc vc info k fk fv c₁ c₂ c₃ c₄) : R s → s.codecs[n]? = some (some (.map i kc vc info)) →
      R s' → s'.infos[info]? = some ⟨k, some [fk, fv]⟩ → ReadsAs R d kc c₁ → ReadsAs R d vc c₂ → ReadsAs R d fk.codec c₃ →
      ReadsAs R d fv.codec c₄ →
      ReadsAs R (d + 1) (.heap n) (.map { i with eKey := fk.tag.wiretag, eVal := fv.tag.wiretag } c₁ c₂ c₃ c₄)
  | entry (d n s s' i kc vc info) : R s → s.codecs[n]? = some (some (.map i kc vc info)) →
      R s' → (∀ k fk fv, s'.infos[info]? ≠ some ⟨k, some [fk, fv]⟩) → ReadsAs R (d + 1) (.heap n) (.option .bool)

/-- The operation writes to the object. -/
def Op.fills : Op → Option Obj
  | .setInfo i _ => some (.info i)
  | .setCodec n _ => some (.codec n)
  | _ => none

end Pb.Cache

namespace Pb.Go.An

/-- As `Cache.Steps`, for a process whose goroutines run the source text of the program `P`. -/
inductive TextSteps (P : List FuncDecl) (D : Decls) (n : Nat) (s : Cache.Sys) : Cache.Sys → Prop
  | refl : TextSteps P D n s s
  | tail (s' s'') : TextSteps P D n s s' → TextStep P D n s' s'' → TextSteps P D n s s''

end Pb.Go.An
