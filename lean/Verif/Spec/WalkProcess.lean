import Verif.Spec.GoWalk
import Verif.Model.WalkerText
/-
What it means that a program of type analysis does what the model says, and processes that run the source text of
`cachedStructInfoOf` in goroutines.
-/
namespace Pb.Go.An
open Pb.Cache (InfoKey CPtr Prog Op Walk Sys)

open WalkText

/-- The source texts of type analysis. -/
def walkTexts : List Text :=
  [codecGo, structCodecGo, baseKindOfGo, baseTypeOfGo, structInfoGo, pointerGo, requiredGo, pointerSizeFuncOfGo, pointerEncodeFuncOfGo,
   pointerDecodeFuncOfGo, sliceCodecOfGo, sliceSizeFuncOfGo, sliceEncodeFuncOfGo, sliceDecodeFuncOfGo, mapCodecGo, mapSizeFuncOfGo,
   mapEncodeFuncOfGo, mapDecodeFuncOfGo, parseStructTagGo, splitFieldsGo, cachedStructInfoOfGo]

def readFuncs : List Text → Option (List FuncDecl)
  | [] => some []
  | t :: ts =>
    match parseWide t, readFuncs ts with
    | some (f, _), some fs => some (f :: fs)
    | _, _ => none

/-- The program the texts are. -/
def walkProgram : List FuncDecl := (readFuncs walkTexts).getD []

/-- The function literals in a function, as tokens. -/
def literalsOf (t : Text) : Option (List (List Tok)) := (parseWide t).map (·.2)

/-- The function literal in an assignment or a return statement, without the semicolon after it. -/
def literalIn (t : Text) : List Tok := (((tokens t).getD []).dropWhile fun x => !decide (x = .word t!"func")).dropLast

/-- The same operations with the same results and outcome; if `b`, but for one codec that is allocated before a panic. -/
inductive Like (b : Prop) {α : Type} : Prog α → Prog α → Prop
  | ret (a : α) : Like b (.ret a) (.ret a)
  | panic : Like b .panic .panic
  | stuck : Like b .stuck .stuck
  | op (o : Op) (k k' : o.Resp → Prog α) : (∀ r, Like b (k r) (k' r)) → Like b (.op o k) (.op o k')
  | alloc : b → Like b (.op .newCodec fun _ => .panic) .panic

/-! ### declarations -/

/-- How deep a type is nested. -/
def goDepth : GoType → Nat
  | .slice t => goDepth t + 1
  | .ptr t => goDepth t + 1
  | .map k v => max (goDepth k) (goDepth v) + 1
  | _ => 0

def fieldDepth : FieldType → Nat
  | .opt _ => 0
  | .ty t => goDepth t

/-- The struct type has at most `m` fields, of types nested at most `m` deep. -/
def DeclFits (D : Decls) (m : Nat) (key : InfoKey) : Prop :=
  (key.decl D).length ≤ m ∧ ∀ f ∈ key.decl D, fieldDepth f.ty ≤ m

/-- The type is no message, and no map of messages, other than by pointers. -/
def ByRef : GoType → Prop
  | .named _ => False
  | .map k v => ByRef k ∧ ByRef v
  | _ => True

/-- The field is no message other than by a pointer, and if it is an `Option` type there is a codec for it (walker.go:166-215). -/
def Sound (f : FieldDecl) : Prop :=
  match f.ty with
  | .ty t => ByRef t
  | .opt b => ∀ text, f.tag = some text →
    fixedCodec (parseStructTag text).1.wireType (.opt b) ≠ none ∨ optionCodec (parseStructTag text).1.zigzag b ≠ none

/-! ### processes -/

/-- What a call of `cachedStructInfoOf` gives. -/
def infoResult (r : List V × Walk) : Prog Nat :=
  match r.1 with
  | [.info i] => .ret i
  | _ => .stuck

/-- `cachedStructInfoOf(t)` of a program `P`, run from its text: struct types nested at most `d` deep, loops of at most `n` iterations, other calls
nested at most `n` deep. -/
def analyse (P : List FuncDecl) (D : Decls) (n d : Nat) (t : TypeId) : Prog Nat :=
  (run P D n d t!"cachedStructInfoOf" [.type (.ty (.named t))] Walk.init).bind infoResult

/-- As `Cache.Step`, with the source text instead of the model. -/
inductive TextStep (P : List FuncDecl) (D : Decls) (n : Nat) : Sys → Sys → Prop
  | call (s : Sys) (d : Nat) (t : TypeId) :
      TextStep P D n s { s with threads := s.threads ++ [{ root := t, prog := analyse P D n d t }] }
  | run (s : Sys) (i : Nat) (t : TypeId) (o : Op) (k : o.Resp → Prog Nat) :
      s.threads[i]? = some { root := t, prog := .op o k } →
      TextStep P D n s { state := (Cache.exec o s.state).2
                         threads := s.threads.set i { root := t, prog := k (Cache.exec o s.state).1 } }

/-- States a process that runs the text can get into. -/
inductive TextReachable (P : List FuncDecl) (D : Decls) (n : Nat) : Sys → Prop
  | init : TextReachable P D n { state := .init, threads := [] }
  | step (s s') : TextReachable P D n s → TextStep P D n s s' → TextReachable P D n s'

end Pb.Go.An
