import Verif.Proofs.SourceWalk
/-
The loop over the fields in `structInfo` (walker.go:145-262), run from its source text: one iteration.
-/
namespace Pb.Go.An
open Pb.Cache (InfoKey Glob CPtr FieldH CBody Prog perform Op upd Walk)
open WalkText
variable {call : Calls} {loop : (Vars → M Bool) → (Vars → M (Flow × Vars)) → (Vars → M (Flow × Vars)) → Vars → M (Flow × Vars)}
  {range : (Nat → V → Vars → M (Flow × Vars)) → Nat → List V → Vars → M (Flow × Vars)} {body : V → V → V → Option CBody}
  {atoi : Text → Option Int} {D : Decls}

/-- The variables of `structInfo` in the loop. -/
def fieldVars (fs : List FieldH) (N : Nat) (info : V) (T : RT) (j : Nat) : Vars :=
  [[(t!"i", .num j)], [(t!"fields", .sfs fs), (t!"numField", .num N), (t!"info", info), (t!"w", .walker), (t!"t", .type T)]]

/-- An iteration. -/
def fieldStep (C : Ctx) (D : Decls) : Vars → M (Flow × Vars) := inBlock (exec C D t!"structInfo" (loopBody src_structInfo.body))

/-- The field a struct field with this tag and codec is. -/
def fieldOf (j : Nat) (t : StructTag) (c : CPtr) : FieldH :=
  { offset := j, tag := { wiretag := t.wiretag, tagsize := sizeOfVarint t.wiretag }, codec := c }

/-- How the iteration ends when this gives the codec. -/
def added (fs : List FieldH) (N : Nat) (info : V) (T : RT) (j : Nat) (t : StructTag) (p : Prog (CPtr × Walk)) : Prog ((Flow × Vars) × Walk) :=
  p.bind fun r => .ret ((.next, fieldVars (fs ++ [fieldOf j t r.1]) N info T j), r.2)

variable {fs : List FieldH} {N : Nat} {info : V} {T : RT} {decl : StructDecl} {j : Nat} {w : Walk} {e : Bool}
  {keyTag valTag : Text} {text : Text} {ty : FieldType} {P : Text → StructTag × Bool}

theorem step_unexported (tag : Option Text) (hd : structDecl D T w = .ret (decl, w)) (hf : decl[j]? = some ⟨false, tag, keyTag, valTag, ty⟩) :
    fieldStep ⟨call, loop, range, body, atoi⟩ D (fieldVars fs N info T j) w = .ret ((.cont, fieldVars fs N info T j), w) := by
  kdone

theorem step_untagged (hd : structDecl D T w = .ret (decl, w)) (hf : decl[j]? = some ⟨true, none, keyTag, valTag, ty⟩) :
    fieldStep ⟨call, loop, range, body, atoi⟩ D (fieldVars fs N info T j) w = .ret ((.cont, fieldVars fs N info T j), w) := by
  kdone

theorem step_bad_tag (hd : structDecl D T w = .ret (decl, w)) (hf : decl[j]? = some ⟨true, some text, keyTag, valTag, ty⟩) (t : StructTag)
    (hp : call t!"parseStructTag" [.str text] w = .ret (tagResult (t, true), w)) :
    fieldStep ⟨call, loop, range, body, atoi⟩ D (fieldVars fs N info T j) w = .panic := by
  kdone

/-- An `Option` field. -/
def optionP (t : StructTag) (b : OptBase) (w : Walk) : Prog (CPtr × Walk) :=
  match fixedCodec t.wireType (.opt b) with
  | some c => .ret (Cache.globOf c, w)
  | none =>
    match optionCodec t.zigzag b with
    | some c => .ret (Cache.globOf c, w)
    | none => .op .newCodec fun _ => .panic

theorem step_option (b : OptBase) (hd : structDecl D T w = .ret (decl, w)) (hf : decl[j]? = some ⟨true, some text, keyTag, valTag, .opt b⟩) (t : StructTag)
    (hp : call t!"parseStructTag" [.str text] w = .ret (tagResult (t, false), w))
    (hk : call t!"baseKindOf" [.type (.opt b)] w = .ret ([.kind t!"Struct"], w))
    (hc : ∀ z, call t!"codec" [.walker, .type (.opt b), .conf ⟨z, false⟩] w = .op .newCodec fun _ => .panic) :
    fieldStep ⟨call, loop, range, body, atoi⟩ D (fieldVars fs N info T j) w =
      added fs N info T j t (optionP t b w) := by
  obtain ⟨wt, num, rep, z⟩ := t
  have hcz := hc z
  by_cases h5 : wt = 5
  · subst h5
    cases b
    case int32 => cases z <;> kdone
    case int64 => cases z <;> kdone
    all_goals kdone
  by_cases h1 : wt = 1
  · subst h1
    cases b
    case int32 => cases z <;> kdone
    case int64 => cases z <;> kdone
    all_goals kdone
  cases b
  case int32 => cases z <;> kdone
  case int64 => cases z <;> kdone
  all_goals kdone

end Pb.Go.An
