import Verif.Proofs.SourceWalkFields
/-
The loop over the fields in `structInfo` (walker.go:145-262), run from its source text: one iteration, for fields of types other than `Option`.
-/
namespace Pb.Go.An
open Pb.Cache (InfoKey Glob CPtr FieldH CBody Prog perform Op upd Walk)
open WalkText
variable {call : Calls} {loop : (Vars → M Bool) → (Vars → M (Flow × Vars)) → (Vars → M (Flow × Vars)) → Vars → M (Flow × Vars)}
  {range : (Nat → V → Vars → M (Flow × Vars)) → Nat → List V → Vars → M (Flow × Vars)} {body : V → V → V → Option CBody}
  {atoi : Text → Option Int} {D : Decls}

variable {fs : List FieldH} {N : Nat} {info : V} {T : RT} {decl : StructDecl} {j : Nat} {w : Walk} {e : Bool}
  {keyTag valTag : Text} {text : Text} {ty : FieldType} {P : Text → StructTag × Bool}

/-- Fields whose base type has one of the kinds wire types fixed32 and fixed64 have codecs for. -/
theorem step_fixed (ty : GoType) (K : Text) (c : Codec) (t : StructTag) (hd : structDecl D T w = .ret (decl, w))
    (hf : decl[j]? = some ⟨true, some text, keyTag, valTag, .ty ty⟩)
    (hp : call t!"parseStructTag" [.str text] w = .ret (tagResult (t, false), w))
    (hk : call t!"baseKindOf" [.type (.ty ty)] w = .ret ([.kind K], w))
    (hK : (t.wireType = 5 ∧ K = t!"Uint32" ∧ c = .normal .fixed32) ∨ (t.wireType = 5 ∧ K = t!"Float32" ∧ c = .normal .float32) ∨
      (t.wireType = 1 ∧ K = t!"Uint64" ∧ c = .normal .fixed64) ∨ (t.wireType = 1 ∧ K = t!"Float64" ∧ c = .normal .float64)) :
    fieldStep ⟨call, loop, range, body, atoi⟩ D (fieldVars fs N info T j) w = added fs N info T j t (.ret (Cache.globOf c, w)) := by
  obtain ⟨wt, num, rep, z⟩ := t
  rcases hK with ⟨h, rfl, rfl⟩ | ⟨h, rfl, rfl⟩ | ⟨h, rfl, rfl⟩ | ⟨h, rfl, rfl⟩
  · cases (show wt = 5 from h)
    kdone
  · cases (show wt = 5 from h)
    kdone
  · cases (show wt = 1 from h)
    kdone
  · cases (show wt = 1 from h)
    kdone

/-- The base type has none of these kinds. -/
def NotFixed (wt : Nat) (K : Text) : Prop := (wt = 5 → K ≠ t!"Uint32" ∧ K ≠ t!"Float32") ∧ (wt = 1 → K ≠ t!"Uint64" ∧ K ≠ t!"Float64")

/-- Fields with the codec `codec` gives. -/
theorem step_plain (ty : GoType) (K : Text) (t : StructTag) (hd : structDecl D T w = .ret (decl, w))
    (hf : decl[j]? = some ⟨true, some text, keyTag, valTag, .ty ty⟩)
    (hp : call t!"parseStructTag" [.str text] w = .ret (tagResult (t, false), w))
    (hk : call t!"baseKindOf" [.type (.ty ty)] w = .ret ([.kind K], w))
    (hK : NotFixed t.wireType K) (hs : K ≠ t!"Slice") (hm : K ≠ t!"Map") (p : Prog (CPtr × Walk))
    (hq : call t!"codec" [.walker, .type (.ty ty), .conf ⟨t.zigzag, false⟩] w = giveCodec p) :
    fieldStep ⟨call, loop, range, body, atoi⟩ D (fieldVars fs N info T j) w = added fs N info T j t p := by
  obtain ⟨wt, num, rep, z⟩ := t
  by_cases h5 : wt = 5
  · subst h5
    have hK1 := (hK.1 rfl).1
    have hK2 := (hK.1 rfl).2
    by_cases hS : K = t!"Struct"
    · subst hS
      kgo
      clear hq
      induction p with
      | ret a => krefl
      | panic => krefl
      | stuck => krefl
      | op o q ih => kexact (congrArg (Prog.op o) (funext fun r => ih r))
    kgo
    clear hq
    induction p with
    | ret a => krefl
    | panic => krefl
    | stuck => krefl
    | op o q ih => kexact (congrArg (Prog.op o) (funext fun r => ih r))
  by_cases h1 : wt = 1
  · subst h1
    have hK1 := (hK.2 rfl).1
    have hK2 := (hK.2 rfl).2
    by_cases hS : K = t!"Struct"
    · subst hS
      kgo
      clear hq
      induction p with
      | ret a => krefl
      | panic => krefl
      | stuck => krefl
      | op o q ih => kexact (congrArg (Prog.op o) (funext fun r => ih r))
    kgo
    clear hq
    induction p with
    | ret a => krefl
    | panic => krefl
    | stuck => krefl
    | op o q ih => kexact (congrArg (Prog.op o) (funext fun r => ih r))
  by_cases hS : K = t!"Struct"
  · subst hS
    kgo
    clear hq
    induction p with
    | ret a => krefl
    | panic => krefl
    | stuck => krefl
    | op o q ih => kexact (congrArg (Prog.op o) (funext fun r => ih r))
  kgo
  clear hq
  induction p with
  | ret a => krefl
  | panic => krefl
  | stuck => krefl
  | op o q ih => kexact (congrArg (Prog.op o) (funext fun r => ih r))

/-- Fields of type `[]byte`. -/
theorem step_bytes (u : GoType) (t : StructTag) (hu : u = .uint8) (hd : structDecl D T w = .ret (decl, w))
    (hf : decl[j]? = some ⟨true, some text, keyTag, valTag, .ty (.slice u)⟩)
    (hp : call t!"parseStructTag" [.str text] w = .ret (tagResult (t, false), w))
    (hk : call t!"baseKindOf" [.type (.ty (.slice u))] w = .ret ([.kind t!"Slice"], w)) :
    fieldStep ⟨call, loop, range, body, atoi⟩ D (fieldVars fs N info T j) w = added fs N info T j t (.ret (.glob .bytes, w)) := by
  subst hu
  obtain ⟨wt, num, rep, z⟩ := t
  by_cases h5 : wt = 5
  · subst h5
    kdone
  by_cases h1 : wt = 1
  · subst h1
    kdone
  kdone

/-- Other slices, and pointers to slices. -/
theorem step_slice (ty elem : GoType) (he : ty = .slice elem ∨ ty = .ptr elem) (t : StructTag) (hn : ¬ kindOf (.ty elem) = t!"Uint8")
    (hd : structDecl D T w = .ret (decl, w))
    (hf : decl[j]? = some ⟨true, some text, keyTag, valTag, .ty ty⟩)
    (hp : call t!"parseStructTag" [.str text] w = .ret (tagResult (t, false), w))
    (hk : call t!"baseKindOf" [.type (.ty ty)] w = .ret ([.kind t!"Slice"], w))
    (p : Prog (CPtr × Walk)) (S : CPtr → Cache.WProg CPtr)
    (hq : call t!"codec" [.walker, .type (.ty elem), .conf ⟨t.zigzag, true⟩] w = giveCodec p)
    (hs : ∀ c w, call t!"sliceCodecOf" [.type (.ty ty), .codec c, .walker] w = giveCodec (S c w)) :
    fieldStep ⟨call, loop, range, body, atoi⟩ D (fieldVars fs N info T j) w =
      added fs N info T j t (p.bind fun r => S r.1 r.2) := by
  have hE : ∀ w, elemOf (.ty ty) w = .ret (.ty elem, w) := by rcases he with rfl | rfl <;> exact fun _ => rfl
  have hE := hE w
  clear he
  obtain ⟨wt, num, rep, z⟩ := t
  by_cases h5 : wt = 5
  · subst h5
    kgo
    clear hq
    induction p with
    | ret a =>
      kcall (hs a.1 _)
      ksplit p hp'
      kgo
      clear hp'
      induction p with
      | ret a => krefl
      | panic => krefl
      | stuck => krefl
      | op o q ih => kexact (congrArg (Prog.op o) (funext fun r => ih r))
    | panic => krefl
    | stuck => krefl
    | op o q ih => kexact (congrArg (Prog.op o) (funext fun r => ih r))
  by_cases h1 : wt = 1
  · subst h1
    kgo
    clear hq
    induction p with
    | ret a =>
      kcall (hs a.1 _)
      ksplit p hp'
      kgo
      clear hp'
      induction p with
      | ret a => krefl
      | panic => krefl
      | stuck => krefl
      | op o q ih => kexact (congrArg (Prog.op o) (funext fun r => ih r))
    | panic => krefl
    | stuck => krefl
    | op o q ih => kexact (congrArg (Prog.op o) (funext fun r => ih r))
  kgo
  clear hq
  induction p with
  | ret a =>
    kcall (hs a.1 _)
    ksplit p hp'
    kgo
    clear hp'
    induction p with
    | ret a => krefl
    | panic => krefl
    | stuck => krefl
    | op o q ih => kexact (congrArg (Prog.op o) (funext fun r => ih r))
  | panic => krefl
  | stuck => krefl
  | op o q ih => kexact (congrArg (Prog.op o) (funext fun r => ih r))

/-- A pointer to a map. -/
theorem step_map_pointer (e : GoType) (t : StructTag) (hd : structDecl D T w = .ret (decl, w))
    (hf : decl[j]? = some ⟨true, some text, keyTag, valTag, .ty (.ptr e)⟩)
    (hp : call t!"parseStructTag" [.str text] w = .ret (tagResult (t, false), w))
    (hk : call t!"baseKindOf" [.type (.ty (.ptr e))] w = .ret ([.kind t!"Map"], w)) :
    fieldStep ⟨call, loop, range, body, atoi⟩ D (fieldVars fs N info T j) w = .panic := by
  obtain ⟨wt, num, rep, z⟩ := t
  by_cases h5 : wt = 5
  · subst h5
    kdone
  by_cases h1 : wt = 1
  · subst h1
    kdone
  kdone

/-- The tag of a map's keys or values in an entry. -/
def entryTag (t : StructTag) : FTag := { wiretag := t.wiretag, tagsize := sizeOfVarint t.wiretag }

/-- A map. -/
theorem step_map (a b : GoType) (t : StructTag) (hd : structDecl D T w = .ret (decl, w))
    (hf : decl[j]? = some ⟨true, some text, keyTag, valTag, .ty (.map a b)⟩)
    (hp : call t!"parseStructTag" [.str text] w = .ret (tagResult (t, false), w))
    (hk : call t!"baseKindOf" [.type (.ty (.map a b))] w = .ret ([.kind t!"Map"], w))
    (kt vt : StructTag × Bool) (hkt : ∀ w, call t!"parseStructTag" [.str keyTag] w = .ret (tagResult kt, w))
    (hvt : ∀ w, call t!"parseStructTag" [.str valTag] w = .ret (tagResult vt, w))
    (p : Prog (CPtr × Walk)) (q : Cache.WProg CPtr) (S : CPtr → CPtr → Cache.WProg CPtr)
    (hq : call t!"codec" [.walker, .type (.ty a), .conf ⟨kt.1.zigzag, true⟩] w = giveCodec p)
    (hq' : ∀ w, call t!"codec" [.walker, .type (.ty b), .conf ⟨vt.1.zigzag, true⟩] w = giveCodec (q w))
    (hs : ∀ c c' w, call t!"mapCodec" [.walker, .type (.ty (.map a b)), mapV t.wiretag (entryTag kt.1, c) (entryTag vt.1, c')] w =
      giveCodec (S c c' w)) :
    fieldStep ⟨call, loop, range, body, atoi⟩ D (fieldVars fs N info T j) w =
      added fs N info T j t (p.bind fun r => (q r.2).bind fun r' => S r.1 r'.1 r'.2) := by
  have finish : ∀ wt num rep z, t = ⟨wt, num, rep, z⟩ → (wt = 5 ∨ wt = 1 ∨ (wt ≠ 5 ∧ wt ≠ 1)) →
      fieldStep ⟨call, loop, range, body, atoi⟩ D (fieldVars fs N info T j) w =
        added fs N info T j t (p.bind fun r => (q r.2).bind fun r' => S r.1 r'.1 r'.2) := by
    intro wt num rep z ht hwt
    subst ht
    obtain ⟨kt, ke⟩ := kt
    obtain ⟨vt, ve⟩ := vt
    have hkt' := hkt w
    have goal : fieldStep ⟨call, loop, range, body, atoi⟩ D (fieldVars fs N info T j) w =
        added fs N info T j ⟨wt, num, rep, z⟩ (p.bind fun r => (q r.2).bind fun r' => S r.1 r'.1 r'.2) := by
      rcases hwt with rfl | rfl | ⟨h5, h1⟩
      all_goals
        kgo
        clear hq
        induction p with
        | ret r =>
          kcall (hvt _)
          kcall (hq' _)
          ksplit p' hp'
          kgo
          clear hp'
          induction p' with
          | ret r' =>
            kcall (hs r.1 r'.1 _)
            ksplit p'' hp''
            kgo
            clear hp''
            induction p'' with
            | ret r'' => krefl
            | panic => krefl
            | stuck => krefl
            | op o q ih => kexact (congrArg (Prog.op o) (funext fun r => ih r))
          | panic => krefl
          | stuck => krefl
          | op o q ih => kexact (congrArg (Prog.op o) (funext fun r => ih r))
        | panic => krefl
        | stuck => krefl
        | op o q ih => kexact (congrArg (Prog.op o) (funext fun r => ih r))
    exact goal
  exact finish t.wireType t.fieldNumber t.repeated t.zigzag rfl (by omega)

end Pb.Go.An
