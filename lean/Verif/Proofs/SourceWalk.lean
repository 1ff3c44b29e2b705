import Verif.Spec.GoWalk
import Verif.Model.WalkerTree
import Verif.Proofs.Symbolic
/-
The functions of type analysis other than `structInfo` and `cachedStructInfoOf`, run from their source texts: struct.go, `codec`,
`required`, `pointer`, `structCodec` (walker.go), `sliceCodecOf` (slice.go), `mapCodec` (map.go), and the functions that return literals.
-/
namespace Pb.Go.An
open Pb.Cache (InfoKey Glob CPtr FieldH CBody Prog perform Op upd Walk)
open WalkText
variable {call : Calls} {loop : (Vars → M Bool) → (Vars → M (Flow × Vars)) → (Vars → M (Flow × Vars)) → Vars → M (Flow × Vars)}
  {range : (Nat → V → Vars → M (Flow × Vars)) → Nat → List V → Vars → M (Flow × Vars)} {body : V → V → V → Option CBody} 
  {atoi : Text → Option Int} {D : Decls}

/-- Results of a call that gives a codec. -/
def giveCodec (p : Prog (CPtr × Walk)) : Prog (List V × Walk) := p.bind fun r => .ret ([.codec r.1], r.2)

theorem run_splitFields (C : Ctx) (s : Text) (w : Walk) :
    runFunc C D src_splitFields [.str s] w = .ret ([.strs (splitFields s)], w) := by krefl

/-! ### struct tags -/

/-- The condition, body and last statement of a loop; the body of a loop over values. -/
def loopBody : Stmt → Stmt
  | .loop _ _ _ b => b
  | .range _ _ _ b => b
  | .seq a b => match loopBody a with | .skip => loopBody b | s => s
  | _ => .skip

def tagResult (r : StructTag × Bool) : List V := [.stag r.1, if r.2 then .err else .nil]

def tagStep (C : Ctx) (D : Decls) : Nat → V → Vars → M (Flow × Vars) := fun i x => inBlock fun vars =>
  exec C D t!"parseStructTag" (loopBody src_parseStructTag.body) (declareUnless t!"f" x (declareUnless t!"i" (.num i) vars))

def stepTag (atoi : Text → Option Int) (i : Nat) (t : StructTag) (f : Text) : Option StructTag :=
  match i with
  | 0 => parseWireType t f
  | 1 => match atoi f with | some n => some { t with fieldNumber := BitVec.ofInt 64 n } | none => none
  | 2 => parseOption t f
  | _ => some t

theorem parse_step (tag : Text) (w : Walk) (i : Nat) (f : Text) (t : StructTag) :
    tagStep ⟨call, loop, range, body, atoi⟩ D i (.str f) [[(t!"t", .stag t), (t!"tag", .str tag)]] w =
      match stepTag atoi i t f with
      | some t => .ret ((.next, [[(t!"t", .stag t), (t!"tag", .str tag)]]), w)
      | none => .ret ((.ret [.stag t, .err], [[(t!"t", .stag t), (t!"tag", .str tag)]]), w) := by
  rcases t with ⟨a, b, c, d⟩
  match i with
  | 0 =>
    by_cases h1 : f = t!"varint"
    · subst h1; krefl
    by_cases h2 : f = t!"bytes"
    · subst h2; krefl
    by_cases h3 : f = t!"fixed32"
    · subst h3; krefl
    by_cases h4 : f = t!"fixed64"
    · subst h4; krefl
    by_cases h5 : f = t!"zigzag32"
    · subst h5; krefl
    by_cases h6 : f = t!"zigzag64"
    · subst h6; krefl
    kdone
  | 1 => 
    ksplit x h
    cases x with
    | none => kdone
    | some n => kdone
  | 2 =>
    by_cases h1 : f = t!"opt"
    · subst h1; krefl
    by_cases h2 : f = t!"rep"
    · subst h2; krefl
    kdone
  | i + 3 => 
    krefl

theorem parse_loop (tag : Text) (w : Walk) : ∀ (fs : List Text) (i : Nat) (t : StructTag),
    rangeOver (tagStep ⟨call, loop, range, body, Pb.atoi⟩ D) i (fs.map .str) [[(t!"t", .stag t), (t!"tag", .str tag)]] w =
      .ret ((if (parseFields i t fs).2 then .ret (tagResult (parseFields i t fs)) else .next,
        [[(t!"t", .stag (parseFields i t fs).1), (t!"tag", .str tag)]]), w) := by
  intro fs
  induction fs with
  | nil => intro i t; rfl
  | cons f fs ih =>
    intro i t
    show Prog.bind (tagStep ⟨call, loop, range, body, Pb.atoi⟩ D i (.str f) _ w) _ = _
    rw [parse_step]
    match i with
    | 0 =>
      simp only [stepTag, parseFields]
      cases parseWireType t f with
      | none => rfl
      | some t => exact ih 1 t
    | 1 =>
      simp only [stepTag, parseFields]
      cases Pb.atoi f with
      | none => rfl
      | some n => exact ih 2 _
    | 2 =>
      simp only [stepTag, parseFields]
      cases parseOption t f with
      | none => rfl
      | some t => exact ih 3 t
    | i + 3 => exact ih (i + 4) t

theorem run_parseStructTag (s : Text) (w : Walk) (hr : range = rangeOver)
    (hs : ∀ s w, call t!"splitFields" [.str s] w = .ret ([.strs (splitFields s)], w)) :
    runFunc ⟨call, loop, range, body, Pb.atoi⟩ D src_parseStructTag [.str s] w = .ret (tagResult (parseStructTag s), w) := by
  have h : range (tagStep ⟨call, loop, range, body, Pb.atoi⟩ D) 0 ((splitFields s).map .str) [[(t!"t", .stag {}), (t!"tag", .str s)]] w =
      .ret ((if (parseFields 0 {} (splitFields s)).2 then .ret (tagResult (parseFields 0 {} (splitFields s))) else .next,
        [[(t!"t", .stag (parseFields 0 {} (splitFields s)).1), (t!"tag", .str s)]]), w) := by
    rw [show range (tagStep ⟨call, loop, range, body, Pb.atoi⟩ D) = rangeOver (tagStep ⟨call, loop, range, body, Pb.atoi⟩ D) from congrFun hr _]
    exact parse_loop s w (splitFields s) 0 {}
  rw [parseStructTag]
  generalize parseFields 0 {} (splitFields s) = r at h ⊢
  obtain ⟨t, e⟩ := r
  kcall (hs s w)
  kcall h
  cases e
  · krefl
  · krefl

/-! ### base types -/

def loopCond : Stmt → Expr
  | .loop _ c _ _ => c
  | .seq a b => match loopCond a with | .none => loopCond b | s => s
  | _ => .none

def ptrDepth : GoType → Nat
  | .ptr t => ptrDepth t + 1
  | _ => 0

theorem base_loop (C : Ctx) (w : Walk) : ∀ (t : GoType) (n : Nat), ptrDepth t < n →
    iterate (fun vars => (eval C D t!"baseTypeOf" vars (loopCond src_baseTypeOf.body)).bind truth)
      (inBlock (exec C D t!"baseTypeOf" (loopBody src_baseTypeOf.body))) (exec C D t!"baseTypeOf" .skip) n [[], [(t!"t", .type (.ty t))]] w =
      .ret ((.next, [[], [(t!"t", .type (.ty (baseTypeOf t)))]]), w) := by
  intro t n hn
  obtain ⟨n, rfl⟩ : ∃ m, n = m + 1 := ⟨n - 1, by omega⟩
  induction t generalizing n with
  | ptr t ih =>
    simp only [ptrDepth] at hn
    obtain ⟨n, rfl⟩ : ∃ m, n = m + 1 := ⟨n - 1, by omega⟩
    kexact (ih n (by omega))
  | _ => krefl

theorem run_baseTypeOf (t : GoType) (w : Walk) (n : Nat) (hl : loop = fun c b p => iterate c b p n) (hn : ptrDepth t < n) :
    runFunc ⟨call, loop, range, body, atoi⟩ D src_baseTypeOf [.type (.ty t)] w = .ret ([.type (.ty (baseTypeOf t))], w) := by
  have h := base_loop (D := D) ⟨call, loop, range, body, atoi⟩ w t n hn
  have h' := fun c b p vars => congrFun (congrFun (congrFun (congrFun (congrFun hl c) b) p) vars) w
  kcall ((h' _ _ _ _).trans h)
  krefl

theorem run_baseTypeOf_opt (b : OptBase) (w : Walk) (n : Nat) (hl : loop = fun c b p => iterate c b p n) (hn : 0 < n) :
    runFunc ⟨call, loop, range, body, atoi⟩ D src_baseTypeOf [.type (.opt b)] w = .ret ([.type (.opt b)], w) := by
  subst hl
  obtain ⟨n, rfl⟩ : ∃ m, n = m + 1 := ⟨n - 1, by omega⟩
  krefl

/-- The kind of the base type of the type of a field. -/
def baseRT : FieldType → RT
  | .opt b => .opt b
  | .ty t => .ty (baseTypeOf t)

theorem run_baseKindOf (t u : RT) (w : Walk) (hb : ∀ w, call t!"baseTypeOf" [.type t] w = .ret ([.type u], w)) :
    runFunc ⟨call, loop, range, body, atoi⟩ D src_baseKindOf [.type t] w = .ret ([.kind (kindOf u)], w) := by
  kcall (hb w)
  krefl

/-! ### codecs of pointers, slices and maps -/

theorem run_pointerSize (t : RT) (c : CPtr) (w : Walk) (C : Ctx) :
    runFunc C D src_pointerSizeFuncOf [.type t, .codec c] w =
      .ret ([.clo t!"pointerSizeFuncOf#" [[(t!"_", .type t), (t!"c", .codec c)]]], w) := by krefl

theorem run_pointerEncode (t : RT) (c : CPtr) (w : Walk) (C : Ctx) :
    runFunc C D src_pointerEncodeFuncOf [.type t, .codec c] w =
      .ret ([.clo t!"pointerEncodeFuncOf#" [[(t!"_", .type t), (t!"c", .codec c)]]], w) := by krefl

theorem run_pointerDecode (t : GoType) (c : CPtr) (w : Walk) (C : Ctx) :
    runFunc C D src_pointerDecodeFuncOf [.type (.ty (.ptr t)), .codec c] w =
      .ret ([.clo t!"pointerDecodeFuncOf#" [[(t!"t", .type (.ty t)), (t!"c", .codec c)]]], w) := by krefl

theorem body_pointer (t : GoType) (c : CPtr) :
    bodyOf (.clo t!"pointerSizeFuncOf#" [[(t!"_", .type (.ty (.ptr t))), (t!"c", .codec c)]])
      (.clo t!"pointerEncodeFuncOf#" [[(t!"_", .type (.ty (.ptr t))), (t!"c", .codec c)]])
      (.clo t!"pointerDecodeFuncOf#" [[(t!"t", .type (.ty t)), (t!"c", .codec c)]]) = some (.ptr (zeroOf t) c) := by
  have h : c = c ∧ c = c := ⟨rfl, rfl⟩
  kdone

/-- The functions of a codec for pointers, as calls give them. -/
def GivesPointers (call : Calls) : Prop :=
  (∀ t c w, call t!"pointerSizeFuncOf" [.type t, .codec c] w =
      .ret ([.clo t!"pointerSizeFuncOf#" [[(t!"_", .type t), (t!"c", .codec c)]]], w)) ∧
  (∀ t c w, call t!"pointerEncodeFuncOf" [.type t, .codec c] w =
      .ret ([.clo t!"pointerEncodeFuncOf#" [[(t!"_", .type t), (t!"c", .codec c)]]], w)) ∧
  (∀ t c w, call t!"pointerDecodeFuncOf" [.type (.ty (.ptr t)), .codec c] w =
      .ret ([.clo t!"pointerDecodeFuncOf#" [[(t!"t", .type (.ty t)), (t!"c", .codec c)]]], w))

theorem run_sliceSize (t elem : GoType) (h : t = .slice elem ∨ t = .ptr elem) (c : CPtr) (w : Walk) (C : Ctx) :
    runFunc C D src_sliceSizeFuncOf [.type (.ty t), .codec c] w =
      .ret ([.clo t!"sliceSizeFuncOf#" [[(t!"elemSize", .size (.ty elem)), (t!"t", .type (.ty t)), (t!"c", .codec c)]]], w) := by
  rcases h with rfl | rfl <;> krefl

theorem run_sliceEncode (t elem : GoType) (h : t = .slice elem ∨ t = .ptr elem) (c : CPtr) (w : Walk) (C : Ctx) :
    runFunc C D src_sliceEncodeFuncOf [.type (.ty t), .codec c] w =
      .ret ([.clo t!"sliceEncodeFuncOf#" [[(t!"elemSize", .size (.ty elem)), (t!"t", .type (.ty t)), (t!"c", .codec c)]]], w) := by
  rcases h with rfl | rfl <;> krefl

theorem run_sliceDecode (t elem : GoType) (h : t = .slice elem ∨ t = .ptr elem) (c : CPtr) (w : Walk) (C : Ctx) :
    runFunc C D src_sliceDecodeFuncOf [.type (.ty t), .codec c] w =
      .ret ([.clo t!"sliceDecodeFuncOf#" [[(t!"elemSize", .size (.ty elem)), (t!"elemType", .type (.ty elem)), (t!"t", .type (.ty t)),
        (t!"c", .codec c)]]], w) := by
  rcases h with rfl | rfl <;> krefl

/-- The functions of a codec for slices, as calls give them. -/
def GivesSlices (call : Calls) : Prop := ∀ t elem, (t = .slice elem ∨ t = .ptr elem) → ∀ c w,
  call t!"sliceSizeFuncOf" [.type (.ty t), .codec c] w =
      .ret ([.clo t!"sliceSizeFuncOf#" [[(t!"elemSize", .size (.ty elem)), (t!"t", .type (.ty t)), (t!"c", .codec c)]]], w) ∧
  call t!"sliceEncodeFuncOf" [.type (.ty t), .codec c] w =
      .ret ([.clo t!"sliceEncodeFuncOf#" [[(t!"elemSize", .size (.ty elem)), (t!"t", .type (.ty t)), (t!"c", .codec c)]]], w) ∧
  call t!"sliceDecodeFuncOf" [.type (.ty t), .codec c] w =
      .ret ([.clo t!"sliceDecodeFuncOf#" [[(t!"elemSize", .size (.ty elem)), (t!"elemType", .type (.ty elem)), (t!"t", .type (.ty t)),
        (t!"c", .codec c)]]], w)

theorem body_slice (t elem : GoType) (c : CPtr) :
    bodyOf (.clo t!"sliceSizeFuncOf#" [[(t!"elemSize", .size (.ty elem)), (t!"t", .type (.ty t)), (t!"c", .codec c)]])
      (.clo t!"sliceEncodeFuncOf#" [[(t!"elemSize", .size (.ty elem)), (t!"t", .type (.ty t)), (t!"c", .codec c)]])
      (.clo t!"sliceDecodeFuncOf#" [[(t!"elemSize", .size (.ty elem)), (t!"elemType", .type (.ty elem)), (t!"t", .type (.ty t)),
        (t!"c", .codec c)]]) = some (.slice (zeroOf elem) c) := by
  have h : c = c ∧ c = c ∧ some (RT.ty elem) = some (.ty elem) ∧ some (RT.ty elem) = some (.ty elem) ∧ some (RT.ty elem) = some (.ty elem) :=
    ⟨rfl, rfl, rfl, rfl, rfl⟩
  kdone

theorem run_sliceCodecOf (t elem : GoType) (ht : t = .slice elem ∨ t = .ptr elem) (c : CPtr) (w : Walk) (hb : body = bodyOf)
    (hc : GivesSlices call) :
    runFunc ⟨call, loop, range, body, atoi⟩ D src_sliceCodecOf [.type (.ty t), .codec c, .walker] w =
      giveCodec (Cache.sliceCodecP t (zeroOf elem) c w) := by
  kgo
  refine congrArg _ (funext fun (r : Option CPtr) => ?_)
  cases r with
  | some s => krefl
  | none =>
    obtain ⟨cs, is⟩ := w
    ksplit x h
    cases x with
    | some s => kdone
    | none =>
      kgo
      refine congrArg _ (funext fun (s : Nat) => ?_)
      kcall ((hc t elem ht c _).1)
      kcall ((hc t elem ht c _).2.1)
      kcall ((hc t elem ht c _).2.2)
      kcall ((congrFun (congrFun (congrFun hb _) _) _).trans (body_slice t elem c))
      krefl
/-! ### maps -/

/-- A struct type as a value. -/
def rtOf : InfoKey → RT
  | .named t => .ty (.named t)
  | .anon d => .anon d

def giveInfo (p : Prog (Nat × Walk)) : Prog (List V × Walk) := p.bind fun r => .ret ([.info r.1], r.2)

/-- `structInfo` does this, for these types. -/
def GivesInfo (call : Calls) (rec : InfoKey → Cache.WProg Nat) (ok : InfoKey → Prop) : Prop :=
  ∀ key, ok key → ∀ w, call t!"structInfo" [.walker, .type (rtOf key)] w = giveInfo (rec key w)

def mapV (wt : U64) (k v : FTag × CPtr) : V := .mf wt (some k) (some v)

def mapSizeV (t : GoType) (wt : U64) (k v : FTag × CPtr) : V :=
  .clo t!"mapSizeFuncOf#" [[(t!"valCodec", .codec v.2), (t!"keyCodec", .codec k.2), (t!"mapTagSize", .num (sizeOfVarint wt)),
    (t!"t", .type (.ty t)), (t!"f", mapV wt k v)]]

def mapEncodeV (t : GoType) (wt : U64) (k v : FTag × CPtr) : V :=
  .clo t!"mapEncodeFuncOf#" [[(t!"valCodec", .codec v.2), (t!"keyCodec", .codec k.2), (t!"zero", .bytes (appendVarint [] wt ++ [0#8])),
    (t!"mapTag", .bytes (appendVarint [] wt)), (t!"t", .type (.ty t)), (t!"f", mapV wt k v)]]

def mapDecodeV (a b : GoType) (wt : U64) (k v : FTag × CPtr) (i : Nat) : V :=
  .clo t!"mapDecodeFuncOf#" [[(t!"vtype", .type (.ty b)), (t!"stype", .type (.anon (Cache.entryDecl a b k.1.wiretag v.1.wiretag))),
    (t!"mtype", .type (.ty (.map a b))), (t!"valueOffset", .offset 1), (t!"valueType", .type (.ty b)), (t!"structZero", .other),
    (t!"structPool", .other), (t!"info", .info i), (t!"structType", .type (.anon (Cache.entryDecl a b k.1.wiretag v.1.wiretag))),
    (t!"t", .type (.ty (.map a b))), (t!"m", mapV wt k v), (t!"w", .walker)]]

theorem run_mapSize (t : GoType) (wt : U64) (k v : FTag × CPtr) (w : Walk) (C : Ctx) :
    runFunc C D src_mapSizeFuncOf [.type (.ty t), mapV wt k v] w = .ret ([mapSizeV t wt k v], w) := by krefl

theorem run_mapEncode (t : GoType) (wt : U64) (k v : FTag × CPtr) (w : Walk) (C : Ctx) :
    runFunc C D src_mapEncodeFuncOf [.type (.ty t), mapV wt k v] w = .ret ([mapEncodeV t wt k v], w) := by krefl

theorem run_mapDecode (a b : GoType) (wt : U64) (k v : FTag × CPtr) (w : Walk) (rec : InfoKey → Cache.WProg Nat) (ok : InfoKey → Prop)
    (hI : GivesInfo call rec ok) (ho : ok (.anon (Cache.entryDecl a b k.1.wiretag v.1.wiretag))) :
    runFunc ⟨call, loop, range, body, atoi⟩ D src_mapDecodeFuncOf [.type (.ty (.map a b)), mapV wt k v, .walker] w =
      (rec (.anon (Cache.entryDecl a b k.1.wiretag v.1.wiretag)) w).bind fun r => .ret ([mapDecodeV a b wt k v r.1], r.2) := by
  have hi := hI (.anon (Cache.entryDecl a b k.1.wiretag v.1.wiretag)) ho w
  kcall hi
  ksplit p hp
  kgo
  clear hp
  induction p with
  | ret a => krefl
  | panic => krefl
  | stuck => krefl
  | op o q ih => kexact (congrArg (Prog.op o) (funext fun r => ih r))

theorem body_map (a b : GoType) (wt : U64) (k v : FTag × CPtr) (i : Nat) :
    bodyOf (mapSizeV (.map a b) wt k v) (mapEncodeV (.map a b) wt k v) (mapDecodeV a b wt k v i) =
      some (.map { wiretag := wt, key := k.1, val := v.1, eKey := 0#64, eVal := 0#64, kzero := zeroOf a, vzero := zeroOf b } k.2 v.2 i) := by
  have h : wt = wt ∧ k = k ∧ v = v ∧ GoType.map a b = .map a b ∧ GoType.map a b = .map a b ∧ some k.2 = some k.2 ∧
      some k.2 = some k.2 ∧ some v.2 = some v.2 ∧ some v.2 = some v.2 := ⟨rfl, rfl, rfl, rfl, rfl, rfl, rfl, rfl, rfl⟩
  have h' : sizeOfVarint wt = sizeOfVarint wt ∧ appendVarint [] wt = appendVarint [] wt ∧
    appendVarint [] wt ++ [0#8] = appendVarint [] wt ++ [0#8] ∧ RT.ty b = .ty b := ⟨rfl, rfl, rfl, rfl⟩
  kdone

/-- The part of `tyCodecP` that is `mapCodec`. -/
def mapCodecP (rec : InfoKey → Cache.WProg Nat) (a b : GoType) (wt : U64) (k v : FTag × CPtr) : Cache.WProg CPtr := fun w =>
  .op .newCodec fun m =>
    (rec (.anon (Cache.entryDecl a b k.1.wiretag v.1.wiretag)) (w.setCodec (.map a b) (.heap m))).bind fun r =>
      .op (.setCodec m (.map { wiretag := wt, key := k.1, val := v.1, eKey := 0#64, eVal := 0#64, kzero := zeroOf a, vzero := zeroOf b }
        k.2 v.2 r.1)) fun _ => .ret (.heap m, r.2)

theorem run_mapCodec (a b : GoType) (wt : U64) (k v : FTag × CPtr) (w : Walk) (rec : InfoKey → Cache.WProg Nat) (hb : body = bodyOf)
    (h1 : ∀ w, call t!"mapSizeFuncOf" [.type (.ty (.map a b)), mapV wt k v] w = .ret ([mapSizeV (.map a b) wt k v], w))
    (h2 : ∀ w, call t!"mapEncodeFuncOf" [.type (.ty (.map a b)), mapV wt k v] w = .ret ([mapEncodeV (.map a b) wt k v], w))
    (h3 : ∀ w, call t!"mapDecodeFuncOf" [.type (.ty (.map a b)), mapV wt k v, .walker] w =
      (rec (.anon (Cache.entryDecl a b k.1.wiretag v.1.wiretag)) w).bind fun r => .ret ([mapDecodeV a b wt k v r.1], r.2)) :
    runFunc ⟨call, loop, range, body, atoi⟩ D src_mapCodec [.walker, .type (.ty (.map a b)), mapV wt k v] w =
      giveCodec (mapCodecP rec a b wt k v w) := by
  kgo
  refine congrArg _ (funext fun (m : Nat) => ?_)
  kcall (h1 _)
  kcall (h2 _)
  kcall (h3 _)
  ksplit p hp
  kgo
  clear hp
  induction p with
  | ret r =>
    kcall ((congrFun (congrFun (congrFun hb _) _) _).trans (body_map a b wt k v r.1))
    krefl
  | panic => krefl
  | stuck => krefl
  | op o q ih => kexact (congrArg (Prog.op o) (funext fun r => ih r))

/-! ### messages and pointers -/

def structV (f : Text) (t : TypeId) (m i : Nat) (s e : Option V) : V :=
  .clo f [[(t!"info", .info i), (t!"elem", .type (.ty (.named t))), (t!"c", .fresh m s e), (t!"w", .walker), (t!"t", .type (.ty (.ptr (.named t))))]]

theorem body_struct (t : TypeId) (m i : Nat) :
    bodyOf (structV t!"structCodec#" t m i none none)
      (structV t!"structCodec##" t m i (some (structV t!"structCodec#" t m i none none)) none)
      (structV t!"structCodec###" t m i (some (structV t!"structCodec#" t m i none none))
        (some (structV t!"structCodec##" t m i (some (structV t!"structCodec#" t m i none none)) none))) = some (.msg t i) := by
  have h : i = i ∧ i = i := ⟨rfl, rfl⟩
  kdone

theorem run_structCodec (t : TypeId) (w : Walk) (rec : InfoKey → Cache.WProg Nat) (ok : InfoKey → Prop) (hb : body = bodyOf)
    (hI : GivesInfo call rec ok) (ho : ok (.named t)) :
    runFunc ⟨call, loop, range, body, atoi⟩ D src_structCodec [.walker, .type (.ty (.ptr (.named t)))] w =
      giveCodec (Cache.structCodecP rec t w) := by
  kgo
  refine congrArg _ (funext fun (r : Option CPtr) => ?_)
  cases r with
  | some s => krefl
  | none =>
    obtain ⟨cs, is⟩ := w
    ksplit x h
    cases x with
    | some s => kdone
    | none =>
      kgo
      refine congrArg _ (funext fun (m : Nat) => ?_)
      kcall (hI (.named t) ho _)
      ksplit p hp
      kgo
      clear hp
      induction p with
      | ret a =>
        kcall ((congrFun (congrFun (congrFun hb _) _) _).trans (body_struct t m a.1))
        krefl
      | panic => krefl
      | stuck => krefl
      | op o q ih => kexact (congrArg (Prog.op o) (funext fun r => ih r))

/-- A struct type that is no pointer: a codec is allocated before the panic. -/
theorem run_structCodec_value (t : RT) (w : Walk) (ht : (∃ i, t = .ty (.named i)) ∨ ∃ b, t = .opt b) :
    runFunc ⟨call, loop, range, body, atoi⟩ D src_structCodec [.walker, .type t] w =
      match (match t with | .ty t => w.codecs t | _ => none) with
      | some c => .ret ([.codec c], w)
      | none => .op .newCodec fun _ => .panic := by
  obtain ⟨cs, is⟩ := w
  rcases ht with ⟨i, rfl⟩ | ⟨b, rfl⟩
  · ksplit x h
    cases x with
    | some s => kdone
    | none => kdone
  · krefl

/-- The part of `wCodecP` that is `pointer`. -/
def pointerP (rec : InfoKey → Cache.WProg Nat) (conf : Conf) (t : GoType) : Cache.WProg CPtr := fun w =>
  match t with
  | .named t => Cache.structCodecP rec t w
  | t => .op .newCodec fun p =>
    (Cache.wCodecP rec conf t (w.setCodec (.ptr t) (.heap p))).bind fun r => .op (.setCodec p (.ptr (zeroOf t) r.1)) fun _ => .ret (.heap p, r.2)

theorem wCodecP_ptr (rec : InfoKey → Cache.WProg Nat) (conf : Conf) (t : GoType) (w : Walk) :
    Cache.wCodecP rec conf (.ptr t) w = match w.codecs (.ptr t) with | some c => .ret (c, w) | none => pointerP rec conf t w := by
  obtain ⟨cs, is⟩ := w
  cases t <;> (ksplit x h; cases x <;> kdone)

theorem run_pointer_named (i : TypeId) (conf : Conf) (w : Walk) (rec : InfoKey → Cache.WProg Nat) 
    (hs : ∀ t w, call t!"structCodec" [.walker, .type (.ty (.ptr (.named t)))] w = giveCodec (Cache.structCodecP rec t w)) :
        runFunc ⟨call, loop, range, body, atoi⟩ D src_pointer [.walker, .type (.ty (.ptr (.named i))), .conf conf] w =
      giveCodec (pointerP rec conf (.named i) w) := by
    have h' := hs i w
    show _ = giveCodec (Cache.structCodecP rec i w)
    generalize Cache.structCodecP rec i w = p at h' ⊢
    kcall h'
    clear h'
    induction p with
    | ret a => krefl
    | panic => krefl
    | stuck => krefl
    | op o q ih => kexact (congrArg (Prog.op o) (funext fun r => ih r))
theorem run_pointer_common (t : GoType) (conf : Conf) (w : Walk)  (hb : body = bodyOf) (hp : GivesPointers call) (ht : ∀ i, t ≠ .named i) (q : Walk → Prog (CPtr × Walk)) (hq : ∀ w, call t!"codec" [.walker, .type (.ty t), .conf conf] w = giveCodec (q w)) :
        runFunc ⟨call, loop, range, body, atoi⟩ D src_pointer [.walker, .type (.ty (.ptr t)), .conf conf] w =
      giveCodec (.op .newCodec fun p => (q (w.setCodec (.ptr t) (.heap p))).bind fun r =>
        .op (.setCodec p (.ptr (zeroOf t) r.1)) fun _ => .ret (.heap p, r.2)) := by
      have hcl := fun c => body_pointer t c
      have hp1 := fun c w => hp.1 (.ty (.ptr t)) c w
      have hp2 := fun c w => hp.2.1 (.ty (.ptr t)) c w
      have hp3 := fun c w => hp.2.2 t c w
      cases t
      case named i => exact absurd rfl (ht i)
      all_goals
        kgo
        refine congrArg _ (funext fun (m : Nat) => ?_)
        kcall (hq _)
        ksplit p hp'
        kgo
        clear hp'
        induction p with
        | ret a =>
          kcall (hp1 a.1 _)
          kcall (hp2 a.1 _)
          kcall (hp3 a.1 _)
          kcall ((congrFun (congrFun (congrFun hb _) _) _).trans (hcl a.1))
          krefl
        | panic => krefl
        | stuck => krefl
        | op o q ih => kexact (congrArg (Prog.op o) (funext fun r => ih r))

theorem run_pointer (t : GoType) (conf : Conf) (w : Walk) (rec : InfoKey → Cache.WProg Nat) (hb : body = bodyOf) (hp : GivesPointers call)
    (hs : ∀ t w, call t!"structCodec" [.walker, .type (.ty (.ptr (.named t)))] w = giveCodec (Cache.structCodecP rec t w))
    (hc : ∀ w, (∀ i, t ≠ .named i) → call t!"codec" [.walker, .type (.ty t), .conf conf] w = giveCodec (Cache.wCodecP rec conf t w)) :
    runFunc ⟨call, loop, range, body, atoi⟩ D src_pointer [.walker, .type (.ty (.ptr t)), .conf conf] w =
      giveCodec (pointerP rec conf t w) := by
  by_cases h : ∃ i, t = .named i
  · obtain ⟨i, rfl⟩ := h
    exact run_pointer_named i conf w rec hs
  · have ht : ∀ i, t ≠ .named i := fun i e => h ⟨i, e⟩
    rw [run_pointer_common t conf w hb hp ht (Cache.wCodecP rec conf t) fun w => hc w ht]
    cases t
    case named i => exact absurd rfl (ht i)
    all_goals rfl

theorem required_scalar (t : GoType) (conf : Conf) (w : Walk) (hr : conf.required = true) (rec : InfoKey → Cache.WProg Nat)
    (ht : ∀ u, t ≠ .ptr u) :
    runFunc ⟨call, loop, range, body, atoi⟩ D src_required [.walker, .type (.ty t), .conf conf] w = giveCodec (Cache.wCodecP rec conf t w) := by
  obtain ⟨cs, is⟩ := w
  obtain ⟨z, q⟩ := conf
  cases (show q = true from hr)
  cases t
  case ptr t => exact absurd rfl (ht t)
  case slice t =>
    ksplit x h
    cases x with
    | some c => kdone
    | none => cases t <;> kdone
  case int32 => ksplit x h; cases x <;> cases z <;> kdone
  case int64 => ksplit x h; cases x <;> cases z <;> kdone
  all_goals (ksplit x h; cases x <;> kdone)

theorem run_required (t : GoType) (conf : Conf) (w : Walk) (hr : conf.required = true) (rec : InfoKey → Cache.WProg Nat)
    (hp : ∀ u w, t = .ptr u → call t!"pointer" [.walker, .type (.ty t), .conf conf] w = giveCodec (pointerP rec conf u w)) :
    runFunc ⟨call, loop, range, body, atoi⟩ D src_required [.walker, .type (.ty t), .conf conf] w = giveCodec (Cache.wCodecP rec conf t w) := by
  by_cases ht : ∃ u, t = .ptr u
  · obtain ⟨u, rfl⟩ := ht
    have h' := hp u w rfl
    rw [wCodecP_ptr]
    generalize pointerP rec conf u w = p at h' ⊢
    obtain ⟨cs, is⟩ := w
    ksplit x h
    cases x with
    | some c => kdone
    | none =>
      kgo
      clear h'
      induction p with
      | ret a => krefl
      | panic => krefl
      | stuck => krefl
      | op o q ih => kexact (congrArg (Prog.op o) (funext fun r => ih r))
  · exact required_scalar t conf w hr rec fun u h => ht ⟨u, h⟩

theorem codec_scalar (t : GoType) (conf : Conf) (w : Walk) (hr : conf.required = false) (rec : InfoKey → Cache.WProg Nat)
    (ht : ∀ u, t ≠ .ptr u) (hn : ∀ u, t ≠ .named u) :
    runFunc ⟨call, loop, range, body, atoi⟩ D src_codec [.walker, .type (.ty t), .conf conf] w = giveCodec (Cache.wCodecP rec conf t w) := by
  obtain ⟨cs, is⟩ := w
  obtain ⟨z, q⟩ := conf
  cases (show q = false from hr)
  cases t
  case ptr t => exact absurd rfl (ht t)
  case named t => exact absurd rfl (hn t)
  case slice t =>
    ksplit x h
    cases x with
    | some c => kdone
    | none => cases t <;> kdone
  case int32 => ksplit x h; cases x <;> cases z <;> kdone
  case int64 => ksplit x h; cases x <;> cases z <;> kdone
  all_goals (ksplit x h; cases x <;> kdone)

theorem codec_required (t : GoType) (conf : Conf) (w : Walk) (hr : conf.required = true) (q : Prog (CPtr × Walk))
    (hq : call t!"required" [.walker, .type (.ty t), .conf conf] w =
      giveCodec (match w.codecs t with | some c => .ret (c, w) | none => q)) :
    runFunc ⟨call, loop, range, body, atoi⟩ D src_codec [.walker, .type (.ty t), .conf conf] w =
      giveCodec (match w.codecs t with | some c => .ret (c, w) | none => q) := by
  obtain ⟨cs, is⟩ := w
  obtain ⟨z, r⟩ := conf
  cases (show r = true from hr)
  ksplit x h
  cases x with
  | some c => kdone
  | none =>
    kgo
    clear hq
    induction q with
    | ret a => krefl
    | panic => krefl
    | stuck => krefl
    | op o q ih => kexact (congrArg (Prog.op o) (funext fun r => ih r))

theorem wCodecP_found (rec : InfoKey → Cache.WProg Nat) (conf : Conf) (t : GoType) (w : Walk) :
    ∃ q, Cache.wCodecP rec conf t w = match w.codecs t with | some c => .ret (c, w) | none => q := by
  refine ⟨match w.codecs t with | some _ => .stuck | none => Cache.wCodecP rec conf t w, ?_⟩
  obtain ⟨cs, is⟩ := w
  cases hx : cs t with
  | none => simp only [hx]
  | some c => cases t <;> simp only [Cache.wCodecP, hx] <;> rfl

theorem run_codec (t : GoType) (conf : Conf) (w : Walk) (rec : InfoKey → Cache.WProg Nat) (hn : conf.required = false → ∀ u, t ≠ .named u)
    (hr : conf.required = true → call t!"required" [.walker, .type (.ty t), .conf conf] w = giveCodec (Cache.wCodecP rec conf t w))
    (hp : ∀ u w, t = .ptr u → call t!"pointer" [.walker, .type (.ty t), .conf conf] w = giveCodec (pointerP rec conf u w)) :
    runFunc ⟨call, loop, range, body, atoi⟩ D src_codec [.walker, .type (.ty t), .conf conf] w = giveCodec (Cache.wCodecP rec conf t w) := by
  cases hq : conf.required with
  | true =>
    obtain ⟨q, e⟩ := wCodecP_found rec conf t w
    have h := hr hq
    rw [e] at h ⊢
    exact codec_required t conf w hq q h
  | false =>
    by_cases ht : ∃ u, t = .ptr u
    · obtain ⟨u, rfl⟩ := ht
      have h' := hp u w rfl
      rw [wCodecP_ptr]
      generalize pointerP rec conf u w = p at h' ⊢
      obtain ⟨z, q⟩ := conf
      cases (show q = false from hq)
      obtain ⟨cs, is⟩ := w
      ksplit x h
      cases x with
      | some c => kdone
      | none =>
        kgo
        clear h'
        induction p with
        | ret a => krefl
        | panic => krefl
        | stuck => krefl
        | op o q ih => kexact (congrArg (Prog.op o) (funext fun r => ih r))
    · exact codec_scalar t conf w hq rec (fun u h => ht ⟨u, h⟩) (hn hq)

/-- A message that is no pointer, and an `Option` type `codec` is called for. -/
theorem run_codec_value (t : RT) (conf : Conf) (hq : conf.required = false) (w : Walk) (ht : (∃ i, t = .ty (.named i)) ∨ ∃ b, t = .opt b)
    (hs : call t!"structCodec" [.walker, .type t] w =
      match (match t with | .ty t => w.codecs t | _ => none) with
      | some c => .ret ([.codec c], w)
      | none => .op .newCodec fun _ => .panic) :
    runFunc ⟨call, loop, range, body, atoi⟩ D src_codec [.walker, .type t, .conf conf] w =
      match (match t with | .ty t => w.codecs t | _ => none) with
      | some c => .ret ([.codec c], w)
      | none => .op .newCodec fun _ => .panic := by
  obtain ⟨z, q⟩ := conf
  cases (show q = false from hq)
  obtain ⟨cs, is⟩ := w
  rcases ht with ⟨i, rfl⟩ | ⟨b, rfl⟩
  · ksplit x h
    cases x with
    | some s => kdone
    | none => kdone
  · kdone

/-! ### calls of the program -/

/-- The functions of type analysis, as their texts are read. -/
def analysis : List FuncDecl :=
  [src_codec, src_structCodec, src_baseKindOf, src_baseTypeOf, src_structInfo, src_pointer, src_required, src_pointerSizeFuncOf,
   src_pointerEncodeFuncOf, src_pointerDecodeFuncOf, src_sliceCodecOf, src_sliceSizeFuncOf, src_sliceEncodeFuncOf, src_sliceDecodeFuncOf,
   src_mapCodec, src_mapSizeFuncOf, src_mapEncodeFuncOf, src_mapDecodeFuncOf, src_parseStructTag, src_splitFields, src_cachedStructInfoOf]

variable {n : Nat} {I : List V → M (List V)}

/-- What a function of the program runs in, with calls nested at most so deep. -/
abbrev ctx (D : Decls) (n : Nat) (I : List V → M (List V)) (k : Nat) : Ctx :=
  ⟨invoke analysis D n I k, fun c b p => iterate c b p n, rangeOver, bodyOf, Pb.atoi⟩

theorem invoke_codec (k : Nat) (args : List V) (w : Walk) :
    invoke analysis D n I (k + 1) t!"codec" args w = runFunc (ctx D n I k) D src_codec args w := by krefl
theorem invoke_required (k : Nat) (args : List V) (w : Walk) :
    invoke analysis D n I (k + 1) t!"required" args w = runFunc (ctx D n I k) D src_required args w := by krefl
theorem invoke_pointer (k : Nat) (args : List V) (w : Walk) :
    invoke analysis D n I (k + 1) t!"pointer" args w = runFunc (ctx D n I k) D src_pointer args w := by krefl
theorem invoke_structCodec (k : Nat) (args : List V) (w : Walk) :
    invoke analysis D n I (k + 1) t!"structCodec" args w = runFunc (ctx D n I k) D src_structCodec args w := by krefl
theorem invoke_mapCodec (k : Nat) (args : List V) (w : Walk) :
    invoke analysis D n I (k + 1) t!"mapCodec" args w = runFunc (ctx D n I k) D src_mapCodec args w := by krefl
theorem invoke_mapSize (k : Nat) (args : List V) (w : Walk) :
    invoke analysis D n I (k + 1) t!"mapSizeFuncOf" args w = runFunc (ctx D n I k) D src_mapSizeFuncOf args w := by krefl
theorem invoke_mapEncode (k : Nat) (args : List V) (w : Walk) :
    invoke analysis D n I (k + 1) t!"mapEncodeFuncOf" args w = runFunc (ctx D n I k) D src_mapEncodeFuncOf args w := by krefl
theorem invoke_mapDecode (k : Nat) (args : List V) (w : Walk) :
    invoke analysis D n I (k + 1) t!"mapDecodeFuncOf" args w = runFunc (ctx D n I k) D src_mapDecodeFuncOf args w := by krefl
theorem invoke_sliceCodecOf (k : Nat) (args : List V) (w : Walk) :
    invoke analysis D n I (k + 1) t!"sliceCodecOf" args w = runFunc (ctx D n I k) D src_sliceCodecOf args w := by krefl
theorem invoke_parseStructTag (k : Nat) (args : List V) (w : Walk) :
    invoke analysis D n I (k + 1) t!"parseStructTag" args w = runFunc (ctx D n I k) D src_parseStructTag args w := by krefl
theorem invoke_splitFields (k : Nat) (args : List V) (w : Walk) :
    invoke analysis D n I (k + 1) t!"splitFields" args w = runFunc (ctx D n I k) D src_splitFields args w := by krefl
theorem invoke_baseTypeOf (k : Nat) (args : List V) (w : Walk) :
    invoke analysis D n I (k + 1) t!"baseTypeOf" args w = runFunc (ctx D n I k) D src_baseTypeOf args w := by krefl
theorem invoke_baseKindOf (k : Nat) (args : List V) (w : Walk) :
    invoke analysis D n I (k + 1) t!"baseKindOf" args w = runFunc (ctx D n I k) D src_baseKindOf args w := by krefl
theorem invoke_cachedStructInfoOf (k : Nat) (args : List V) (w : Walk) :
    invoke analysis D n I (k + 1) t!"cachedStructInfoOf" args w = runFunc (ctx D n I k) D src_cachedStructInfoOf args w := by krefl

theorem gives_pointers (k : Nat) : GivesPointers (invoke analysis D n I (k + 1)) := ⟨
  fun t c w => show runFunc (ctx D n I k) D src_pointerSizeFuncOf _ w = _ from run_pointerSize t c w _,
  fun t c w => show runFunc (ctx D n I k) D src_pointerEncodeFuncOf _ w = _ from run_pointerEncode t c w _,
  fun t c w => show runFunc (ctx D n I k) D src_pointerDecodeFuncOf _ w = _ from run_pointerDecode t c w _⟩

theorem gives_slices (k : Nat) : GivesSlices (invoke analysis D n I (k + 1)) := fun t elem h c w => ⟨
  show runFunc (ctx D n I k) D src_sliceSizeFuncOf _ w = _ from run_sliceSize t elem h c w _,
  show runFunc (ctx D n I k) D src_sliceEncodeFuncOf _ w = _ from run_sliceEncode t elem h c w _,
  show runFunc (ctx D n I k) D src_sliceDecodeFuncOf _ w = _ from run_sliceDecode t elem h c w _⟩

/-- `structInfo`, as it is given to calls, for these types. -/
def InfoIs (I : List V → M (List V)) (rec : InfoKey → Cache.WProg Nat) (ok : InfoKey → Prop) : Prop :=
  ∀ key, ok key → ∀ w, I [.walker, .type (rtOf key)] w = giveInfo (rec key w)

theorem gives_info (k : Nat) (rec : InfoKey → Cache.WProg Nat) (ok : InfoKey → Prop) (h : InfoIs I rec ok) :
    GivesInfo (invoke analysis D n I (k + 1)) rec ok :=
  fun key ho w => show I _ w = _ from h key ho w

theorem calls_codec (rec : InfoKey → Cache.WProg Nat) (ok : InfoKey → Prop) (h : InfoIs I rec ok) (ho : ∀ t, ok (.named t)) (t : GoType) : ∀ (k : Nat), 3 * ptrDepth t + 4 ≤ k →
    ∀ (conf : Conf) (w : Walk), (conf.required = false → ∀ u, t ≠ .named u) →
      invoke analysis D n I k t!"codec" [.walker, .type (.ty t), .conf conf] w = giveCodec (Cache.wCodecP rec conf t w) := by
  have point (t : GoType) (k : Nat) (conf : Conf) (w : Walk)
      (hc : ∀ w, (∀ i, t ≠ .named i) → invoke analysis D n I (k + 2) t!"codec" [.walker, .type (.ty t), .conf conf] w = giveCodec (Cache.wCodecP rec conf t w)) :
      invoke analysis D n I (k + 3) t!"pointer" [.walker, .type (.ty (.ptr t)), .conf conf] w = giveCodec (pointerP rec conf t w) := by
    rw [invoke_pointer]
    refine run_pointer t conf w rec rfl (gives_pointers (k + 1)) (fun t w => ?_) hc
    rw [invoke_structCodec]
    exact run_structCodec t w rec ok rfl (gives_info k rec ok h) (ho t)
  induction t with
  | ptr t ih =>
    intro k hk conf w _
    simp only [ptrDepth] at hk
    obtain ⟨k, rfl⟩ : ∃ m, k = m + 5 := ⟨k - 5, by omega⟩
    have hp (j : Nat) (hj : k + 1 ≤ j) (w) : invoke analysis D n I (j + 2) t!"pointer" [.walker, .type (.ty (.ptr t)), .conf conf] w =
        giveCodec (pointerP rec conf t w) := by
      obtain ⟨j, rfl⟩ : ∃ m, j = m + 1 := ⟨j - 1, by omega⟩
      exact point t j conf w fun w ht => ih (j + 2) (by omega) conf w fun _ => ht
    rw [invoke_codec]
    refine run_codec (.ptr t) conf w rec (fun _ u => by simp) (fun hr => ?_) (fun u w e => ?_)
    · rw [invoke_required]
      refine run_required (.ptr t) conf w hr rec fun u w e => ?_
      injection e with e
      subst e
      exact hp (k + 1) (by omega) w
    · injection e with e
      subst e
      exact hp (k + 2) (by omega) w
  | _ =>
    intro k hk conf w hn
    obtain ⟨k, rfl⟩ : ∃ m, k = m + 4 := ⟨k - 4, by omega⟩
    rw [invoke_codec]
    refine run_codec _ conf w rec hn (fun hr => ?_) (fun u w e => by cases e)
    rw [invoke_required]
    exact run_required _ conf w hr rec fun u w e => by cases e

theorem calls_codec_value (t : RT) (conf : Conf) (hq : conf.required = false) (k : Nat) (w : Walk)
    (ht : (∃ i, t = .ty (.named i)) ∨ ∃ b, t = .opt b) :
    invoke analysis D n I (k + 2) t!"codec" [.walker, .type t, .conf conf] w =
      match (match t with | .ty t => w.codecs t | _ => none) with
      | some c => .ret ([.codec c], w)
      | none => .op .newCodec fun _ => .panic := by
  rw [invoke_codec]
  refine run_codec_value t conf hq w ht ?_
  rw [invoke_structCodec]
  exact run_structCodec_value t w ht

theorem calls_slice (k : Nat) (t elem : GoType) (ht : t = .slice elem ∨ t = .ptr elem) (c : CPtr) (w : Walk) :
    invoke analysis D n I (k + 2) t!"sliceCodecOf" [.type (.ty t), .codec c, .walker] w = giveCodec (Cache.sliceCodecP t (zeroOf elem) c w) := by
  rw [invoke_sliceCodecOf]
  exact run_sliceCodecOf t elem ht c w rfl (gives_slices k)

theorem calls_map (rec : InfoKey → Cache.WProg Nat) (ok : InfoKey → Prop) (h : InfoIs I rec ok) (j : Nat) (a b : GoType) (wt : U64)
    (k v : FTag × CPtr) (w : Walk) (ho : ok (.anon (Cache.entryDecl a b k.1.wiretag v.1.wiretag))) :
    invoke analysis D n I (j + 3) t!"mapCodec" [.walker, .type (.ty (.map a b)), mapV wt k v] w = giveCodec (mapCodecP rec a b wt k v w) := by
  rw [invoke_mapCodec]
  refine run_mapCodec a b wt k v w rec rfl (fun w => ?_) (fun w => ?_) (fun w => ?_)
  · rw [invoke_mapSize]
    exact run_mapSize _ wt k v w _
  · rw [invoke_mapEncode]
    exact run_mapEncode _ wt k v w _
  · rw [invoke_mapDecode]
    exact run_mapDecode a b wt k v w rec ok (gives_info j rec ok h) ho

theorem calls_parse (k : Nat) (s : Text) (w : Walk) :
    invoke analysis D n I (k + 2) t!"parseStructTag" [.str s] w = .ret (tagResult (parseStructTag s), w) := by
  rw [invoke_parseStructTag]
  refine run_parseStructTag s w rfl fun s w => ?_
  rw [invoke_splitFields]
  exact run_splitFields _ s w

theorem calls_kind (k : Nat) (ty : FieldType) (w : Walk) (hn : ∀ t, ty = .ty t → ptrDepth t < n) (h0 : 0 < n) :
    invoke analysis D n I (k + 2) t!"baseKindOf" [.type (.ofField ty)] w = .ret ([.kind (kindOf (baseRT ty))], w) := by
  rw [invoke_baseKindOf]
  refine run_baseKindOf _ _ w fun w => ?_
  rw [invoke_baseTypeOf]
  cases ty with
  | ty t => exact run_baseTypeOf t w n rfl (hn t rfl)
  | opt b => exact run_baseTypeOf_opt b w n rfl h0

end Pb.Go.An
