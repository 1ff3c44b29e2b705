import Verif.Spec.GoExec
import Verif.Model.Source
/-
The program in the source files: the functions declared in the texts of `Model/Source`, as they are read.
-/
namespace Pb.Go

/-- The functions among declarations. -/
def funcsOf : List Decl → List FuncDecl
  | [] => []
  | .func f :: r => f :: funcsOf r
  | _ :: r => funcsOf r

/-- The texts that make up the program. -/
def sources : List Text :=
  [sizeGo, encodeGo, decodeGo, normalCodecGo, requiredCodecGo, optionCodecGo, isSomeGo, unsafePointerGo, structGo, derefGo,
   growSliceGo, fieldErrorGo]

/-- The declarations in texts, if all of them can be read. -/
def readAll : List Text → Option (List Decl)
  | [] => some []
  | t :: ts =>
    match parse t, readAll ts with
    | some ds, some es => some (ds ++ es)
    | _, _ => none

/-- The functions declared in the source files. -/
def program : List FuncDecl := funcsOf ((readAll sources).getD [])

/-! ### what the functions of the scalar codecs return -/

/-- The name of a scalar in the names of its functions (normal_codec.go). -/
def goName : Scalar → Text
  | .bool => t!"Bool" | .string => t!"String" | .float32 => t!"Float32" | .float64 => t!"Float64" | .int32 => t!"Int32"
  | .int64 => t!"Int64" | .uint32 => t!"Uint32" | .fixed32 => t!"Fixed32" | .uint64 => t!"Uint64" | .fixed64 => t!"Fixed64"
  | .zigzag32 => t!"Zigzag32" | .zigzag64 => t!"Zigzag64"

/-- The same in the names of its codecs. -/
def codecName : Scalar → Text
  | .bool => t!"bool" | .string => t!"string" | .float32 => t!"float32" | .float64 => t!"float64" | .int32 => t!"int32"
  | .int64 => t!"int64" | .uint32 => t!"uint32" | .fixed32 => t!"fixed32" | .uint64 => t!"uint64" | .fixed64 => t!"fixed64"
  | .zigzag32 => t!"zigzag32" | .zigzag64 => t!"zigzag64"

/-- What a size function returns: this number as an `int`, and the memory is as before. -/
def sizeOut (m : Val) (r : Except Fault Nat) : Except Fault (List V × Val) := r.map fun n => ([.int (BitVec.ofNat 64 n)], m)

/-- What an encode function returns. -/
def encodeOut (m : Val) (r : Except Fault Bytes) : Except Fault (List V × Val) := r.map fun b => ([.bytes (some b)], m)

/-- What a decode function returns and leaves behind at `p`; with an error, the number of bytes is not said. -/
def decodeOut (p : List Step) (m : Val) : Except Fault DRes → Except Fault (List V × Val) → Prop
  | .error e, out => out = .error e
  | .ok (.ok v n), out => out = (setPath v p m).map fun m => ([.int (BitVec.ofNat 64 n), .err none], m)
  | .ok (.err v e), out => ∃ n, out = (setPath v p m).map fun m => ([.int n, .err (some e)], m)

mutual
/-- The slices in it, other than those in maps, have capacities below 2^60. -/
def Small : Val → Prop
  | .opt _ v => Small v
  | .ptr v => Small v
  | .struct vs => Smalls vs
  | .slice _ es sp => es.length + sp.length < 2 ^ 60 ∧ Smalls es ∧ Smalls sp
  | _ => True
def Smalls : List Val → Prop
  | [] => True
  | v :: vs => Small v ∧ Smalls vs
end

/-- What `decodeVarint` and its like return. -/
def varintResult (r : U64 × Nat × Option Err) : List V := [.u64 r.1, .int (BitVec.ofNat 64 r.2.1), .err r.2.2]

/-- What `decodeVarlen` returns: the contents are nil with an error. -/
def varlenResult : Bytes × Nat × Option Err → List V
  | (_, n, some e) => [.bytes none, .int (BitVec.ofNat 64 n), .err (some e)]
  | (c, n, none) => [.bytes (some c), .int (BitVec.ofNat 64 n), .err none]

/-- The value a variable is declared with. -/
def varNamed (n : Text) : List Decl → Option Expr
  | [] => none
  | .var m e :: r => if m = n then some e else varNamed n r
  | _ :: r => varNamed n r

/-- `codec{size: a, encode: b, decode: c}` -/
def codecLit (a b c : Text) : Expr :=
  .lit (.ident t!"codec") (.arg (.kv (.ident t!"size") (.ident a)) (.arg (.kv (.ident t!"encode") (.ident b))
    (.arg (.kv (.ident t!"decode") (.ident c)) .none)))

/-! ### the function literals, and codecs as they call each other -/

/-- The variables the functions of a message type have from outside (walker.go:78-87): the type info and the struct type. -/
def msgVars (fs : List Field) (z : Val) : Vars := [(t!"info", .info fs), (t!"elem", .rtype z)]

/-- The variables the functions of a slice type have from outside (slice.go:31-63). -/
def sliceOuter (c : Codec) : Vars := [(t!"elemSize", .elemSize), (t!"c", .codec c)]

/-- The variables the size function of a map type has from outside (map.go:30-33). -/
def mapSizeOuter (i : MapInfo) (kc vc : Codec) : Vars :=
  [(t!"t", .rtype .nilp), (t!"f", .mapField i kc vc), (t!"mapTagSize", .int (BitVec.ofNat 64 (sizeOfVarint i.wiretag))), (t!"keyCodec", .codec kc),
    (t!"valCodec", .codec vc)]

/-- The variables the encode function of a map type has from outside (map.go:58-62). -/
def mapEncodeOuter (i : MapInfo) (kc vc : Codec) : Vars :=
  [(t!"t", .rtype .nilp), (t!"f", .mapField i kc vc), (t!"mapTag", .bytes (some (appendVarint [] i.wiretag))),
    (t!"zero", .bytes (some (appendVarint [] i.wiretag ++ [0#8]))), (t!"keyCodec", .codec kc), (t!"valCodec", .codec vc)]

/-- The fields of the struct type of map entries (map.go:100-103). -/
def entryFields (i : MapInfo) (kd vd : Codec) : List Field := [⟨0, ⟨i.eKey, 0⟩, kd⟩, ⟨1, ⟨i.eVal, 0⟩, vd⟩]

/-- The variables the decode function of a map type has from outside (map.go:99-115). A new struct, or one from the pool, is at `s`. -/
def mapDecodeOuter (i : MapInfo) (kd vd : Codec) (hit : Bool) (s : List Step) : Vars :=
  [(t!"structType", .fresh s), (t!"info", .info (entryFields i kd vd)), (t!"structPool", .pool (if hit then some s else none)),
    (t!"structZero", .newptr (.struct [i.kzero, i.vzero])), (t!"valueOffset", .off 1), (t!"mtype", .rtype i.vzero),
    (t!"stype", .rtype (.struct [i.kzero, i.vzero])), (t!"vtype", .rtype i.vzero)]

/-- The place of the map with these entries, and of an entry. -/
def mapPlace (p : List Step) : Option (List Step) := if p.getLast? = some .entries then some p.dropLast else none

/-- The entries with one for this key, which is new with the value `z` if there was none. -/
def touch (z : Val) (k : Key) (es : List (Key × Val)) : List (Key × Val) := if es.any (fun e => decide (e.1 = k)) then es else es ++ [(k, z)]

/-- The number of the entry with this key. -/
def entryOf (k : Key) (es : List (Key × Val)) : Nat := es.findIdx fun e => decide (e.1 = k)

/-- The map with the value `x` in entry `i`. -/
def setEntry (x : Val) (i : Nat) : Val → Except Fault Val
  | .map n es =>
    match es[i]? with
    | some e => .ok (.map n (es.set i (e.1, x)))
    | none => .error .confused
  | _ => .error .confused

/-- What a pointer points to. -/
def pointee (m : Val) : V → Except Fault Val
  | .ptr p _ => getPath p m
  | .newptr z => .ok z
  | _ => .error .confused

/-- Functions of runtime_reflect (map.go:15-25). `MapAssign(t, m, key)` gives a pointer to the value in the entry for the key; the key
is the first field of the struct its argument points to. `Assign(t, dst, src)` copies a value. -/
def runtimeCall (n : Text) (args : List V) (m : Val) : Except Fault (List V × Val) :=
  if n = t!"MakeMap" then .ok ([.newmap], m)
  else if n = t!"MapAssign" then
    match args with
    | [.rtype z, .ptr q _, s] => do
      match mapPlace q, ← pointee m s with
      | some p, .struct (k :: _) =>
        match k.toKey?, ← getPath p m with
        | some k, .map false es => do
          let m ← setPath (.map false (touch z k es)) p m
          .ok ([.ptr (q ++ [.entry (entryOf k (touch z k es))]) .uptr], m)
        | _, .map true _ => .error .panic
        | _, _ => .error .confused
      | _, _ => .error .confused
    | _ => .error .confused
  else if n = t!"Assign" then
    match args with
    | [.rtype _, .ptr q _, s] => do
      let x ← pointee m s
      match q.getLast? with
      | some (.entry i) =>
        match mapPlace q.dropLast with
        | some p => do
          let v ← setEntry x i (← getPath p m)
          .ok ([], ← setPath v p m)
        | none => .error .confused
      | _ => .ok ([], ← setPath x q m)
    | _ => .error .confused
  else .error .confused

/-- Call of the function literal in a text. -/
def runText (C : Calls) (d : Nat) (t : Text) (outer : Vars) (args : List V) (m : Val) : Except Fault (List V × Val) :=
  match parseClosure t with
  | some f => callClosure C d f outer args m
  | none => .error .confused

/-- `c.size(p, f)`: the size function that belongs to a codec. -/
def codecSizeGo (env : Env) (C : Calls) (d : Nat) (args : List V) (m : Val) : Codec → Except Fault (List V × Val)
  | .normal s => C none (t!"sizeOf" ++ goName s) args m
  | .required s => C none (t!"sizeOf" ++ goName s ++ t!"Required") args m
  | .option s => C none (t!"sizeOf" ++ goName s ++ t!"Option") args m
  | .bytes => C none t!"sizeOfBytes" args m
  | .ptr _ c => runText C d pointerSizeGo [(t!"c", .codec c)] args m
  | .msg t => runText C d messageSizeGo (msgVars (env t).fields (env t).zero) args m
  | .slice _ c => runText C d sliceSizeGo (sliceOuter c) args m
  | .map i kc vc _ _ => runText C d mapSizeGo (mapSizeOuter i kc vc) args m

/-- `c.encode(b, p, f)` -/
def codecEncodeGo (env : Env) (C : Calls) (d : Nat) (args : List V) (m : Val) : Codec → Except Fault (List V × Val)
  | .normal s => C none (t!"encode" ++ goName s) args m
  | .required s => C none (t!"encode" ++ goName s ++ t!"Required") args m
  | .option s => C none (t!"encode" ++ goName s ++ t!"Option") args m
  | .bytes => C none t!"encodeBytes" args m
  | .ptr _ c => runText C d pointerEncodeGo [(t!"c", .codec c)] args m
  | .msg t => runText C d messageEncodeGo (msgVars (env t).fields (env t).zero) args m
  | .slice _ c => runText C d sliceEncodeGo (sliceOuter c) args m
  | .map i kc vc _ _ => runText C d mapEncodeGo (mapEncodeOuter i kc vc) args m

/-- `c.decode(b, p)`. That of maps works on the memory and a struct for the entry beside it, which is from the pool, or new. -/
def codecDecodeGo (env : Env) (hit : List V → Val → Bool) (C : Calls) (d : Nat) (args : List V) (m : Val) : Codec → Except Fault (List V × Val)
  | .normal s => C none (t!"decode" ++ goName s) args m
  | .required s => C none (t!"decode" ++ goName s) args m
  | .option s => C none (t!"decode" ++ goName s ++ t!"Option") args m
  | .bytes => C none t!"decodeBytes" args m
  | .ptr z c => runText C d pointerDecodeGo [(t!"t", .rtype z), (t!"c", .codec c)] args m
  | .msg t => runText C d messageDecodeGo (msgVars (env t).fields (env t).zero) args m
  | .slice z c => runText C d sliceDecodeGo ((t!"elemType", .rtype z) :: sliceOuter c) args m
  | .map i _ _ kd vd =>
    match args with
    | [b, .ptr p t] =>
      match runText C d mapDecodeGo (mapDecodeOuter i kd vd (hit args m) [.slot 1]) [b, .ptr (.slot 0 :: p) t]
          (.struct [m, .struct [i.kzero, i.vzero]]) with
      | .ok (r, .struct [m, _]) => .ok (r, m)
      | .ok _ => .error .confused
      | .error e => .error e
    | _ => .error .confused

/-- Calls of functions of codecs, at most `j` inside each other; `d` bounds the number of iterations of loops. `hit` says when a pool has
something. -/
def codecs (env : Env) (hit : List V → Val → Bool) (d : Nat) : Nat → Calls
  | 0, _, _, _, _ => .error .depth
  | j + 1, some (.codec c), n, args, m =>
    if n = t!"size" then codecSizeGo env (invoke program (codecs env hit d j) d 6) d args m c
    else if n = t!"encode" then codecEncodeGo env (invoke program (codecs env hit d j) d 6) d args m c
    else if n = t!"decode" then codecDecodeGo env hit (invoke program (codecs env hit d j) d 6) d args m c
    else .error .confused
  | _ + 1, none, n, args, m => runtimeCall n args m
  | _, _, _, _, _ => .error .confused

/-- The method of the type info of a message type. -/
def runInfo (env : Env) (hit : List V → Val → Bool) (d j : Nat) (t : TypeId) (n : Text) (args : List V) (m : Val) : Except Fault (List V × Val) :=
  invoke program (codecs env hit d j) d 6 (some (.info (env t).fields)) n args m

/-! ### the exported functions -/

/-- The functions of proto.go: `Size`, `Marshal`, `Unmarshal` and `inspect`. (`pointer` is a builtin in `Spec/GoExec`.) -/
def apiProgram : List FuncDecl := funcsOf ((readAll [apiGo, inspectGo]).getD [])

/-- What proto.go calls: `cachedStructInfoOf` (proto.go:111-125; for what is not a struct, `NumField` panics) gives the type info
of a message type, the methods of which are run from their source text. -/
def apiCalls (env : Env) (hit : List V → Val → Bool) (d j : Nat) : Calls
  | none, n, args, m =>
    if n = t!"cachedStructInfoOf" then
      match args with
      | [.gotype (some (.struct t))] => .ok ([.info (env t).fields], m)
      | [.gotype (some _)] => .error .panic
      | _ => .error .confused
    else .error .confused
  | some (.info fs), n, args, m => invoke program (codecs env hit d j) d 6 (some (.info fs)) n args m
  | _, _, _, _ => .error .confused

/-- Call of an exported function. -/
def runApi (env : Env) (hit : List V → Val → Bool) (d j : Nat) (n : Text) (args : List V) (m : Val) : Except Fault (List V × Val) :=
  invoke apiProgram (apiCalls env hit d j) d 2 none n args m

/-- The argument `a` as an `interface{}` that is passed: its type, and its value or a pointer to it. A message is at the place `p` of
the memory. -/
def Passed (m : Val) : Arg → V → Prop
  | .nilIface, v => v = .iface none (.null .uptr)
  | .nonPtr, v => ∃ t w, v = .iface (some t) w ∧ t.kind ≠ 22#64 ∧ (w = .null .uptr ∨ ∃ p, w = .ptr p .uptr)
  | .ptrOther isNil, v => ∃ t w, v = .iface (some (.ptr t)) w ∧ t.kind ≠ 25#64 ∧
      (if isNil then w = .null .uptr else ∃ p, w = .ptr p .uptr)
  | .nilMsg t, v => v = .iface (some (.ptr (.struct t))) (.null .uptr)
  | .msg t x, v => ∃ p, v = .iface (some (.ptr (.struct t))) (.ptr p .uptr) ∧ Writable p ∧ getPath p m = .ok x

mutual
/-- The slices and maps in it have fewer than `d` elements, and nil maps have none. -/
def Below (d : Nat) : Val → Prop
  | .opt _ v => Below d v
  | .ptr v => Below d v
  | .struct vs => Belows d vs
  | .slice _ es _ => es.length < d ∧ Belows d es
  | .map isNil es => (isNil = true → es = []) ∧ es.length < d ∧ BelowMap d es
  | _ => True
def Belows (d : Nat) : List Val → Prop
  | [] => True
  | v :: vs => Below d v ∧ Belows d vs
def BelowMap (d : Nat) : List (Key × Val) → Prop
  | [] => True
  | e :: es => Below d e.2 ∧ BelowMap d es
end

/-- Codecs of map keys are those of scalars. -/
def ScalarKeys : Codec → Prop
  | .ptr _ c => ScalarKeys c
  | .slice _ c => ScalarKeys c
  | .map _ kc vc _ _ => (∃ s, kc = .normal s ∨ kc = .required s) ∧ ScalarKeys vc
  | _ => True

mutual
/-- The slices in it, other than those in maps, have at most `k` elements and room for `2 * k + 10`. -/
def Room (k : Nat) : Val → Prop
  | .opt _ v => Room k v
  | .ptr v => Room k v
  | .struct vs => Rooms k vs
  | .slice _ es sp => es.length ≤ k ∧ es.length + sp.length ≤ 2 * k + 10 ∧ Rooms k es ∧ Rooms k sp
  | _ => True
def Rooms (k : Nat) : List Val → Prop
  | [] => True
  | v :: vs => Room k v ∧ Rooms k vs
end

end Pb.Go
