import Verif.Proofs.GoFind
import Verif.Proofs.Wire
/-
Running functions of the source files, step by step; the wire functions (size.go, encode.go, decode.go).
-/
namespace Pb.Go
open Tree

set_option linter.unusedSimpArgs false

theorem inBlock_mk (body : State → Except Fault (Flow × State)) (vars : Vars) (k : Nat) (m : Val) :
    inBlock body ⟨vars, k, m⟩ = (body ⟨vars, 0, m⟩).bind fun r =>
      .ok (r.1, { r.2 with vars := r.2.vars.drop (r.2.vars.length - vars.length), block := k }) := rfl

/-- One run of a function: find it, and follow its statements. -/
macro "go_call" f:ident t:ident : tactic =>
  `(tactic| (rw [invoke]; simp only [Option.map, V.typeName, $f:ident]; unfold $t))

/-- Follow expressions and statements as far as they are known. -/
macro "go_run" "[" ts:Lean.Parser.Tactic.simpLemma,* "]" : tactic =>
  `(tactic| simp [callFunc, finish, bindRecv, bindParams, bindResults, returned, tyOf, assignable, V.ty, exec, exec.cases, caseHolds, inBlock_mk, eval, truth, argsOf,
      valuesOf, ofResults, deref, load, lookup, convert, intConv, widen, dotted, selV, addrOf, binOp, unOp, ofConst, sameOp, intOp, constOp,
      eqOp, shiftCount, shiftLeft, shiftRight, indexOf, indexV, sliceV, builtin, global, appendArgs, setVar, defaultV, defineVar, zeroV,
      assign1, assignList, defineList, store, loadPtr, stdMethod, methodCall, isBuiltin, structLit, keysOf, setLen, execExpr, bind, Except.bind, pure, Except.pure, Except.map, $ts,*])

/-- The same, with what is known. -/
macro "go_run!" "[" ts:Lean.Parser.Tactic.simpLemma,* "]" : tactic =>
  `(tactic| simp [callFunc, finish, bindRecv, bindParams, bindResults, returned, tyOf, assignable, V.ty, exec, exec.cases, caseHolds, inBlock_mk, eval, truth, argsOf,
      valuesOf, ofResults, deref, load, lookup, convert, intConv, widen, dotted, selV, addrOf, binOp, unOp, ofConst, sameOp, intOp, constOp,
      eqOp, shiftCount, shiftLeft, shiftRight, indexOf, indexV, sliceV, builtin, global, appendArgs, setVar, defaultV, defineVar, zeroV,
      assign1, assignList, defineList, store, loadPtr, stdMethod, methodCall, isBuiltin, structLit, keysOf, setLen, execExpr, bind, Except.bind, pure, Except.pure, Except.map, $ts,*, *])

variable {X : Calls} {d : Nat} (k : Nat) {m : Val}

theorem run_encodeZigZag64 (v : U64) :
    invoke library X d (k + 1) none t!"encodeZigZag64" [.i64 v] m = .ok ([.u64 (encodeZigZag64 v)], m) := by
  go_call find_encodeZigZag64 encode_encodeZigZag64
  go_run [encodeZigZag64]

theorem run_decodeZigZag64 (v : U64) :
    invoke library X d (k + 1) none t!"decodeZigZag64" [.u64 v] m = .ok ([.i64 (decodeZigZag64 v)], m) := by
  go_call find_decodeZigZag64 decode_decodeZigZag64
  go_run [decodeZigZag64]

theorem varint_div : ∀ n ≤ 64, (BitVec.setWidth 64 (9#32 * BitVec.ofNat 32 n + 64#32)).sdiv 64#64 = BitVec.ofNat 64 (9 * n / 64 + 1) := by
  decide +kernel

theorem run_sizeOfVarint (v : U64) :
    invoke library X d (k + 1) none t!"sizeOfVarint" [.u64 v] m = .ok ([.int (BitVec.ofNat 64 (sizeOfVarint v))], m) := by
  go_call find_sizeOfVarint size_sizeOfVarint
  have h := bitsLen64_le64 v
  go_run [sizeOfVarint]
  generalize bitsLen64 v = n at h ⊢
  revert n
  exact varint_div

theorem run_sizeOfVarlen (n : Nat) :
    invoke library X d (k + 2) none t!"sizeOfVarlen" [.int (BitVec.ofNat 64 n)] m = .ok ([.int (BitVec.ofNat 64 (sizeOfVarlen n))], m) := by
  go_call find_sizeOfVarlen size_sizeOfVarlen
  go_run [sizeOfVarlen, run_sizeOfVarint, BitVec.ofNat_add]

set_option maxHeartbeats 1000000 in
theorem run_appendVarint (b : Bytes) (v : U64) :
    invoke library X d (k + 1) none t!"appendVarint" [.bytes (some b), .u64 v] m = .ok ([.bytes (some (appendVarint b v))], m) := by
  go_call find_appendVarint encode_appendVarint
  unfold Pb.appendVarint
  repeat' split
  all_goals
    simp at *
    try simp only [← BitVec.not_lt] at *
    go_run! [contByte, lastByte]

theorem byte_of_wide (v : U32) (n : Nat) : BitVec.setWidth 8 (BitVec.setWidth 64 v >>> n) = BitVec.setWidth 8 (v >>> n) := by
  apply BitVec.eq_of_toNat_eq
  simp only [BitVec.toNat_setWidth, BitVec.toNat_ushiftRight]
  rw [Nat.mod_eq_of_lt (a := v.toNat) (by have := v.isLt; omega)]

theorem run_encodeLE32 (b : Bytes) (v : U32) :
    invoke library X d (k + 1) none t!"encodeLE32" [.bytes (some b), .u32 v] m = .ok ([.bytes (some (encodeLE32 b v))], m) := by
  go_call find_encodeLE32 encode_encodeLE32
  go_run [encodeLE32, byte_of_wide]

theorem run_encodeLE64 (b : Bytes) (v : U64) :
    invoke library X d (k + 1) none t!"encodeLE64" [.bytes (some b), .u64 v] m = .ok ([.bytes (some (encodeLE64 b v))], m) := by
  go_call find_encodeLE64 encode_encodeLE64
  go_run [encodeLE64]

theorem run_appendVarintZigZag (b : Bytes) (v : U64) :
    invoke library X d (k + 2) none t!"appendVarintZigZag" [.bytes (some b), .i64 v] m
      = .ok ([.bytes (some (appendVarintZigZag b v))], m) := by
  go_call find_appendVarintZigZag encode_appendVarintZigZag
  go_run [appendVarintZigZag, run_appendVarint, run_encodeZigZag64]

theorem run_appendTag (b : Bytes) (f t : U64) :
    invoke library X d (k + 2) none t!"appendTag" [.bytes (some b), .uint f, .uint t] m = .ok ([.bytes (some (appendTag b f t))], m) := by
  go_call find_appendTag encode_appendTag
  go_run [appendTag, run_appendVarint]

/-- The body of the loop of `decodeVarint`, and what follows the loop. -/
def varintBody : Stmt :=
  match decode_decodeVarint.body with
  | .seq _ (.seq _ (.seq _ (.seq (.range _ _ _ b) _))) => b
  | _ => .skip
def varintTail : Stmt :=
  match decode_decodeVarint.body with
  | .seq _ (.seq _ (.seq _ (.seq (.range _ _ _ _) r))) => r
  | _ => .skip

theorem slt_ofNat {a b : Nat} (ha : a < 2 ^ 63) (hb : b < 2 ^ 63) : (BitVec.ofNat 64 a).slt (BitVec.ofNat 64 b) = decide (a < b) := by
  rw [BitVec.slt_eq_ult_of_msb_eq, BitVec.ult_eq_decide]
  · simp only [BitVec.toNat_ofNat]; rw [Nat.mod_eq_of_lt (by omega), Nat.mod_eq_of_lt (by omega)]
  · rw [(BitVec.msb_eq_false_iff_two_mul_lt).2, (BitVec.msb_eq_false_iff_two_mul_lt).2] <;> simp <;> omega

theorem ofNat_inj {a b : Nat} (ha : a < 2 ^ 64) (hb : b < 2 ^ 64) : BitVec.ofNat 64 a = BitVec.ofNat 64 b ↔ a = b := by
  constructor
  · intro h
    have := congrArg BitVec.toNat h
    simp only [BitVec.toNat_ofNat] at this
    rwa [Nat.mod_eq_of_lt ha, Nat.mod_eq_of_lt hb] at this
  · intro h; rw [h]

/-- One iteration. -/
def varintStep (C : Calls) (d : Nat) (i c : V) : State → Except Fault (Flow × State) :=
  inBlock fun s => exec C d varintBody (rangeVar t!"c" c (rangeVar t!"i" i s))

/-- The variables of `decodeVarint` in the loop. -/
def varintState (b : Bytes) (m : Val) (x : U64) (s : Nat) : State :=
  ⟨[(t!"s", .uint (BitVec.ofNat 64 s)), (t!"x", .u64 x), (t!"b", .bytes (some b))], 3, m⟩

set_option maxHeartbeats 1000000 in
theorem varint_step {C : Calls} (b : Bytes) (x : U64) (s i : Nat) (c : Byte) (hi : i < 2 ^ 60) (hs : s = 7 * i) :
    varintStep C d (.int (BitVec.ofNat 64 i)) (.u8 c) (varintState b m x s) =
      if c < 0x80#8 then
        if i > 9 || (i == 9 && c > 1#8) then .ok (.ret [.const 0, .int (BitVec.ofNat 64 i), .err (some .varintOverflow)], varintState b m x s)
        else .ok (.ret [.u64 (x ||| (c.setWidth 64 <<< s)), .int (BitVec.ofNat 64 (i + 1)), .nil], varintState b m x s)
      else .ok (.next, varintState b m (x ||| ((c &&& 0x7f#8).setWidth 64 <<< s)) (s + 7)) := by
  have h9 : (9#64).slt (BitVec.ofNat 64 i) = decide (9 < i) := slt_ofNat (a := 9) (by decide) (by omega)
  have e9 : (BitVec.ofNat 64 i = 9#64) ↔ i = 9 := ofNat_inj (b := 9) (by omega) (by decide)
  have hs2 : s % 18446744073709551616 = s := Nat.mod_eq_of_lt (by omega)
  clear hs
  simp only [varintStep, varintState, varintBody, decode_decodeVarint]
  by_cases h : c < 0x80#8
  · by_cases h1 : 9 < i
    · go_run! [rangeVar]
    · by_cases h2 : i = 9
      · by_cases h3 : 1#8 < c
        · go_run! [rangeVar]
        · go_run! [rangeVar]
      · go_run! [rangeVar, BitVec.ofNat_add]
  · go_run! [rangeVar, BitVec.ofNat_add]

theorem varint_loop {C : Calls} (b : Bytes) : ∀ (cs : Bytes) (x : U64) (s i : Nat), i + cs.length = b.length → b.length < 2 ^ 60 → s = 7 * i →
    (∃ st vs, rangeBytes (varintStep C d) i cs (varintState b m x s) = .ok (.ret vs, st) ∧ st.mem = m ∧
      returned decode_decodeVarint.results vs = .ok (varintResult (decodeVarintLoop x s i cs))) ∨
    ∃ x' s', rangeBytes (varintStep C d) i cs (varintState b m x s) = .ok (.next, varintState b m x' s') ∧
      decodeVarintLoop x s i cs = (x', b.length, some .unexpectedEOF) := by
  intro cs
  induction cs with
  | nil =>
    intro x s i hl hb hs
    exact .inr ⟨x, s, rfl, by rw [← hl]; rfl⟩
  | cons c cs ih =>
    intro x s i hl hb hs
    simp only [List.length_cons] at hl
    rw [rangeBytes, varint_step b x s i c (by omega) hs, decodeVarintLoop]
    split
    · split
      · refine .inl ⟨_, _, rfl, rfl, ?_⟩
        simp only [decode_decodeVarint]
        go_run [varintResult]
      · refine .inl ⟨_, _, rfl, rfl, ?_⟩
        simp only [decode_decodeVarint]
        go_run [varintResult]
    · exact ih (x ||| ((c &&& 0x7f#8).setWidth 64 <<< s)) (s + 7) (i + 1) (by omega) hb (by omega)

theorem run_decodeVarint (b : Bytes) (hb : b.length < 2 ^ 60) :
    invoke library X d (k + 1) none t!"decodeVarint" [.bytes (some b)] m = .ok (varintResult (decodeVarint b), m) := by
  have hl := varint_loop (C := invoke library X d k) (d := d) (m := m) b b 0#64 0 0 (by omega) hb rfl
  rw [invoke]
  simp only [Option.map, find_decodeVarint]
  have hbody : decode_decodeVarint.body =
      .seq (.ite .skip (.bin .land (.bin .ne (.call (.ident t!"len") (.arg (.ident t!"b") .none)) (.num 0))
            (.bin .lt (.index (.ident t!"b") (.num 0)) (.num 128)))
          (.seq (.ret (.arg (.call (.ident t!"uint64") (.arg (.index (.ident t!"b") (.num 0)) .none))
            (.arg (.num 1) (.arg (.ident t!"nil") .none)))) .skip) .skip)
        (.seq (.var t!"x" (.ident t!"uint64")) (.seq (.var t!"s" (.ident t!"uint"))
          (.seq (.range t!"i" t!"c" (.ident t!"b") varintBody) varintTail))) := rfl
  have hp : decode_decodeVarint.params = [(t!"b", .un .sliceOf (.ident t!"byte"))] := rfl
  have hr : decode_decodeVarint.results = [(t!"", .ident t!"uint64"), (t!"", .ident t!"int"), (t!"", .ident t!"error")] := rfl
  have hv : decode_decodeVarint.recv = none := rfl
  simp only [callFunc, hbody, hp, hr, hv]
  have hstep : varintStep (invoke library X d k) d = fun i c => inBlock fun s =>
    exec (invoke library X d k) d varintBody (rangeVar t!"c" c (rangeVar t!"i" i s)) := rfl
  simp only [hstep, varintState, hr] at hl
  have ht : varintTail = .seq (.ret (.arg (.ident t!"x") (.arg (.call (.ident t!"len") (.arg (.ident t!"b") .none))
    (.arg (.sel (.ident t!"io") t!"ErrUnexpectedEOF") .none)))) .skip := rfl
  generalize varintBody = B at hl ⊢
  cases b with
  | nil => go_run [decodeVarint, decodeVarintLoop, varintResult, rangeBytes, ht]
  | cons c cs =>
    have hz : ¬ BitVec.ofNat 64 (cs.length + 1) = 0#64 :=
      fun h => absurd ((ofNat_inj (b := 0) (by simp at hb; omega) (by decide)).1 h) (by omega)
    unfold Pb.decodeVarint
    by_cases h : c < 0x80#8
    · go_run [varintResult, h, hz]
    · simp only [h, if_false]
      rcases hl with ⟨st, vs, h1, h2, h3⟩ | ⟨x', s', h1, h2⟩
      · go_run [h, hz, h1, h3, h2]
      · go_run [h, hz, h1, ht, varintResult, h2]

end Pb.Go
