import Verif.Proofs.SourceStruct
/-
Running decode of struct.go: the parts of its loop.
-/
namespace Pb.Go
open Tree

set_option linter.unusedSimpArgs false

variable {X : Calls} {d : Nat} (k : Nat) {m : Val}

/-- Follow expressions and statements as far as they are known; slicing is left to lemmas. -/
macro "go_step" "[" ts:Lean.Parser.Tactic.simpLemma,* "]" : tactic =>
  `(tactic| simp [exec, exec.cases, caseHolds, inBlock_mk, eval, truth, argsOf, tyOf, assignable, V.ty,
      valuesOf, ofResults, lookup, convert, intConv, widen, dotted, selV, binOp, unOp, ofConst, sameOp, intOp, constOp,
      eqOp, indexOf, indexV, builtin, global, setVar, defaultV, defineVar, zeroV,
      assign1, assignList, defineList, stdMethod, methodCall, isBuiltin, execExpr, bind, Except.bind, pure, Except.pure, Except.map, $ts,*])

theorem sle_ofNat {a b : Nat} (ha : a < 2 ^ 63) (hb : b < 2 ^ 63) : (BitVec.ofNat 64 a).sle (BitVec.ofNat 64 b) = decide (a ≤ b) := by
  rw [BitVec.sle_eq_not_slt, slt_ofNat hb ha]
  by_cases h : a ≤ b
  · simp [h, Nat.not_lt.2 h]
  · simp [h, Nat.lt_of_not_le h]

theorem msb_ofNat {a : Nat} (ha : a < 2 ^ 63) : (BitVec.ofNat 64 a).msb = false := by
  rw [BitVec.msb_eq_false_iff_two_mul_lt, BitVec.toNat_ofNat]; omega

theorem slice_from {b : Bytes} {i : Nat} (hb : b.length < 2 ^ 60) (hi : i ≤ b.length) :
    sliceV (.bytes (some b)) (.int (BitVec.ofNat 64 i)) (.tuple []) = .ok (.bytes (some (b.drop i))) := by
  have e1 : i % 18446744073709551616 = i := Nat.mod_eq_of_lt (by omega)
  simp [sliceV, indexOf, msb_ofNat (show i < 2 ^ 63 by omega), bind, Except.bind, e1, hi, Option.map]

theorem slice_to {b : Bytes} {i j : Nat} (hb : b.length < 2 ^ 60) (hi : i ≤ j) (hj : j ≤ b.length) :
    sliceV (.bytes (some b)) (.int (BitVec.ofNat 64 i)) (.int (BitVec.ofNat 64 j)) = .ok (.bytes (some ((b.take j).drop i))) := by
  have e1 : i % 18446744073709551616 = i := Nat.mod_eq_of_lt (by omega)
  have e2 : j % 18446744073709551616 = j := Nat.mod_eq_of_lt (by omega)
  simp [sliceV, indexOf, msb_ofNat (show i < 2 ^ 63 by omega), msb_ofNat (show j < 2 ^ 63 by omega), bind, Except.bind, e1, e2, hi, hj, Option.map]

theorem ofNat_sub {a b : Nat} (h : b ≤ a) (ha : a < 2 ^ 64) : BitVec.ofNat 64 a - BitVec.ofNat 64 b = BitVec.ofNat 64 (a - b) := by
  apply BitVec.eq_of_toNat_eq
  rw [BitVec.toNat_sub]
  simp only [BitVec.toNat_ofNat]
  omega

theorem ofNat_addBV (a : Nat) (v : U64) : BitVec.ofNat 64 a + v = BitVec.ofNat 64 (a + v.toNat) := by
  rw [BitVec.ofNat_add]; congr 1; simp

theorem ofNat_lt {a : Nat} {v : U64} (ha : a < 2 ^ 64) : (BitVec.ofNat 64 a < v) ↔ a < v.toNat := by
  rw [BitVec.lt_def, BitVec.toNat_ofNat, Nat.mod_eq_of_lt ha]

/-- The variables of `decode` in the loop. -/
def loopVars (off : Nat) (b : Bytes) (p : List Step) (fs : List Field) : Vars :=
  [(t!"offset", .int (BitVec.ofNat 64 off)), (t!"b", .bytes (some b)), (t!"p", .ptr p .uptr), (t!"info", .info fs)]

/-- The variables after a tag was read. -/
def tagVars (e : Option Err) (n wt num : Nat) (r : Vars) : Vars :=
  (t!"err", .err e) :: (t!"n", .int (BitVec.ofNat 64 n)) :: (t!"wireType", .uint (BitVec.ofNat 64 wt)) ::
    (t!"fieldNumber", .uint (BitVec.ofNat 64 num)) :: r

/-- The body of the loop of `decode`, from the `n`th statement on. -/
def decodeFrom : Nat → Stmt
  | 0 =>
    match struct_decode.body with
    | .seq _ (.seq (.loop _ _ _ b) _) => b
    | _ => .skip
  | n + 1 =>
    match decodeFrom n with
    | .seq _ r => r
    | _ => .skip

/-- What is done with unknown fields: the switch, and what follows. -/
def skipSwitch : Stmt :=
  match decodeFrom 4 with
  | .seq (.ite _ _ (.seq _ (.seq _ (.seq s _))) _) _ => s
  | _ => .skip
def skipTail : Stmt :=
  match decodeFrom 4 with
  | .seq (.ite _ _ (.seq _ (.seq _ (.seq _ s))) _) _ => s
  | _ => .skip

/-- The variables in this block. -/
def skipVars (e : Option Err) (sk : Nat) (sz : U64) (n wt num : Nat) (r : Vars) : Vars :=
  (t!"size", .u64 sz) :: (t!"skip", .int (BitVec.ofNat 64 sk)) :: (t!"f", .field none) :: tagVars e n wt num r

/-- struct.go:67-87: `skip` and `err` after the switch. -/
def skipLen (b : Bytes) (offset : Nat) (wt : Nat) : Except Fault (Nat × Option Err) :=
  if wt = wtVarint then do
    let (_, skip, err) := decodeVarint (← goFrom b offset)
    pure (skip, err)
  else if wt = wtVarlen then do
    let (size, skip, err) := decodeVarint (← goFrom b offset)
    match err with
    | some e => pure (skip, some e)
    | none =>
      if size.toNat > b.length - skip then pure (skip, some .unexpectedEOF)
      else pure (skip + size.toNat, none)
  else if wt = wtFixed32 then pure (4, none)
  else if wt = wtFixed64 then pure (8, none)
  else pure (0, some .wireTypeUnknown)

theorem skipUnknown_split (b : Bytes) (offset : Nat) (wt : Nat) : skipUnknown b offset wt = (skipLen b offset wt).bind fun r =>
    if offset + r.1 ≤ b.length then .ok (offset + r.1, r.2) else .ok (b.length, some .unexpectedEOF) := by
  simp only [skipUnknown, skipLen, bind, Except.bind, pure, Except.pure]
  split
  · cases goFrom b offset <;> rfl
  · split
    · cases goFrom b offset with
      | error f => rfl
      | ok c =>
        simp only
        generalize decodeVarint c = r
        obtain ⟨v, j, e⟩ := r
        cases e with
        | some e => rfl
        | none =>
          simp only
          split <;> rfl
    · split
      · rfl
      · split <;> rfl

theorem skip_switch {fs : List Field} {b : Bytes} {off n wt num sk blk : Nat} {e : Option Err} {p : List Step} (hb : b.length < 2 ^ 60)
    (ho : off ≤ b.length) (hwt : wt < 8) (h : skipLen b off wt = .ok (sk, e)) :
    sk < 2 ^ 61 ∧ ∃ sz, exec (invoke library X d (k + 1)) d skipSwitch ⟨skipVars none 0 0#64 n wt num (loopVars off b p fs), blk, m⟩
      = .ok (.next, ⟨skipVars e sk sz n wt num (loopVars off b p fs), blk, m⟩) := by
  have hsw : skipSwitch = (.switch (.ident t!"wireType")
    (.case (.arg (.ident t!"varint") .none)
    (.seq (.assign (.arg (.ident t!"_") (.arg (.ident t!"skip") (.arg (.ident t!"err") .none))) (.arg (.call (.ident t!"decodeVarint") (.arg (.slice (.ident t!"b") (.ident t!"offset") .none) .none)) .none))
    .skip)
    (.case (.arg (.ident t!"varlen") .none)
    (.seq (.assign (.arg (.ident t!"size") (.arg (.ident t!"skip") (.arg (.ident t!"err") .none))) (.arg (.call (.ident t!"decodeVarint") (.arg (.slice (.ident t!"b") (.ident t!"offset") .none) .none)) .none))
    (.seq (.ite .skip (.bin .eq (.ident t!"err") (.ident t!"nil"))
    (.seq (.ite .skip (.bin .gt (.ident t!"size") (.call (.ident t!"uint64") (.arg (.bin .sub (.call (.ident t!"len") (.arg (.ident t!"b") .none)) (.ident t!"skip")) .none)))
    (.seq (.assign (.arg (.ident t!"err") .none) (.arg (.sel (.ident t!"io") t!"ErrUnexpectedEOF") .none))
    .skip)
    (.seq (.opAssign .add (.ident t!"skip") (.call (.ident t!"int") (.arg (.ident t!"size") .none)))
    .skip))
    .skip)
    .skip)
    .skip))
    (.case (.arg (.ident t!"fixed32") .none)
    (.seq (.assign (.arg (.ident t!"skip") .none) (.arg (.num 4) .none))
    .skip)
    (.case (.arg (.ident t!"fixed64") .none)
    (.seq (.assign (.arg (.ident t!"skip") .none) (.arg (.num 8) .none))
    .skip)
    (.default (.seq (.assign (.arg (.ident t!"err") .none) (.arg (.ident t!"ErrWireTypeUnknown") .none))
    .skip) .skip)))))) := rfl
  rw [hsw]
  have hsl := slice_from hb ho
  have hdl : (b.drop off).length < 2 ^ 60 := by rw [List.length_drop]; omega
  have hr := run_decodeVarint (X := X) (d := d) k (m := m) (b.drop off) hdl
  have hn := decodeVarint_n_le (b.drop off)
  rw [List.length_drop] at hn
  have hg : goFrom b off = .ok (b.drop off) := by simp [goFrom, ho]
  unfold skipLen at h
  simp only [hg, bind, Except.bind, pure, Except.pure] at h
  have hne : ∀ c : Nat, c < 8 → wt ≠ c → ¬ BitVec.ofNat 64 wt = BitVec.ofNat 64 c := fun c hc hw he =>
    hw ((ofNat_inj (by omega) (by omega)).1 he)
  split at h
  · rename_i hw
    subst hw
    generalize decodeVarint (b.drop off) = r at h hr hn
    obtain ⟨v, j, e'⟩ := r
    cases h
    refine ⟨by simp only at hn ⊢; omega, 0#64, ?_⟩
    go_step [skipVars, tagVars, loopVars, wtVarint, wtVarlen, wtFixed32, wtFixed64, hsl, hr, varintResult]
  · rename_i h0
    have e0 := hne 0 (by omega) h0
    split at h
    · rename_i hw
      subst hw
      generalize decodeVarint (b.drop off) = r at h hr hn
      obtain ⟨v, j, e'⟩ := r
      simp only at hn
      cases e' with
      | some e' =>
        cases h
        refine ⟨by simp only; omega, v, ?_⟩
        go_step [skipVars, tagVars, loopVars, wtVarint, wtVarlen, wtFixed32, wtFixed64, hsl, hr, varintResult]
      | none =>
        have hsub := ofNat_sub (a := b.length) (b := j) (by omega) (by omega)
        have hlt := ofNat_lt (a := b.length - j) (v := v) (by omega)
        simp only at h
        split at h
        · rename_i hv
          cases h
          refine ⟨by omega, v, ?_⟩
          go_step [skipVars, tagVars, loopVars, wtVarint, wtVarlen, wtFixed32, wtFixed64, hsl, hr, varintResult, hsub, hlt, hv]
        · rename_i hv
          cases h
          refine ⟨by omega, v, ?_⟩
          go_step [skipVars, tagVars, loopVars, wtVarint, wtVarlen, wtFixed32, wtFixed64, hsl, hr, varintResult, hsub, hlt, hv, ofNat_addBV]
    · rename_i h2
      have e2 := hne 2 (by omega) h2
      split at h
      · rename_i hw
        subst hw
        cases h
        refine ⟨by omega, 0#64, ?_⟩
        go_step [skipVars, tagVars, loopVars, wtVarint, wtVarlen, wtFixed32, wtFixed64]
      · rename_i h5
        have e5 := hne 5 (by omega) h5
        split at h
        · rename_i hw
          subst hw
          cases h
          refine ⟨by omega, 0#64, ?_⟩
          go_step [skipVars, tagVars, loopVars, wtVarint, wtVarlen, wtFixed32, wtFixed64]
        · rename_i h1
          have e1 := hne 1 (by omega) h1
          cases h
          refine ⟨by omega, 0#64, ?_⟩
          go_step [skipVars, tagVars, loopVars, wtVarint, wtVarlen, wtFixed32, wtFixed64, e0, e1, e2, e5]

theorem skip_tail {fs : List Field} {b : Bytes} {off n wt num sk blk : Nat} {sz : U64} {e : Option Err} {p : List Step}
    (hb : b.length < 2 ^ 60) (ho : off ≤ b.length) (hwt : wt < 8) (hnum : num < 2 ^ 64) (hsk : sk < 2 ^ 61) :
    let off' := if off + sk ≤ b.length then off + sk else b.length
    let e' := if off + sk ≤ b.length then e else some .unexpectedEOF
    let s' : State := ⟨skipVars e' sk sz n wt num (loopVars off' b p fs), blk, m⟩
    exec (invoke library X d (k + 1)) d skipTail ⟨skipVars e sk sz n wt num (loopVars off b p fs), blk, m⟩
      = .ok (match e' with
        | none => (.cont, s')
        | some e => (.ret [.int (BitVec.ofNat 64 off'), .err (some (.field num wt e))], s')) := by
  have hsw : skipTail = (.seq (.ite .skip (.bin .le (.bin .add (.ident t!"offset") (.ident t!"skip")) (.call (.ident t!"len") (.arg (.ident t!"b") .none)))
    (.seq (.opAssign .add (.ident t!"offset") (.ident t!"skip"))
    .skip)
    (.seq (.assign (.arg (.ident t!"offset") (.arg (.ident t!"err") .none)) (.arg (.call (.ident t!"len") (.arg (.ident t!"b") .none)) (.arg (.sel (.ident t!"io") t!"ErrUnexpectedEOF") .none)))
    .skip))
    (.seq (.ite .skip (.bin .ne (.ident t!"err") (.ident t!"nil"))
    (.seq (.ret (.arg (.ident t!"offset") (.arg (.call (.ident t!"fieldError") (.arg (.ident t!"fieldNumber") (.arg (.ident t!"wireType") (.arg (.ident t!"err") .none)))) .none)))
    .skip)
    .skip)
    (.seq .cont
    .skip))) := rfl
  rw [hsw]
  have ha : BitVec.ofNat 64 off + BitVec.ofNat 64 sk = BitVec.ofNat 64 (off + sk) := (BitVec.ofNat_add ..).symm
  have hs := sle_ofNat (a := off + sk) (b := b.length) (by omega) (by omega)
  have e1 : wt % 18446744073709551616 = wt := Nat.mod_eq_of_lt (by omega)
  have e2 : num % 18446744073709551616 = num := Nat.mod_eq_of_lt (by omega)
  by_cases h : off + sk ≤ b.length
  · cases e with
    | none => go_step [skipVars, tagVars, loopVars, ha, hs, h]
    | some e => go_step [skipVars, tagVars, loopVars, ha, hs, h, run_fieldError, e1, e2]
  · go_step [skipVars, tagVars, loopVars, ha, hs, h, run_fieldError, e1, e2]

/-! ### the section of the buffer for a field -/

/-- An error is returned, and the memory is `m`. -/
def Returns (m : Val) (e : Err) (r : Except Fault (Flow × State)) : Prop := ∃ i s, r = .ok (.ret [.int i, .err (some e)], s) ∧ s.mem = m

theorem returns_mk (m : Val) (e : Err) (i : BitVec 64) (vs : Vars) (n : Nat) : Returns m e (.ok (.ret [.int i, .err (some e)], ⟨vs, n, m⟩)) ↔ True :=
  iff_of_true ⟨_, _, rfl, rfl⟩ trivial

def dataSwitch : Stmt :=
  match decodeFrom 7 with
  | .seq s _ => s
  | _ => .skip

/-- The variables in this block. -/
def dataVars (data : Option Bytes) (f : Field) (n wt num : Nat) (r : Vars) : Vars :=
  (t!"data", .bytes data) :: (t!"f", .field (some f)) :: tagVars none n wt num r

set_option maxHeartbeats 1000000 in
theorem data_switch {fs : List Field} {b : Bytes} {off n wt num blk : Nat} {f : Field} {p : List Step} {r : Except Err Bytes} (hb : b.length < 2 ^ 60)
    (ho : off ≤ b.length) (hwt : wt < 8) (hnum : num < 2 ^ 64) (h : fieldData b off wt = .ok r) :
    match (generalizing := false) r with
    | .ok data => exec (invoke library X d (k + 1)) d dataSwitch ⟨dataVars none f n wt num (loopVars off b p fs), blk, m⟩
      = .ok (.next, ⟨dataVars (some data) f n wt num (loopVars off b p fs), blk, m⟩)
    | .error e => Returns m (.field num wt e) (exec (invoke library X d (k + 1)) d dataSwitch ⟨dataVars none f n wt num (loopVars off b p fs), blk, m⟩) := by
  have hsw : dataSwitch = (.switch (.ident t!"wireType")
    (.case (.arg (.ident t!"varint") .none)
    (.seq (.define (.arg (.ident t!"_") (.arg (.ident t!"n") (.arg (.ident t!"err") .none))) (.call (.ident t!"decodeVarint") (.arg (.slice (.ident t!"b") (.ident t!"offset") .none) .none)))
    (.seq (.ite .skip (.bin .ne (.ident t!"err") (.ident t!"nil"))
    (.seq (.ret (.arg (.ident t!"offset") (.arg (.call (.ident t!"fieldError") (.arg (.ident t!"fieldNumber") (.arg (.ident t!"wireType") (.arg (.ident t!"err") .none)))) .none)))
    .skip)
    .skip)
    (.seq (.assign (.arg (.ident t!"data") .none) (.arg (.slice (.ident t!"b") (.ident t!"offset") (.bin .add (.ident t!"offset") (.ident t!"n"))) .none))
    .skip)))
    (.case (.arg (.ident t!"varlen") .none)
    (.seq (.define (.arg (.ident t!"l") (.arg (.ident t!"n") (.arg (.ident t!"err") .none))) (.call (.ident t!"decodeVarint") (.arg (.slice (.ident t!"b") (.ident t!"offset") .none) .none)))
    (.seq (.ite .skip (.bin .ne (.ident t!"err") (.ident t!"nil"))
    (.seq (.ret (.arg (.bin .add (.ident t!"offset") (.ident t!"n")) (.arg (.call (.ident t!"fieldError") (.arg (.ident t!"fieldNumber") (.arg (.ident t!"wireType") (.arg (.ident t!"err") .none)))) .none)))
    .skip)
    .skip)
    (.seq (.ite .skip (.bin .gt (.ident t!"l") (.call (.ident t!"uint64") (.arg (.bin .sub (.call (.ident t!"len") (.arg (.ident t!"b") .none)) (.bin .add (.ident t!"offset") (.ident t!"n"))) .none)))
    (.seq (.ret (.arg (.call (.ident t!"len") (.arg (.ident t!"b") .none)) (.arg (.call (.ident t!"fieldError") (.arg (.ident t!"fieldNumber") (.arg (.ident t!"wireType") (.arg (.sel (.ident t!"io") t!"ErrUnexpectedEOF") .none)))) .none)))
    .skip)
    .skip)
    (.seq (.assign (.arg (.ident t!"data") .none) (.arg (.slice (.ident t!"b") (.ident t!"offset") (.bin .add (.bin .add (.ident t!"offset") (.ident t!"n")) (.call (.ident t!"int") (.arg (.ident t!"l") .none)))) .none))
    .skip))))
    (.case (.arg (.ident t!"fixed32") .none)
    (.seq (.ite .skip (.bin .gt (.bin .add (.ident t!"offset") (.num 4)) (.call (.ident t!"len") (.arg (.ident t!"b") .none)))
    (.seq (.ret (.arg (.call (.ident t!"len") (.arg (.ident t!"b") .none)) (.arg (.call (.ident t!"fieldError") (.arg (.ident t!"fieldNumber") (.arg (.ident t!"wireType") (.arg (.sel (.ident t!"io") t!"ErrUnexpectedEOF") .none)))) .none)))
    .skip)
    .skip)
    (.seq (.assign (.arg (.ident t!"data") .none) (.arg (.slice (.ident t!"b") (.ident t!"offset") (.bin .add (.ident t!"offset") (.num 4))) .none))
    .skip))
    (.case (.arg (.ident t!"fixed64") .none)
    (.seq (.ite .skip (.bin .gt (.bin .add (.ident t!"offset") (.num 8)) (.call (.ident t!"len") (.arg (.ident t!"b") .none)))
    (.seq (.ret (.arg (.call (.ident t!"len") (.arg (.ident t!"b") .none)) (.arg (.call (.ident t!"fieldError") (.arg (.ident t!"fieldNumber") (.arg (.ident t!"wireType") (.arg (.sel (.ident t!"io") t!"ErrUnexpectedEOF") .none)))) .none)))
    .skip)
    .skip)
    (.seq (.assign (.arg (.ident t!"data") .none) (.arg (.slice (.ident t!"b") (.ident t!"offset") (.bin .add (.ident t!"offset") (.num 8))) .none))
    .skip))
    (.default (.seq (.ret (.arg (.ident t!"offset") (.arg (.call (.ident t!"fieldError") (.arg (.ident t!"fieldNumber") (.arg (.ident t!"wireType") (.arg (.ident t!"ErrWireTypeUnknown") .none)))) .none)))
    .skip) .skip)))))) := rfl
  rw [hsw]
  have hsl := slice_from hb ho
  have hdl : (b.drop off).length < 2 ^ 60 := by rw [List.length_drop]; omega
  have hr := run_decodeVarint (X := X) (d := d) k (m := m) (b.drop off) hdl
  have hn := decodeVarint_n_le (b.drop off)
  rw [List.length_drop] at hn
  have hg : goFrom b off = .ok (b.drop off) := by simp [goFrom, ho]
  have e1 : wt % 18446744073709551616 = wt := Nat.mod_eq_of_lt (by omega)
  have e2 : num % 18446744073709551616 = num := Nat.mod_eq_of_lt (by omega)
  have hgs : ∀ j, off ≤ j → j ≤ b.length → goSlice b off j = .ok ((b.take j).drop off) := fun j h1 h2 => by simp [goSlice, h1, h2]
  unfold fieldData at h
  simp only [hg, bind, Except.bind, pure, Except.pure] at h
  have hne : ∀ c : Nat, c < 8 → wt ≠ c → ¬ BitVec.ofNat 64 wt = BitVec.ofNat 64 c := fun c hc hw he =>
    hw ((ofNat_inj (by omega) (by omega)).1 he)
  split at h
  · rename_i hw
    subst hw
    generalize decodeVarint (b.drop off) = r at h hr hn
    obtain ⟨v, j, e'⟩ := r
    simp only at hn
    cases e' with
    | some e' =>
      cases h
      go_step [dataVars, tagVars, loopVars, hsl, hr, varintResult, run_fieldError, returns_mk, e2, wtVarint]
    | none =>
      simp only [hgs (off + j) (by omega) (by omega)] at h
      cases h
      have ha : BitVec.ofNat 64 off + BitVec.ofNat 64 j = BitVec.ofNat 64 (off + j) := (BitVec.ofNat_add ..).symm
      have ht := slice_to hb (i := off) (j := off + j) (by omega) (by omega)
      go_step [dataVars, tagVars, loopVars, hsl, hr, varintResult, ha, ht, wtVarint]
  · rename_i h0
    have e0 := hne 0 (by omega) h0
    split at h
    · rename_i hw
      subst hw
      generalize decodeVarint (b.drop off) = r at h hr hn
      obtain ⟨v, j, e'⟩ := r
      simp only at hn
      have ha : BitVec.ofNat 64 off + BitVec.ofNat 64 j = BitVec.ofNat 64 (off + j) := (BitVec.ofNat_add ..).symm
      cases e' with
      | some e' =>
        cases h
        go_step [dataVars, tagVars, loopVars, hsl, hr, varintResult, run_fieldError, returns_mk, e2, wtVarlen]
      | none =>
        have hsub := ofNat_sub (a := b.length) (b := off + j) (by omega) (by omega)
        have hlt := ofNat_lt (a := b.length - (off + j)) (v := v) (by omega)
        simp only at h
        split at h
        · rename_i hv
          cases h
          go_step [dataVars, tagVars, loopVars, hsl, hr, varintResult, run_fieldError, returns_mk, e2, wtVarlen, hsub, hlt, hv, ha]
        · rename_i hv
          simp only [hgs (off + j + v.toNat) (by omega) (by omega)] at h
          cases h
          have hav := ofNat_addBV (off + j) v
          have ht := slice_to hb (i := off) (j := off + j + v.toNat) (by omega) (by omega)
          go_step [dataVars, tagVars, loopVars, hsl, hr, varintResult, run_fieldError, returns_mk, e2, wtVarlen, hsub, hlt, hv, ha, hav, ht]
    · rename_i h2
      have e2' := hne 2 (by omega) h2
      split at h
      · rename_i hw
        subst hw
        have hs := slt_ofNat (a := b.length) (b := off + 4) (by omega) (by omega)
        have ha : BitVec.ofNat 64 off + 4#64 = BitVec.ofNat 64 (off + 4) := (BitVec.ofNat_add ..).symm
        split at h
        · rename_i hv
          cases h
          go_step [dataVars, tagVars, loopVars, run_fieldError, returns_mk, e2, wtFixed32, ha, hs, hv]
        · rename_i hv
          simp only [hgs (off + 4) (by omega) (by omega)] at h
          cases h
          have ht := slice_to hb (i := off) (j := off + 4) (by omega) (by omega)
          go_step [dataVars, tagVars, loopVars, run_fieldError, returns_mk, e2, wtFixed32, ha, hs, hv, ht]
      · rename_i h5
        have e5 := hne 5 (by omega) h5
        split at h
        · rename_i hw
          subst hw
          have hs := slt_ofNat (a := b.length) (b := off + 8) (by omega) (by omega)
          have ha : BitVec.ofNat 64 off + 8#64 = BitVec.ofNat 64 (off + 8) := (BitVec.ofNat_add ..).symm
          split at h
          · rename_i hv
            cases h
            go_step [dataVars, tagVars, loopVars, run_fieldError, returns_mk, e2, wtFixed64, ha, hs, hv]
          · rename_i hv
            simp only [hgs (off + 8) (by omega) (by omega)] at h
            cases h
            have ht := slice_to hb (i := off) (j := off + 8) (by omega) (by omega)
            go_step [dataVars, tagVars, loopVars, run_fieldError, returns_mk, e2, wtFixed64, ha, hs, hv, ht]
        · rename_i h1
          have e1' := hne 1 (by omega) h1
          cases h
          go_step [dataVars, tagVars, loopVars, run_fieldError, returns_mk, e0, e1', e2', e5, e1, e2]

end Pb.Go
