import Verif.Proofs.WidthEnc
import Verif.Spec.Sample
/-
C68: integers of finite width.
-/
namespace Pb.Props
open Spec

/-- C68. On a machine with `w`-bit integers, for an input whose length is an `int` and whose field numbers are `int`s: Unmarshal does
what it does with unbounded integers, or it panics on a malformed input of more than a quarter of the address space. -/
theorem C68_agrees_or_panics (w : Nat) (hw : 5 ≤ w) (hw' : w ≤ 64) (env : Env) (b : Bytes) (hb : b.length < 2 ^ (w - 1))
    (hsm : SmallVarints w b) (a : Arg) :
    unmarshalI w env b a = unmarshal env b a ∨
    2 ^ (w - 1) ≤ 2 * b.length ∧ unmarshalI w env b a = .error .oob ∧
      ∃ v e, unmarshal env b a = .ok ⟨v, some (.decode e)⟩ ∧ e.root = .unexpectedEOF := by
  unfold unmarshalI unmarshal
  split
  · exact .inl rfl
  · cases a with
    | msg t v =>
      simp only [bind, Except.bind, pure, Except.pure]
      rcases decodeMsgI_eq hw hw' env (b.length + 1) t b v hb hsm with h | ⟨h1, h2, v', e, h3, h4⟩
      · left
        rw [h]
        rcases decodeMsg env (b.length + 1) t b v with f | (⟨v', n⟩ | ⟨v', e⟩)
        · rfl
        · simp only [Except.map, DRes.toI]
          by_cases hn : n < b.length
          · rw [if_pos hn, if_pos (by omega)]; rfl
          · rw [if_neg hn, if_neg (by omega)]
        · rfl
      · rw [h2, h3]
        exact .inr ⟨h1, rfl, _, _, rfl, h4⟩
    | _ => exact .inl rfl

/-- C68. Without the panic, for inputs below a quarter of the address space. (The property asks it of all inputs. It is false of
machines with 32-bit integers, see `C68_false_int32` and `C68_false_field_number`.) -/
theorem C68_unmarshal_partial (w : Nat) (hw : 5 ≤ w) (hw' : w ≤ 64) (env : Env) (b : Bytes) (hb : 2 * b.length < 2 ^ (w - 1))
    (hsm : SmallVarints w b) (a : Arg) : unmarshalI w env b a = unmarshal env b a := by
  rcases C68_agrees_or_panics w hw hw' env b (by omega) hsm a with h | ⟨h, _⟩
  · exact h
  · omega

/-- C68. With 64-bit integers, Unmarshal of fewer than 2^62 bytes computes without overflow, whatever the bytes. -/
theorem C68_int64 (env : Env) (b : Bytes) (hb : b.length < 2 ^ 62) (a : Arg) : unmarshalI 64 env b a = unmarshal env b a :=
  C68_unmarshal_partial 64 (by omega) (by omega) env b (by omega) (smallVarints_64 b (by omega)) a

/-- C68. A size that fits an `int` is computed without overflow, also on the way. -/
theorem C68_size (w : Nat) (hw : 5 ≤ w) (env : Env) (t : TypeId) (v : Val) (n : Nat) (h : size env (.msg t v) = .ok n)
    (hn : n < 2 ^ (w - 1)) : sizeI w env t v = .ok n := sizeMsgI_eq hw env _ t v n h hn

/-- C68. Marshal of a message whose size is an `int`, by a margin of 20, computes without overflow; also for maps, where it measures
values with the size functions of keys (map.go:80). Partial: false of larger messages, see `C68_false_marshal_int32`. -/
theorem C68_marshal_partial (w : Nat) (hw : 5 ≤ w) {L : Layout} {env : Env} (hwf : WFEnv L env) (ht : TagsOK env) (t : TypeId) (v : Val)
    (hv : FitsMsg L t v) (n : Nat) (h : size env (.msg t v) = .ok n) (hn : n + 20 < 2 ^ (w - 1)) :
    marshalI w env (.msg t v) = marshal env (.msg t v) := by
  have h : sizeMsg env (v.depth + 1) t v = .ok n := h
  have h1 := sizeMsgI_eq hw env _ t v n h (by omega)
  have h2 := encodeMsgI_eq hwf ht hw _ t v n hv h hn []
  unfold marshalI marshal
  simp only [h, h1, h2, bind, Except.bind, pure, Except.pure]
  rw [if_neg (by omega)]

/-- C68. With 64-bit integers, Marshal of a message of less than 2^62 bytes computes without overflow. -/
theorem C68_marshal_int64 {L : Layout} {env : Env} (hwf : WFEnv L env) (ht : TagsOK env) (t : TypeId) (v : Val)
    (hv : FitsMsg L t v) (n : Nat) (h : size env (.msg t v) = .ok n) (hn : n < 2 ^ 62) :
    marshalI 64 env (.msg t v) = marshal env (.msg t v) :=
  C68_marshal_partial 64 (by omega) hwf ht t v hv n h (by omega)

/-- `struct { Chunks []string }` with field number 1. -/
def chunksEnv : Env := fun _ => { fields := [⟨0, Sample.mkTag 1 2, .slice (.str []) (.required .string)⟩], zero := .struct [.slice true [] []] }

theorem wrapInt_add (w : Nat) (a b : Int) : wrapInt w (wrapInt w a + b) = wrapInt w (a + b) := by
  unfold wrapInt
  rw [BitVec.ofInt_add, BitVec.ofInt_toInt, ← BitVec.ofInt_add]

theorem sumSizesI_replicate {α : Type} (w : Nat) (g : α → Except Fault Int) (x : α) (s : Int) (hs : g x = .ok s) (k : Nat) : ∀ n,
    sumSizesI w g (wrapInt w n) (List.replicate k x) = .ok (wrapInt w (n + k * s)) := by
  induction k with
  | zero => intro n; simp [sumSizesI]
  | succ k ih =>
    intro n
    simp only [List.replicate_succ, sumSizesI, hs, bind, Except.bind, wrapInt_add, ih]
    rw [show n + ((k + 1 : Nat) : Int) * s = n + s + k * s by rw [Int.natCast_add, Int.add_mul]; omega]

theorem sumSizes_replicate {α : Type} (g : α → Except Fault Nat) (x : α) (s : Nat) (hs : g x = .ok s) (k : Nat) : ∀ n,
    sumSizes g n (List.replicate k x) = .ok (n + k * s) := by
  induction k with
  | zero => intro n; simp [sumSizes]
  | succ k ih =>
    intro n
    simp only [List.replicate_succ, sumSizes, hs, bind, Except.bind, ih]
    rw [Nat.add_mul]; congr 1; omega

theorem chunks_size (d : Nat) (es : List Val) (n : Nat)
    (h : sumSizes (fun e => codecSize (sizeMsg chunksEnv d) (.required .string) e (Sample.mkTag 1 2)) 0 es = .ok n) :
    sizeMsg chunksEnv (d + 1) 0 (.struct [.slice false es []]) = .ok n := by
  show (sumSizes (fun e => codecSize (sizeMsg chunksEnv d) (.required .string) e (Sample.mkTag 1 2)) 0 es).bind (fun s => .ok (0 + s)) = _
  rw [h, Except.bind, Nat.zero_add]

theorem chunks_sizeI (w d : Nat) (es : List Val) (n : Int)
    (h : sumSizesI w (fun e => codecSizeI w (sizeMsgI w chunksEnv d) (.required .string) e (Sample.mkTag 1 2)) (wrapInt w 0) es = .ok (wrapInt w n)) :
    sizeMsgI w chunksEnv (d + 1) 0 (.struct [.slice false es []]) = .ok (wrapInt w n) := by
  have h0 : wrapInt w 0 = 0 := by simp [wrapInt]
  rw [h0] at h
  show (sumSizesI w (fun e => codecSizeI w (sizeMsgI w chunksEnv d) (.required .string) e (Sample.mkTag 1 2)) 0 es).bind
    (fun s => .ok (wrapInt w (0 + s))) = _
  rw [h, Except.bind, Int.zero_add]
  have := wrapInt_add w n 0
  rw [Int.add_zero, Int.add_zero] at this
  rw [this]

theorem chunks_panic (es : List Val) (n : Int) (hn : wrapInt 32 n < 0)
    (h : ∀ d, sumSizesI 32 (fun e => codecSizeI 32 (sizeMsgI 32 chunksEnv d) (.required .string) e (Sample.mkTag 1 2)) (wrapInt 32 0) es =
      .ok (wrapInt 32 n)) : marshalI 32 chunksEnv (.msg 0 (.struct [.slice false es []])) = .error .panic := by
  unfold marshalI
  simp only [chunks_sizeI 32 _ es n (h _), bind, Except.bind]
  rw [if_pos hn]
  rfl

/-- C68. With 32-bit integers, Marshal panics on a message with 2048 times the same string of a megabyte (in Go they can share their
memory): the size wraps around to a negative capacity. -/
theorem C68_false_marshal_int32 (x : Bytes) (hx : x.length = 1048576) (es : List Val) (hes : es = List.replicate 2048 (.str x)) :
    size chunksEnv (.msg 0 (.struct [.slice false es []])) = .ok 2147491840 ∧
    marshalI 32 chunksEnv (.msg 0 (.struct [.slice false es []])) = .error .panic := by
  have h1 : ∀ sz, codecSize sz (.required .string) (.str x) (Sample.mkTag 1 2) = .ok 1048580 := by
    intro sz
    show Except.ok (sizeOfVarlen x.length + 1) = _
    rw [hx]
    exact congrArg Except.ok (by decide +kernel)
  have h2 : ∀ sz, codecSizeI 32 sz (.required .string) (.str x) (Sample.mkTag 1 2) = .ok 1048580 := by
    intro sz
    show Except.ok (wrapInt 32 ((sizeOfVarlen x.length + 1 : Nat) : Int)) = _
    rw [hx]
    exact congrArg Except.ok (by decide +kernel)
  have s1 : ∀ d, sumSizes (fun e => codecSize (sizeMsg chunksEnv d) (.required .string) e (Sample.mkTag 1 2)) 0 es = .ok 2147491840 := by
    intro d
    rw [hes]
    exact sumSizes_replicate (fun e => codecSize (sizeMsg chunksEnv d) (.required .string) e (Sample.mkTag 1 2)) (Val.str x) _ (h1 _) 2048 0
  have s2 : ∀ d, sumSizesI 32 (fun e => codecSizeI 32 (sizeMsgI 32 chunksEnv d) (.required .string) e (Sample.mkTag 1 2)) (wrapInt 32 0) es =
      .ok (wrapInt 32 2147491840) := by
    intro d
    rw [hes]
    exact sumSizesI_replicate 32 (fun e => codecSizeI 32 (sizeMsgI 32 chunksEnv d) (.required .string) e (Sample.mkTag 1 2)) (Val.str x) _ (h2 _) 2048 0
  exact ⟨chunks_size _ es _ (s1 _), chunks_panic es _ (by decide +kernel) s2⟩

example : ∃ x : Bytes, x.length = 1048576 := ⟨List.replicate 1048576 0#8, List.length_replicate⟩

/-- A tag with number 1 and wire type 2, followed by the length 2^30. -/
def gigaHead : Bytes := [0x0A#8, 0x80#8, 0x80#8, 0x80#8, 0x80#8, 0x04#8]

theorem giga_tag (r : Bytes) : decodeTag (gigaHead ++ r) = (1, 2, 1, none) := by
  unfold decodeTag
  rw [show decodeVarint (gigaHead ++ r) = (10#64, 1, none) from rfl]
  decide

theorem giga_tagI (r : Bytes) : decodeTagI 32 (gigaHead ++ r) = (1, 2, 1, none) := by
  unfold decodeTagI
  rw [show decodeVarint (gigaHead ++ r) = (10#64, 1, none) from rfl]
  decide

theorem giga_varint (r : Bytes) : decodeVarint (gigaHead.drop 1 ++ r) = (1073741824#64, 5, none) := rfl

/-- C68. With 32-bit integers, Unmarshal panics on these inputs of 2^30+12 bytes: a complete unknown record of a gigabyte, and the
head of another one. The check of struct.go:75 leaves out the offset, and `offset+skip` in struct.go:88 is negative. -/
theorem C68_false_int32 (env : Env) (t : TypeId) (vs : List Val) (z : Bytes) (hz : z.length = 1073741824)
    (hf : (env t).fields = []) :
    unmarshalI 32 env (gigaHead ++ z ++ gigaHead) (.msg t (.struct vs)) = .error .oob ∧
    unmarshal env (gigaHead ++ z ++ gigaHead) (.msg t (.struct vs)) =
      .ok ⟨.msg t (.struct vs), some (.decode (.field 1 2 .unexpectedEOF))⟩ := by
  have hg : gigaHead.length = 6 := rfl
  have e0 : gigaHead ++ z ++ gigaHead = gigaHead ++ (z ++ gigaHead) := List.append_assoc ..
  have e1 : (gigaHead ++ z ++ gigaHead).drop 1 = gigaHead.drop 1 ++ (z ++ gigaHead) := rfl
  have e2 : (gigaHead ++ z ++ gigaHead).drop 1073741830 = gigaHead ++ [] := by
    rw [List.drop_append_of_le_length (by rw [List.length_append]; omega), List.drop_eq_nil_of_le (by rw [List.length_append]; omega)]
    rfl
  have e3 : (gigaHead ++ z ++ gigaHead).drop 1073741831 = gigaHead.drop 1 ++ [] := by
    rw [show 1073741831 = 1073741830 + 1 by omega, ← List.drop_drop, e2]; rfl
  have hl : (gigaHead ++ z ++ gigaHead).length = 1073741836 := by simp only [List.length_append]; omega
  have from0 : goFrom (gigaHead ++ z ++ gigaHead) 0 = .ok (gigaHead ++ (z ++ gigaHead)) := by
    rw [goFrom_eq (by omega), List.drop_zero, e0]
  have from1 : goFrom (gigaHead ++ z ++ gigaHead) 1 = .ok (gigaHead.drop 1 ++ (z ++ gigaHead)) := by
    rw [goFrom_eq (by omega), e1]
  have from2 : goFrom (gigaHead ++ z ++ gigaHead) 1073741830 = .ok (gigaHead ++ []) := by
    rw [goFrom_eq (by omega), e2]
  have from3 : goFrom (gigaHead ++ z ++ gigaHead) 1073741831 = .ok (gigaHead.drop 1 ++ []) := by
    rw [goFrom_eq (by omega), e3]
  generalize gigaHead ++ z ++ gigaHead = b at hl from0 from1 from2 from3
  constructor
  · have s1 : skipUnknownI 32 b 1 2 = .ok (1073741830, none) := by
      unfold skipUnknownI
      rw [if_neg (by decide), if_pos rfl, show (1 : Int) = ((1 : Nat) : Int) from rfl, fromI_nat, from1, hl]
      simp only [bind, Except.bind, pure, Except.pure]
      have hv := giga_varint (z ++ gigaHead)
      generalize decodeVarint (gigaHead.drop 1 ++ (z ++ gigaHead)) = x at hv
      subst hv
      simp only [bind, Except.bind, pure, Except.pure]
      rw [if_neg (show ¬ 1073741824#64 > intToU64 (wrapInt 32 (((1073741836 : Nat) : Int) - ((5 : Nat) : Int))) by decide +kernel), if_pos (by decide +kernel)]
      exact congrArg (fun x => Except.ok (x, none)) (by decide +kernel)
    have s2 : ∃ z : Int, z < 0 ∧ skipUnknownI 32 b 1073741831 2 = .ok (z, none) := by
      refine ⟨-2147483636, by omega, ?_⟩
      unfold skipUnknownI
      rw [if_neg (by decide), if_pos rfl, show (1073741831 : Int) = ((1073741831 : Nat) : Int) from rfl, fromI_nat, from3, hl]
      simp only [bind, Except.bind, pure, Except.pure]
      have hv := giga_varint []
      generalize decodeVarint (gigaHead.drop 1 ++ []) = x at hv
      subst hv
      simp only [bind, Except.bind, pure, Except.pure]
      rw [if_neg (show ¬ 1073741824#64 > intToU64 (wrapInt 32 (((1073741836 : Nat) : Int) - ((5 : Nat) : Int))) by decide +kernel), if_pos (by decide +kernel)]
      exact congrArg (fun x => Except.ok (x, none)) (by decide +kernel)
    have step : ∀ fuel, structLoopI 32 (fun _ => none) b (fuel + 3) 0 vs = .error .oob := by
      intro fuel
      unfold structLoopI
      rw [if_pos (by omega)]
      simp only [show (0 : Int) = ((0 : Nat) : Int) from rfl, fromI_nat, from0, giga_tagI, bind, Except.bind, pure, Except.pure]
      rw [show wrapInt 32 (((0 : Nat) : Int) + ((1 : Nat) : Int)) = 1 from by decide +kernel, s1]
      simp only
      unfold structLoopI
      rw [if_pos (by omega)]
      simp only [show (1073741830 : Int) = ((1073741830 : Nat) : Int) from rfl, fromI_nat, from2, giga_tagI, bind, Except.bind,
        pure, Except.pure]
      rw [show wrapInt 32 (((1073741830 : Nat) : Int) + ((1 : Nat) : Int)) = 1073741831 from by decide +kernel]
      obtain ⟨z, hz, s2⟩ := s2
      rw [s2]
      simp only
      unfold structLoopI
      rw [if_pos (by omega)]
      simp only [fromI, bind, Except.bind]
      rw [if_neg (by omega)]
    unfold unmarshalI
    rw [if_neg (by omega)]
    simp only [decodeMsgI, structDecodeI, hf, dfieldsI, List.map_nil, fieldIndexI, List.foldl_nil, bind, Except.bind]
    rw [hl]
    rw [step 1073741834]
  · have s1 : skipUnknown b 1 2 = .ok (1073741830, none) := by
      unfold skipUnknown
      rw [if_neg (by decide), if_pos rfl, from1, hl]
      simp only [bind, Except.bind, pure, Except.pure]
      have hv := giga_varint (z ++ gigaHead)
      generalize decodeVarint (gigaHead.drop 1 ++ (z ++ gigaHead)) = x at hv
      subst hv
      simp only [bind, Except.bind, pure, Except.pure]
      rw [if_neg (show ¬ (1073741824#64).toNat > 1073741836 - 5 by decide), if_pos (by decide +kernel)]
      exact congrArg (fun x => Except.ok (x, none)) (by decide +kernel)
    have s2 : skipUnknown b 1073741831 2 = .ok (1073741836, some .unexpectedEOF) := by
      unfold skipUnknown
      rw [if_neg (by decide), if_pos rfl, from3, hl]
      simp only [bind, Except.bind, pure, Except.pure]
      have hv := giga_varint []
      generalize decodeVarint (gigaHead.drop 1 ++ []) = x at hv
      subst hv
      simp only [bind, Except.bind, pure, Except.pure]
      rw [if_neg (show ¬ (1073741824#64).toNat > 1073741836 - 5 by decide), if_neg (by decide +kernel)]
    have step : ∀ fuel, structLoop (fun _ => none) b (fuel + 2) 0 vs = .ok (.err (.struct vs) (.field 1 2 .unexpectedEOF)) := by
      intro fuel
      unfold structLoop
      rw [if_pos (by omega)]
      simp only [from0, giga_tag, bind, Except.bind, Nat.zero_add, s1]
      unfold structLoop
      rw [if_pos (by omega)]
      simp only [from2, giga_tag, bind, Except.bind, pure, Except.pure, Nat.reduceAdd, s2]
    unfold unmarshal
    rw [if_neg (by omega)]
    simp only [decodeMsg, structDecode, hf, dfields, List.map_nil, fieldIndex, List.foldl_nil, bind, Except.bind]
    rw [hl]
    rw [step 1073741834]
    rfl

/-- C68. With 32-bit integers, field number 2^32+1 is field 1: decode.go:65 drops the upper bits. The input has seven bytes, and with
64-bit integers it leaves the message as it is. -/
theorem C68_false_field_number :
    unmarshalI 32 Sample.env [0x88#8, 0x80#8, 0x80#8, 0x80#8, 0x80#8, 0x01#8, 0x01#8] (.msg 2 (.struct [.b8 false, .w32 0#32])) =
      .ok ⟨.msg 2 (.struct [.b8 true, .w32 0#32]), none⟩ ∧
    unmarshal Sample.env [0x88#8, 0x80#8, 0x80#8, 0x80#8, 0x80#8, 0x01#8, 0x01#8] (.msg 2 (.struct [.b8 false, .w32 0#32])) =
      .ok ⟨.msg 2 (.struct [.b8 false, .w32 0#32]), none⟩ := ⟨rfl, rfl⟩

/-- A `Flat` message: field 2 is fixed32, an unknown field 9 of six bytes, field 1 is bool. -/
example : unmarshalI 32 Sample.env [0x15#8, 1#8, 2#8, 3#8, 4#8, 0x4A#8, 4#8, 9#8, 9#8, 9#8, 9#8, 0x08#8, 1#8]
      (.msg 1 (Sample.env 1).zero) =
    .ok ⟨.msg 1 (.struct [.b8 true, .w32 0x04030201#32, .slice true [] [], .nilp]), none⟩ := rfl

/-- An input that meets the conditions of `C68_unmarshal_partial` on a 32-bit machine. -/
example : SmallVarints 32 [0x08#8, 1#8] := by
  intro pre p suf n h hp
  have hl : p.length ≤ 2 := by have := congrArg List.length h; simp only [List.length_append, List.length_cons, List.length_nil] at this; omega
  have h2 : 128 ^ p.length ≤ 128 ^ 2 := Nat.pow_le_pow_right (by omega) hl
  exact Nat.lt_of_lt_of_le hp.notation_.lt_pow (Nat.le_trans h2 (by omega))

/-- There is an input as `C68_false_int32` describes. -/
example : ∃ z : Bytes, z.length = 1073741824 := ⟨List.replicate 1073741824 0#8, List.length_replicate⟩

/-- A size that needs two additions of lengths. -/
example : sizeI 32 Sample.env 1 (.struct [.b8 true, .w32 1#32, .slice false [.w64 5#64, .w64 6#64] [], .nilp]) = .ok 25 := rfl

/-- A message that meets the conditions of `C68_marshal_partial` on a 32-bit machine. -/
example : WFEnv Sample.layout Sample.env ∧ TagsOK Sample.env ∧ FitsMsg Sample.layout 0 Sample.node ∧
    ∃ n, size Sample.env (.msg 0 Sample.node) = .ok n ∧ n + 20 < 2 ^ 31 :=
  ⟨Sample.good.wf, Sample.good.tags, Sample.node_fits, _, rfl, by decide +kernel⟩

/-- What overflow looks like: with 5-bit integers the size of this message, 25, is reported as -7. -/
example : sizeI 5 Sample.env 1 (.struct [.b8 true, .w32 1#32, .slice false [.w64 5#64, .w64 6#64] [], .nilp]) = .ok (-7) := rfl

end Pb.Props
