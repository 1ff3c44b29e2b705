import Verif.Proofs.Step
import Verif.Proofs.Size
import Verif.Spec.Sample
/-
C03, C04, C05 (unreachable error), C30, C31, C44: safety, termination, API corner cases.
-/
namespace Pb.Props
open Spec

/-- C03. For all bytes and every target whose memory matches its Go type, Unmarshal returns without fault (no index
out of range, no panic, no access through a wrong type), with success or a decoding error, and leaves a target
whose memory still matches its type. -/
theorem C03_unmarshal_safe {L : Layout} {env : Env} (hwf : WFEnv L env) (b : Bytes) (t : TypeId) (v : Val)
    (hv : FitsMsg L t v) :
    ∃ v' err, unmarshal env b (.msg t v) = .ok ⟨.msg t v', err⟩ ∧ FitsMsg L t v' ∧
      (err = none ∨ ∃ e, err = some (.decode e)) := by
  obtain ⟨vs, rfl, hvs⟩ := fitsMsg_iff.mp hv
  obtain ⟨vs', e, hr, hf⟩ := runM_safe hwf t b vs hvs
  rw [unmarshal_eq, hr]
  cases e with
  | none => exact ⟨_, _, rfl, fitsMsg_iff.mpr ⟨_, rfl, hf⟩, .inl rfl⟩
  | some e => exact ⟨_, _, rfl, fitsMsg_iff.mpr ⟨_, rfl, hf⟩, .inr ⟨e, rfl⟩⟩

/-- C03 for targets of all dynamic types other than the nil interface. -/
theorem C03_unmarshal_safe_arg {L : Layout} {env : Env} (hwf : WFEnv L env) (b : Bytes) (a : Arg)
    (ha : a ≠ .nilIface) (hv : ∀ t v, a = .msg t v → FitsMsg L t v) : ∃ r, unmarshal env b a = .ok r := by
  cases a with
  | nilIface => exact absurd rfl ha
  | nonPtr => unfold unmarshal; split <;> exact ⟨_, rfl⟩
  | ptrOther n => unfold unmarshal; split <;> exact ⟨_, rfl⟩
  | nilMsg t => unfold unmarshal; split <;> exact ⟨_, rfl⟩
  | msg t v =>
    obtain ⟨v', err, h, _⟩ := C03_unmarshal_safe hwf b t v (hv t v rfl)
    exact ⟨_, h⟩

example : WFEnv Sample.layout Sample.env ∧ FitsMsg Sample.layout 0 Sample.node := ⟨Sample.wf, Sample.node_fits⟩

/-- C04. A nesting depth of half the input length plus one is enough: allowing more makes no difference, for any
message type, also recursive ones. -/
theorem C04_depth_bound (env : Env) (t : TypeId) (b : Bytes) (v : Val) (d : Nat) (hd : b.length / 2 + 1 ≤ d) :
    decodeMsg env d t b v = decodeMsg env (b.length / 2 + 1) t b v :=
  (decodeMsg_depth env t b v (b.length / 2 + 1) d (by omega) hd).symm

/-- C04. With that depth the decoder never runs into the bound. -/
theorem C04_terminates {L : Layout} {env : Env} (hwf : WFEnv L env) (t : TypeId) (b : Bytes) (v : Val)
    (hv : FitsMsg L t v) : ∃ r, decodeMsg env (b.length / 2 + 1) t b v = .ok r := by
  rw [← C04_depth_bound env t b v (b.length + 1) (by omega)]
  rcases decM_safe hwf b t v hv with ⟨v', m, h, _⟩ | ⟨v', e, h, _⟩ <;> exact ⟨_, h⟩

/-- C04. At one nesting level, as many iterations as there are bytes are enough: allowing more makes no
difference. -/
theorem C04_iterations (env : Env) (t : TypeId) (b : Bytes) (vs : List Val) (fuel : Nat) (hf : b.length ≤ fuel) :
    structLoop (idxM env t) b fuel 0 vs = structLoop (idxM env t) b b.length 0 vs := by
  rw [structLoop_eq _ (boundedIdx_M env t) _ _ _ _ (by omega), structLoop_eq _ (boundedIdx_M env t) _ _ _ _ (by omega)]
  simp only [List.drop_zero]
  rw [loopS_fuel _ _ _ _ hf, loopS_fuel _ _ _ _ (Nat.le_refl _)]

/-- C04. Every iteration consumes at least one byte. -/
theorem C04_progress (idx : Nat → Option DField) (s rest : Bytes) (vs vs' : List Val)
    (h : stepS idx s vs = .ok (.next rest vs')) : rest.length < s.length := stepS_lt h

-- a depth-2 input for the recursive type: Node.Kids[0].Kids[0], and the bound for it
example : ∃ v, decodeMsg Sample.env 3 0 [0x1a#8, 0x02#8, 0x1a#8, 0x00#8] Sample.emptyNode = .ok (.ok v 4) := ⟨_, rfl⟩
-- a depth of one is not enough for it
example : decodeMsg Sample.env 1 0 [0x1a#8, 0x02#8, 0x1a#8, 0x00#8] Sample.emptyNode = .error .depth := rfl

/-- C05. The error `read < buffer` of proto.go:57-59 is unreachable. -/
theorem C05_short_read_unreachable (env : Env) (b : Bytes) (a : Arg) (r : UnmarshalRes)
    (h : unmarshal env b a = .ok r) (n m : Nat) : r.err ≠ some (.shortRead n m) := by
  cases a with
  | msg t v =>
    by_cases hs : ∃ vs, v = .struct vs
    · obtain ⟨vs, rfl⟩ := hs
      rw [unmarshal_eq] at h
      rcases hr : run (idxM env t) b vs with e | ⟨vs', _ | e⟩ <;> simp only [hr] at h <;> cases h <;> simp
    · have hd := decM_nonstruct env t b v (fun vs e => hs ⟨vs, e⟩)
      unfold decM at hd
      unfold unmarshal at h
      split at h
      · cases h; simp
      · simp [hd, bind, Except.bind] at h
  | nilIface => unfold unmarshal at h; split at h <;> cases h; simp
  | nonPtr => unfold unmarshal at h; split at h <;> cases h <;> simp
  | ptrOther _ => unfold unmarshal at h; split at h <;> cases h <;> simp
  | nilMsg _ => unfold unmarshal at h; split at h <;> cases h <;> simp

/-! ### C30: argument checking -/

/-- C30, as far as it is true. Marshal of a non-pointer returns an error, Size of one panics, a nil message pointer
is the empty message, and Unmarshal of a non-empty input into a non-pointer, a pointer to a non-struct or a nil
message pointer returns InvalidUnmarshalError and leaves the argument alone. Missing: the nil interface, see
`C30_nil_interface_panics`. -/
theorem C30_argument_checking_partial (env : Env) (b : Bytes) (hb : b ≠ []) (t : TypeId) (isNil : Bool) :
    marshal env .nonPtr = .ok (.error .notPointer) ∧
    size env .nonPtr = .error .panic ∧
    marshal env (.nilMsg t) = .ok (.ok []) ∧ size env (.nilMsg t) = .ok 0 ∧
    unmarshal env b .nonPtr = .ok ⟨.nonPtr, some .invalidUnmarshal⟩ ∧
    unmarshal env b (.ptrOther isNil) = .ok ⟨.ptrOther isNil, some .invalidUnmarshal⟩ ∧
    unmarshal env b (.nilMsg t) = .ok ⟨.nilMsg t, some .invalidUnmarshal⟩ := by
  have : ¬ b.length = 0 := by simpa using hb
  simp [marshal, size, unmarshal, this]

/-- C30 is false for the nil interface: Unmarshal panics (`reflect.Type.Kind` on a nil type) instead of returning
InvalidUnmarshalError, although error.go:38-40 has a case for it. So do Marshal and Size. -/
theorem C30_nil_interface_panics (env : Env) (b : Bytes) (hb : b ≠ []) :
    unmarshal env b .nilIface = .error .panic ∧ marshal env .nilIface = .error .panic ∧
      size env .nilIface = .error .panic := by
  have : ¬ b.length = 0 := by simpa using hb
  simp [unmarshal, marshal, size, this]

/-- C30. Invalid arguments are accepted when the input is empty. -/
theorem C30_empty_input_any_argument (env : Env) (a : Arg) : unmarshal env [] a = .ok ⟨a, none⟩ := by
  simp [unmarshal]

example : unmarshal Sample.env [8#8, 1#8] .nilIface = .error .panic := rfl
example : unmarshal Sample.env [8#8, 1#8] (.nilMsg 0) = .ok ⟨.nilMsg 0, some .invalidUnmarshal⟩ := rfl

/-! ### C31: empty input -/

/-- C31. Unmarshal of an empty input succeeds and changes nothing. -/
theorem C31_empty_input (env : Env) (a : Arg) : unmarshal env [] a = .ok ⟨a, none⟩ := C30_empty_input_any_argument env a

/-- Codecs of singular and repeated fields, that is, of all fields but maps (the `required` codecs only occur as
element codecs). -/
def NotMap : Codec → Prop
  | .normal _ | .option _ | .bytes | .msg _ | .ptr _ _ | .slice _ _ => True
  | .required _ | .map .. => False

/-- C31. The zero message of a type without map fields is encoded as the empty byte string, of size 0. With a map
field it is not, see `C23_empty_map_grows`. -/
theorem C31_zero_message {L : Layout} {env : Env} (hwf : WFEnv L env) (t : TypeId)
    (hm : ∀ f ∈ (env t).fields, NotMap f.codec) :
    marshal env (.msg t (env t).zero) = .ok (.ok []) ∧ size env (.msg t (env t).zero) = .ok 0 := by
  have hz := hwf.zero t
  have key : ∀ f ∈ (env t).fields, ∃ v, slotOf (env t).zero f.offset = .ok v ∧
      codecSize (sizeM env) f.codec v f.tag = .ok 0 ∧ encP (sizeM env) (encM env) f.codec v f.tag = .ok [] := by
    intro f hf
    refine ⟨f.codec.shape.zero, ?_, ?_⟩
    · simp [hz, slotOf, hwf.slot t f hf]
    · have := hm f hf
      generalize f.codec = c at this
      cases c with
      | normal s =>
        have hs := fits_zero L s.shape
        simp only [codecSize, encP, Codec.shape, sizeNormal_eq f.tag hs, encodeNormal_eq f.tag hs,
          (isZero_iff hs).mpr rfl, if_true, and_self]
      | required s => exact absurd this id
      | map => exact absurd this id
      | _ => exact ⟨rfl, rfl⟩
  have e1 : sizeM env t (env t).zero = .ok 0 := by
    rw [sizeM_eq]
    unfold sizeFields
    generalize (env t).fields = fs at key
    induction fs with
    | nil => rfl
    | cons f fs ih =>
      obtain ⟨v, h1, h2, _⟩ := key f (by simp)
      simp only [sumAll, h1, h2, ih (fun g hg => key g (by simp [hg]))]
  have e2 : encM env t (env t).zero = .ok [] := by
    rw [encM_eq]
    unfold encFields
    generalize (env t).fields = fs at key
    induction fs with
    | nil => rfl
    | cons f fs ih =>
      obtain ⟨v, h1, _, h3⟩ := key f (by simp)
      simp only [catAll, h1, h3, ih (fun g hg => key g (by simp [hg])), List.append_nil]
  rw [marshal_msg, size_msg, e1, e2]
  exact ⟨rfl, rfl⟩

example : ∀ f ∈ (Sample.env 1).fields, NotMap f.codec := by
  simp [Sample.env, Sample.fields, NotMap]

/-! ### C44: Option -/

/-- C44. `Some(v)` holds `v`. -/
theorem C44_some {α} (zero v d : α) :
    (GoOption.Some v).IsSome = true ∧ (GoOption.Some v).IsNone = false ∧ (GoOption.Some v).Unwrap zero = v ∧
      (GoOption.Some v).UnwrapOr d = v := by
  simp [GoOption.Some, GoOption.IsSome, GoOption.IsNone, GoOption.Unwrap, GoOption.UnwrapOr]

/-- C44. `None` gives the zero value or the default. -/
theorem C44_none {α} (zero d : α) :
    (GoOption.None zero).IsSome = false ∧ (GoOption.None zero).IsNone = true ∧
      (GoOption.None zero).Unwrap zero = zero ∧ (GoOption.None zero).UnwrapOr d = d := by
  simp [GoOption.None, GoOption.IsSome, GoOption.IsNone, GoOption.Unwrap, GoOption.UnwrapOr]

/-- C44. `IsNone` is the negation of `IsSome`, for every option, also one filled by Unmarshal. -/
theorem C44_isNone {α} (o : GoOption α) : o.IsNone = !o.IsSome := rfl

/-- C44. Some and None of any values differ, and Some is injective. -/
theorem C44_distinct {α} (v w zero : α) :
    GoOption.Some v ≠ GoOption.None zero ∧ (GoOption.Some v = GoOption.Some w → v = w) := by
  simp [GoOption.Some, GoOption.None]

/-- C44. The typed constructors are Some. -/
theorem C44_constructors (b : Bool) (x : U32) (y : U64) (s : Bytes) :
    mkBool b = .Some b ∧ mkInt32 x = .Some x ∧ mkInt64 y = .Some y ∧ mkFloat32 x = .Some x ∧
      mkFloat64 y = .Some y ∧ mkUint32 x = .Some x ∧ mkUint64 y = .Some y ∧ mkString s = .Some s :=
  ⟨rfl, rfl, rfl, rfl, rfl, rfl, rfl, rfl⟩

example : (GoOption.Some 0#32).IsSome = true ∧ (GoOption.Some 0#32).UnwrapOr 5#32 = 0#32 := by decide

end Pb.Props
