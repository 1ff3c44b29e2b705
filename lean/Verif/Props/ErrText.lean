import Verif.Proofs.ErrText
import Verif.Props.Reads
import Verif.Props.Errors
import Verif.Spec.Sample
/-
C73: what the texts of errors say.
-/
namespace Pb.Props
open Spec

/-- C73. The text of an error of Unmarshal names the field numbers and wire types on the way to the fault, as they are in the
input, and the cause. (64-bit integers.) -/
theorem C73_text_partial {L : Layout} {env : Env} (hwf : WFEnv L env) (hr : ReadsOK env) (t : TypeId) (b : Bytes) (v v' : Val)
    (hv : FitsMsg L t v) (e : Err) (h : unmarshal env b (.msg t v) = .ok ⟨.msg t v', some (.decode e)⟩) (ty : Text) :
    SaysError ((ApiErr.decode e).text 64 ty (.msg t v)) ((errPath e).map fun p => ((p.1 : Int), (p.2 : Int))) (errCause e) := by
  have hs := rejected_sized ((C48_error_iff hwf hr t b v hv e).mp ⟨v', h⟩)
  have := err_text_says (w := 64) (by omega) (by omega) e
  rwa [sized_path hs] at this

/-- C73. No text says two things. -/
theorem C73_unambiguous (s : Text) (p p' : List (Int × Int)) (c c' : Cause) (h : SaysError s p c) (h' : SaysError s p' c') :
    p = p' ∧ c = c' := saysError_unique h h'

/-- C73. Rejections with the same text, of any inputs for any types of any programs, are rejections with the same error. -/
theorem C73_text_determines_error_partial {L L' : Layout} {env env' : Env} (hwf : WFEnv L env) (hr : ReadsOK env) (hwf' : WFEnv L' env')
    (hr' : ReadsOK env') (t t' : TypeId) (b b' : Bytes) (v v' w w' : Val) (hv : FitsMsg L t v) (hv' : FitsMsg L' t' v') (e e' : Err)
    (h : unmarshal env b (.msg t v) = .ok ⟨.msg t w, some (.decode e)⟩)
    (h' : unmarshal env' b' (.msg t' v') = .ok ⟨.msg t' w', some (.decode e')⟩) (ty ty' : Text) :
    (ApiErr.decode e).text 64 ty (.msg t v) = (ApiErr.decode e').text 64 ty' (.msg t' v') ↔ e = e' := by
  constructor
  · intro he
    have h1 := C73_text_partial hwf hr t b v w hv e h ty
    have h2 := C73_text_partial hwf' hr' t' b' v' w' hv' e' h' ty'
    rw [he] at h1
    obtain ⟨h3, h4⟩ := saysError_unique h1 h2
    refine err_ext ?_ h4
    refine (List.map_inj_right ?_).mp h3
    rintro ⟨a, b⟩ ⟨c, d⟩ h
    simp only [Prod.mk.injEq] at h ⊢
    omega
  · rintro rfl; rfl

/-- C73 for programs. -/
theorem C73_program_partial (D : Decls) (h : ProgramOK D) (t : TypeId) (b : Bytes) (v v' : Val) (hv : FitsMsg (layoutOf D) t v) (e : Err)
    (he : unmarshal (envOf D) b (.msg t v) = .ok ⟨.msg t v', some (.decode e)⟩) (ty : Text) :
    SaysError ((ApiErr.decode e).text 64 ty (.msg t v)) ((errPath e).map fun p => ((p.1 : Int), (p.2 : Int))) (errCause e) :=
  C73_text_partial (program_reads h).1 (program_reads h).2.1 t b v v' hv e he ty

-- `Node.Kids` (3) holds a `Node` whose `Id` (1) is cut off
example : ∃ v', unmarshal Sample.env [26#8, 1#8, 8#8] (.msg 0 Sample.emptyNode) =
      .ok ⟨.msg 0 v', some (.decode (.field 3 2 (.field 1 0 .unexpectedEOF)))⟩ ∧
    (ApiErr.decode (.field 3 2 (.field 1 0 .unexpectedEOF))).text 64 t!"*main.Node" (.msg 0 Sample.emptyNode) =
      t!"field number 3 with wire type 2: field number 1 with wire type 0: unexpected EOF" := ⟨_, rfl, by decide +kernel⟩

/-- C73 is false with 32-bit integers: the record has field number 2^31, the text says -2^31. -/
theorem C73_false_int32 : ∃ b : Bytes, TagBytes b (2 ^ 31) 0 ∧
    (∃ v', unmarshalI 32 Sample.env b (.msg 0 Sample.emptyNode) = .ok ⟨.msg 0 v', some (.decode (.field (2 ^ 31) 0 .unexpectedEOF))⟩) ∧
    (Err.field (2 ^ 31) 0 .unexpectedEOF).text 32 = t!"field number -2147483648 with wire type 0: unexpected EOF" ∧
    ¬ ∃ c, SaysError ((Err.field (2 ^ 31) 0 .unexpectedEOF).text 32) [(2 ^ 31, 0)] c := by
  refine ⟨[0x80#8, 0x80#8, 0x80#8, 0x80#8, 0x40#8], ?_, ⟨_, rfl⟩, by decide +kernel, ?_⟩
  · refine ⟨by omega, ⟨?_, by decide, by omega⟩⟩
    exact .cont _ _ _ (by decide) (.cont _ _ _ (by decide) (.cont _ _ _ (by decide) (.cont _ _ _ (by decide) (.last 0x40#8 (by decide)))))
  · rintro ⟨c, h⟩
    have h1 := err_text_says (w := 32) (by omega) (by omega) (Err.field (2 ^ 31) 0 .unexpectedEOF)
    have := (saysError_unique h h1).1
    revert this
    decide +kernel

/-- C73. Calling Unmarshal with an argument that is not a non-nil pointer to a struct gives a text that says what is wrong with the
argument, and no text says two things about it. -/
theorem C73_misuse (env : Env) (b : Bytes) (hb : b ≠ []) (a : Arg) (m : Misuse) (hm : Misused a m) (w : Nat) (ty : Text) :
    ∃ e, unmarshal env b a = .ok ⟨a, some e⟩ ∧ SaysMisuse (e.text w ty a) m ty ∧
      ∀ m' ty', SaysMisuse (e.text w ty a) m' ty' → m' = m ∧ ty' = ty := by
  have hb : ¬ b.length = 0 := by simpa using hb
  have u : ∀ {s m m' ty ty'}, SaysMisuse s m ty → SaysMisuse s m' ty' → m' = m ∧ ty' = ty := by
    intro s m m' ty ty' h h'
    cases h with
    | nonPointer ty =>
      generalize hs : t!"proto: Unmarshal(non-pointer" ++ (ty ++ t!")") = s at h'
      cases h' with
      | nonPointer ty' => exact ⟨rfl, (List.append_cancel_right (List.append_cancel_left hs)).symm⟩
      | _ => simp at hs
    | pointerToNonStruct ty =>
      generalize hs : t!"proto: Unmarshal(bad pointer" ++ (ty ++ t!")") = s at h'
      cases h' with
      | pointerToNonStruct ty' => exact ⟨rfl, (List.append_cancel_right (List.append_cancel_left hs)).symm⟩
      | _ => simp at hs
    | nilPointer ty =>
      generalize hs : t!"proto: Unmarshal(nil " ++ (ty ++ t!")") = s at h'
      cases h' with
      | nilPointer ty' => exact ⟨rfl, (List.append_cancel_right (List.append_cancel_left hs)).symm⟩
      | _ => simp at hs
  cases hm with
  | nonPointer => exact ⟨.invalidUnmarshal, by simp [unmarshal, hb], .nonPointer ty, fun _ _ => u (.nonPointer ty)⟩
  | pointerToNonStruct n =>
    exact ⟨.invalidUnmarshal, by simp [unmarshal, hb], .pointerToNonStruct ty, fun _ _ => u (.pointerToNonStruct ty)⟩
  | nilPointer t => exact ⟨.invalidUnmarshal, by simp [unmarshal, hb], .nilPointer ty, fun _ _ => u (.nilPointer ty)⟩

-- there is no blank between "non-pointer" and the type
example : ApiErr.invalidUnmarshal.text 64 t!"main.Node" .nonPtr = t!"proto: Unmarshal(non-pointermain.Node)" := rfl

/-- C73. A text never leaves open whether the argument or the input is at fault. -/
theorem C73_misuse_or_input (s : Text) (m : Misuse) (ty : Text) (p : List (Int × Int)) (c : Cause) (h : SaysMisuse s m ty) :
    ¬ SaysError s p c := by
  intro h'
  have h1 : ∃ r, s = t!"proto: " ++ r := by
    cases h with
    | nonPointer => exact ⟨_, rfl⟩
    | pointerToNonStruct => exact ⟨_, rfl⟩
    | nilPointer => exact ⟨_, rfl⟩
  obtain ⟨r, rfl⟩ := h1
  generalize hs : t!"proto: " ++ r = s at h'
  cases h' <;> simp at hs

/-- C73 asks the same of the nil interface, for which error.go:38-40 has the text "proto: Unmarshal(nil)". It is false: no call
returns an error with this text, Unmarshal panics. -/
theorem C73_false_nil_interface (env : Env) (b : Bytes) (hb : b ≠ []) :
    unmarshal env b .nilIface = .error .panic ∧
    ∀ (b' : Bytes) (a a' : Arg) (e : ApiErr) (w : Nat) (ty : Text), unmarshal env b' a = .ok ⟨a', some e⟩ →
      e.text w ty a ≠ t!"proto: Unmarshal(nil)" := by
  refine ⟨by simp [unmarshal, hb], ?_⟩
  intro b' a a' e w ty h ht
  unfold unmarshal at h
  split at h
  · simp at h
  · cases e with
    | decode d => cases d <;> simp [ApiErr.text, Err.text] at ht
    | notPointer => simp [ApiErr.text] at ht
    | shortRead n l => simp [ApiErr.text] at ht
    | invalidUnmarshal =>
      cases a with
      | nilIface => simp at h
      | nonPtr => simp [ApiErr.text, invalidUnmarshalText] at ht
      | ptrOther n => simp [ApiErr.text, invalidUnmarshalText] at ht
      | nilMsg t => simp [ApiErr.text, invalidUnmarshalText] at ht
      | msg t v => simp [ApiErr.text, invalidUnmarshalText] at ht

end Pb.Props
