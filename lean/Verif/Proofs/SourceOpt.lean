import Verif.Proofs.SourceDec
/-
Running the functions of option_codec.go.
-/
namespace Pb.Go
open Tree

set_option linter.unusedSimpArgs false

variable {X : Calls} {d : Nat} (k : Nat) {m : Val}

theorem getPath_value {o : Bool} {w : Val} {p : List Step} {m : Val} (h : getPath p m = .ok (.opt o w)) :
    getPath (p ++ [.value]) m = .ok w := by
  rw [getPath_append h]; rfl

theorem setPath_value {o : Bool} {w x : Val} {p : List Step} {m : Val} (h : getPath p m = .ok (.opt o w)) :
    setPath x (p ++ [.value]) m = setPath (.opt o x) p m := setPath_append (by simp only [setPath]) h

/-- The parts of an `Option`. -/
def readOpt : Val → Except Fault (Bool × Val)
  | .opt o w => .ok (o, w)
  | _ => .error .confused

theorem readOpt_ok {v : Val} {o : Bool} {w : Val} (h : readOpt v = .ok (o, w)) : v = .opt o w := by
  cases v with
  | opt o w => cases h; rfl
  | _ => cases h

theorem run_IsSome {p : List Step} {t : Ty} {v : Val} (hp : getPath p m = .ok v) :
    invoke library X d (k + 1) (some (.ptr p (.ptr (.option t)))) t!"IsSome" [] m = (readOpt v).map fun r => ([.bool r.1], m) := by
  go_call find_IsSome isSome_IsSome
  cases v with
  | opt o w => go_run [hp, readOpt]
  | _ => go_run [hp, readOpt]

theorem sizeOption_eq (s : Scalar) (v : Val) (f : FTag) :
    sizeOption s v f = (readOpt v).bind fun r => if r.1 then sizeRequired s r.2 f else .ok 0 := by cases v <;> rfl

theorem encodeOption_eq (s : Scalar) (b : Bytes) (v : Val) (f : FTag) :
    encodeOption s b v f = (readOpt v).bind fun r => if r.1 then encodeRequired s b r.2 f else .ok b := by cases v <;> rfl

theorem run_unsafePointer {p : List Step} {t : Ty} :
    invoke library X d (k + 1) (some (.ptr p (.ptr (.option t)))) t!"unsafePointer" [] m = .ok ([.ptr (p ++ [.value]) .uptr], m) := by
  go_call find_unsafePointer unsafePointer_unsafePointer
  go_run [setPath]

/-- Decoding into the value of an `Option` that was set is decoding into the `Option`. -/
theorem decodeOut_value {p : List Step} {w m1 : Val} {r : Except Fault DRes} {out : Except Fault (List V × Val)}
    (hm : setPath (.opt true w) p m = .ok m1) (h : decodeOut (p ++ [.value]) m1 r out) :
    decodeOut p m (r.bind fun r => .ok (r.wrap (Val.opt true))) out := by
  obtain ⟨h1, h2⟩ := setPath_get hm
  have hs : ∀ x, setPath x (p ++ [.value]) m1 = setPath (.opt true x) p m := fun x => by rw [setPath_value h1, h2]
  cases r with
  | error e => exact h
  | ok r =>
    cases r with
    | ok v n => simp only [decodeOut, hs] at h; exact h
    | err v e => simp only [decodeOut, hs] at h; exact h

theorem decodeOut_shape {p : List Step} {r : Except Fault DRes} {out : Except Fault (List V × Val)} (h : decodeOut p m r out) :
    (∃ f, out = .error f) ∨ ∃ n e m', out = .ok ([.int n, .err e], m') := by
  cases r with
  | error e => exact .inl ⟨e, h⟩
  | ok r =>
    cases r with
    | ok v n =>
      simp only [decodeOut] at h
      cases hs : setPath v p m with
      | error f => rw [hs] at h; exact .inl ⟨f, h⟩
      | ok m' => rw [hs] at h; exact .inr ⟨_, _, _, h⟩
    | err v e =>
      obtain ⟨n, h⟩ := h
      cases hs : setPath v p m with
      | error f => rw [hs] at h; exact .inl ⟨f, h⟩
      | ok m' => rw [hs] at h; exact .inr ⟨_, _, _, h⟩

theorem run_sizeOfBoolOption {p : List Step} {v : Val} (f : Field) (hp : getPath p m = .ok v) :
    invoke library X d (k + 4) none t!"sizeOfBoolOption" [.ptr p .uptr, .field (some f)] m = sizeOut m (sizeOption .bool v f.tag) := by
  go_call find_sizeOfBoolOption option_sizeOfBoolOption
  rw [sizeOption_eq]
  cases hv : readOpt v with
  | error e => go_run [run_IsSome _ hp, hv, sizeOut]
  | ok r =>
    obtain ⟨o, w⟩ := r
    have := readOpt_ok hv
    subst this
    cases o with
    | true =>
      have h := run_sizeOfBoolRequired (X := X) (d := d) k f (getPath_value hp)
      go_run [run_IsSome _ hp, run_unsafePointer, h, hv]
      cases sizeRequired .bool w f.tag <;> go_run [sizeOut]
    | false => go_run [run_IsSome _ hp, hv, sizeOut]

theorem run_encodeBoolOption (b : Bytes) {p : List Step} {v : Val} (f : Field) (hp : getPath p m = .ok v) :
    invoke library X d (k + 4) none t!"encodeBoolOption" [.bytes (some b), .ptr p .uptr, .field (some f)] m
      = encodeOut m (encodeOption .bool b v f.tag) := by
  go_call find_encodeBoolOption option_encodeBoolOption
  rw [encodeOption_eq]
  cases hv : readOpt v with
  | error e => go_run [run_IsSome _ hp, hv, encodeOut]
  | ok r =>
    obtain ⟨o, w⟩ := r
    have := readOpt_ok hv
    subst this
    cases o with
    | true =>
      have h := run_encodeBoolRequired (X := X) (d := d) k b f (getPath_value hp)
      go_run [run_IsSome _ hp, run_unsafePointer, h, hv]
      cases encodeRequired .bool b w f.tag <;> go_run [encodeOut]
    | false => go_run [run_IsSome _ hp, hv, encodeOut]

theorem run_decodeBoolOption (b : Bytes) {p : List Step} {v : Val} (hb : b.length < 2 ^ 60) (hw : Writable p) (hp : getPath p m = .ok v) :
    decodeOut p m (decodeOption .bool b v) (invoke library X d (k + 4) none t!"decodeBoolOption" [.bytes (some b), .ptr p .uptr] m) := by
  go_call find_decodeBoolOption option_decodeBoolOption
  cases v with
  | opt o w =>
    obtain ⟨m1, hm⟩ := setPath_ok (x := .opt true w) hw hp
    have h := run_decodeBool (X := X) (d := d) k b hb (hw.snoc rfl) (getPath_value (setPath_get hm).1)
    refine decodeOut_value hm ?_
    rcases decodeOut_shape h with ⟨f, hf⟩ | ⟨n, e, m', hf⟩
    · rw [hf] at h
      go_run [hp, hm, run_unsafePointer, hf]
      exact h
    · rw [hf] at h
      go_run [hp, hm, run_unsafePointer, hf]
      exact h
  | _ => go_run [hp, decodeOption, decodeOut]

theorem run_sizeOfStringOption {p : List Step} {v : Val} (f : Field) (hp : getPath p m = .ok v) :
    invoke library X d (k + 4) none t!"sizeOfStringOption" [.ptr p .uptr, .field (some f)] m = sizeOut m (sizeOption .string v f.tag) := by
  go_call find_sizeOfStringOption option_sizeOfStringOption
  rw [sizeOption_eq]
  cases hv : readOpt v with
  | error e => go_run [run_IsSome _ hp, hv, sizeOut]
  | ok r =>
    obtain ⟨o, w⟩ := r
    have := readOpt_ok hv
    subst this
    cases o with
    | true =>
      have h := run_sizeOfStringRequired (X := X) (d := d) k f (getPath_value hp)
      go_run [run_IsSome _ hp, run_unsafePointer, h, hv]
      cases sizeRequired .string w f.tag <;> go_run [sizeOut]
    | false => go_run [run_IsSome _ hp, hv, sizeOut]

theorem run_encodeStringOption (b : Bytes) {p : List Step} {v : Val} (f : Field) (hp : getPath p m = .ok v) :
    invoke library X d (k + 4) none t!"encodeStringOption" [.bytes (some b), .ptr p .uptr, .field (some f)] m
      = encodeOut m (encodeOption .string b v f.tag) := by
  go_call find_encodeStringOption option_encodeStringOption
  rw [encodeOption_eq]
  cases hv : readOpt v with
  | error e => go_run [run_IsSome _ hp, hv, encodeOut]
  | ok r =>
    obtain ⟨o, w⟩ := r
    have := readOpt_ok hv
    subst this
    cases o with
    | true =>
      have h := run_encodeStringRequired (X := X) (d := d) k b f (getPath_value hp)
      go_run [run_IsSome _ hp, run_unsafePointer, h, hv]
      cases encodeRequired .string b w f.tag <;> go_run [encodeOut]
    | false => go_run [run_IsSome _ hp, hv, encodeOut]

theorem run_decodeStringOption (b : Bytes) {p : List Step} {v : Val} (hb : b.length < 2 ^ 60) (hw : Writable p) (hp : getPath p m = .ok v) :
    decodeOut p m (decodeOption .string b v) (invoke library X d (k + 4) none t!"decodeStringOption" [.bytes (some b), .ptr p .uptr] m) := by
  go_call find_decodeStringOption option_decodeStringOption
  cases v with
  | opt o w =>
    obtain ⟨m1, hm⟩ := setPath_ok (x := .opt true w) hw hp
    have h := run_decodeString (X := X) (d := d) k b hb (hw.snoc rfl) (getPath_value (setPath_get hm).1)
    refine decodeOut_value hm ?_
    rcases decodeOut_shape h with ⟨f, hf⟩ | ⟨n, e, m', hf⟩
    · rw [hf] at h
      go_run [hp, hm, run_unsafePointer, hf]
      exact h
    · rw [hf] at h
      go_run [hp, hm, run_unsafePointer, hf]
      exact h
  | _ => go_run [hp, decodeOption, decodeOut]

theorem run_sizeOfFloat32Option {p : List Step} {v : Val} (f : Field) (hp : getPath p m = .ok v) :
    invoke library X d (k + 4) none t!"sizeOfFloat32Option" [.ptr p .uptr, .field (some f)] m = sizeOut m (sizeOption .float32 v f.tag) := by
  go_call find_sizeOfFloat32Option option_sizeOfFloat32Option
  rw [sizeOption_eq]
  cases hv : readOpt v with
  | error e => go_run [run_IsSome _ hp, hv, sizeOut]
  | ok r =>
    obtain ⟨o, w⟩ := r
    have := readOpt_ok hv
    subst this
    cases o with
    | true =>
      have h := run_sizeOfFloat32Required (X := X) (d := d) k f (getPath_value hp)
      go_run [run_IsSome _ hp, run_unsafePointer, h, hv]
      cases sizeRequired .float32 w f.tag <;> go_run [sizeOut]
    | false => go_run [run_IsSome _ hp, hv, sizeOut]

theorem run_encodeFloat32Option (b : Bytes) {p : List Step} {v : Val} (f : Field) (hp : getPath p m = .ok v) :
    invoke library X d (k + 4) none t!"encodeFloat32Option" [.bytes (some b), .ptr p .uptr, .field (some f)] m
      = encodeOut m (encodeOption .float32 b v f.tag) := by
  go_call find_encodeFloat32Option option_encodeFloat32Option
  rw [encodeOption_eq]
  cases hv : readOpt v with
  | error e => go_run [run_IsSome _ hp, hv, encodeOut]
  | ok r =>
    obtain ⟨o, w⟩ := r
    have := readOpt_ok hv
    subst this
    cases o with
    | true =>
      have h := run_encodeFloat32Required (X := X) (d := d) k b f (getPath_value hp)
      go_run [run_IsSome _ hp, run_unsafePointer, h, hv]
      cases encodeRequired .float32 b w f.tag <;> go_run [encodeOut]
    | false => go_run [run_IsSome _ hp, hv, encodeOut]

theorem run_decodeFloat32Option (b : Bytes) {p : List Step} {v : Val} (hb : b.length < 2 ^ 60) (hw : Writable p) (hp : getPath p m = .ok v) :
    decodeOut p m (decodeOption .float32 b v) (invoke library X d (k + 4) none t!"decodeFloat32Option" [.bytes (some b), .ptr p .uptr] m) := by
  go_call find_decodeFloat32Option option_decodeFloat32Option
  cases v with
  | opt o w =>
    obtain ⟨m1, hm⟩ := setPath_ok (x := .opt true w) hw hp
    have h := run_decodeFloat32 (X := X) (d := d) k b hb (hw.snoc rfl) (getPath_value (setPath_get hm).1)
    refine decodeOut_value hm ?_
    rcases decodeOut_shape h with ⟨f, hf⟩ | ⟨n, e, m', hf⟩
    · rw [hf] at h
      go_run [hp, hm, run_unsafePointer, hf]
      exact h
    · rw [hf] at h
      go_run [hp, hm, run_unsafePointer, hf]
      exact h
  | _ => go_run [hp, decodeOption, decodeOut]

theorem run_sizeOfFloat64Option {p : List Step} {v : Val} (f : Field) (hp : getPath p m = .ok v) :
    invoke library X d (k + 4) none t!"sizeOfFloat64Option" [.ptr p .uptr, .field (some f)] m = sizeOut m (sizeOption .float64 v f.tag) := by
  go_call find_sizeOfFloat64Option option_sizeOfFloat64Option
  rw [sizeOption_eq]
  cases hv : readOpt v with
  | error e => go_run [run_IsSome _ hp, hv, sizeOut]
  | ok r =>
    obtain ⟨o, w⟩ := r
    have := readOpt_ok hv
    subst this
    cases o with
    | true =>
      have h := run_sizeOfFloat64Required (X := X) (d := d) k f (getPath_value hp)
      go_run [run_IsSome _ hp, run_unsafePointer, h, hv]
      cases sizeRequired .float64 w f.tag <;> go_run [sizeOut]
    | false => go_run [run_IsSome _ hp, hv, sizeOut]

theorem run_encodeFloat64Option (b : Bytes) {p : List Step} {v : Val} (f : Field) (hp : getPath p m = .ok v) :
    invoke library X d (k + 4) none t!"encodeFloat64Option" [.bytes (some b), .ptr p .uptr, .field (some f)] m
      = encodeOut m (encodeOption .float64 b v f.tag) := by
  go_call find_encodeFloat64Option option_encodeFloat64Option
  rw [encodeOption_eq]
  cases hv : readOpt v with
  | error e => go_run [run_IsSome _ hp, hv, encodeOut]
  | ok r =>
    obtain ⟨o, w⟩ := r
    have := readOpt_ok hv
    subst this
    cases o with
    | true =>
      have h := run_encodeFloat64Required (X := X) (d := d) k b f (getPath_value hp)
      go_run [run_IsSome _ hp, run_unsafePointer, h, hv]
      cases encodeRequired .float64 b w f.tag <;> go_run [encodeOut]
    | false => go_run [run_IsSome _ hp, hv, encodeOut]

theorem run_decodeFloat64Option (b : Bytes) {p : List Step} {v : Val} (hb : b.length < 2 ^ 60) (hw : Writable p) (hp : getPath p m = .ok v) :
    decodeOut p m (decodeOption .float64 b v) (invoke library X d (k + 4) none t!"decodeFloat64Option" [.bytes (some b), .ptr p .uptr] m) := by
  go_call find_decodeFloat64Option option_decodeFloat64Option
  cases v with
  | opt o w =>
    obtain ⟨m1, hm⟩ := setPath_ok (x := .opt true w) hw hp
    have h := run_decodeFloat64 (X := X) (d := d) k b hb (hw.snoc rfl) (getPath_value (setPath_get hm).1)
    refine decodeOut_value hm ?_
    rcases decodeOut_shape h with ⟨f, hf⟩ | ⟨n, e, m', hf⟩
    · rw [hf] at h
      go_run [hp, hm, run_unsafePointer, hf]
      exact h
    · rw [hf] at h
      go_run [hp, hm, run_unsafePointer, hf]
      exact h
  | _ => go_run [hp, decodeOption, decodeOut]

theorem run_sizeOfInt32Option {p : List Step} {v : Val} (f : Field) (hp : getPath p m = .ok v) :
    invoke library X d (k + 4) none t!"sizeOfInt32Option" [.ptr p .uptr, .field (some f)] m = sizeOut m (sizeOption .int32 v f.tag) := by
  go_call find_sizeOfInt32Option option_sizeOfInt32Option
  rw [sizeOption_eq]
  cases hv : readOpt v with
  | error e => go_run [run_IsSome _ hp, hv, sizeOut]
  | ok r =>
    obtain ⟨o, w⟩ := r
    have := readOpt_ok hv
    subst this
    cases o with
    | true =>
      have h := run_sizeOfInt32Required (X := X) (d := d) k f (getPath_value hp)
      go_run [run_IsSome _ hp, run_unsafePointer, h, hv]
      cases sizeRequired .int32 w f.tag <;> go_run [sizeOut]
    | false => go_run [run_IsSome _ hp, hv, sizeOut]

theorem run_encodeInt32Option (b : Bytes) {p : List Step} {v : Val} (f : Field) (hp : getPath p m = .ok v) :
    invoke library X d (k + 4) none t!"encodeInt32Option" [.bytes (some b), .ptr p .uptr, .field (some f)] m
      = encodeOut m (encodeOption .int32 b v f.tag) := by
  go_call find_encodeInt32Option option_encodeInt32Option
  rw [encodeOption_eq]
  cases hv : readOpt v with
  | error e => go_run [run_IsSome _ hp, hv, encodeOut]
  | ok r =>
    obtain ⟨o, w⟩ := r
    have := readOpt_ok hv
    subst this
    cases o with
    | true =>
      have h := run_encodeInt32Required (X := X) (d := d) k b f (getPath_value hp)
      go_run [run_IsSome _ hp, run_unsafePointer, h, hv]
      cases encodeRequired .int32 b w f.tag <;> go_run [encodeOut]
    | false => go_run [run_IsSome _ hp, hv, encodeOut]

theorem run_decodeInt32Option (b : Bytes) {p : List Step} {v : Val} (hb : b.length < 2 ^ 60) (hw : Writable p) (hp : getPath p m = .ok v) :
    decodeOut p m (decodeOption .int32 b v) (invoke library X d (k + 4) none t!"decodeInt32Option" [.bytes (some b), .ptr p .uptr] m) := by
  go_call find_decodeInt32Option option_decodeInt32Option
  cases v with
  | opt o w =>
    obtain ⟨m1, hm⟩ := setPath_ok (x := .opt true w) hw hp
    have h := run_decodeInt32 (X := X) (d := d) k b hb (hw.snoc rfl) (getPath_value (setPath_get hm).1)
    refine decodeOut_value hm ?_
    rcases decodeOut_shape h with ⟨f, hf⟩ | ⟨n, e, m', hf⟩
    · rw [hf] at h
      go_run [hp, hm, run_unsafePointer, hf]
      exact h
    · rw [hf] at h
      go_run [hp, hm, run_unsafePointer, hf]
      exact h
  | _ => go_run [hp, decodeOption, decodeOut]

theorem run_sizeOfInt64Option {p : List Step} {v : Val} (f : Field) (hp : getPath p m = .ok v) :
    invoke library X d (k + 4) none t!"sizeOfInt64Option" [.ptr p .uptr, .field (some f)] m = sizeOut m (sizeOption .int64 v f.tag) := by
  go_call find_sizeOfInt64Option option_sizeOfInt64Option
  rw [sizeOption_eq]
  cases hv : readOpt v with
  | error e => go_run [run_IsSome _ hp, hv, sizeOut]
  | ok r =>
    obtain ⟨o, w⟩ := r
    have := readOpt_ok hv
    subst this
    cases o with
    | true =>
      have h := run_sizeOfInt64Required (X := X) (d := d) k f (getPath_value hp)
      go_run [run_IsSome _ hp, run_unsafePointer, h, hv]
      cases sizeRequired .int64 w f.tag <;> go_run [sizeOut]
    | false => go_run [run_IsSome _ hp, hv, sizeOut]

theorem run_encodeInt64Option (b : Bytes) {p : List Step} {v : Val} (f : Field) (hp : getPath p m = .ok v) :
    invoke library X d (k + 4) none t!"encodeInt64Option" [.bytes (some b), .ptr p .uptr, .field (some f)] m
      = encodeOut m (encodeOption .int64 b v f.tag) := by
  go_call find_encodeInt64Option option_encodeInt64Option
  rw [encodeOption_eq]
  cases hv : readOpt v with
  | error e => go_run [run_IsSome _ hp, hv, encodeOut]
  | ok r =>
    obtain ⟨o, w⟩ := r
    have := readOpt_ok hv
    subst this
    cases o with
    | true =>
      have h := run_encodeInt64Required (X := X) (d := d) k b f (getPath_value hp)
      go_run [run_IsSome _ hp, run_unsafePointer, h, hv]
      cases encodeRequired .int64 b w f.tag <;> go_run [encodeOut]
    | false => go_run [run_IsSome _ hp, hv, encodeOut]

theorem run_decodeInt64Option (b : Bytes) {p : List Step} {v : Val} (hb : b.length < 2 ^ 60) (hw : Writable p) (hp : getPath p m = .ok v) :
    decodeOut p m (decodeOption .int64 b v) (invoke library X d (k + 4) none t!"decodeInt64Option" [.bytes (some b), .ptr p .uptr] m) := by
  go_call find_decodeInt64Option option_decodeInt64Option
  cases v with
  | opt o w =>
    obtain ⟨m1, hm⟩ := setPath_ok (x := .opt true w) hw hp
    have h := run_decodeInt64 (X := X) (d := d) k b hb (hw.snoc rfl) (getPath_value (setPath_get hm).1)
    refine decodeOut_value hm ?_
    rcases decodeOut_shape h with ⟨f, hf⟩ | ⟨n, e, m', hf⟩
    · rw [hf] at h
      go_run [hp, hm, run_unsafePointer, hf]
      exact h
    · rw [hf] at h
      go_run [hp, hm, run_unsafePointer, hf]
      exact h
  | _ => go_run [hp, decodeOption, decodeOut]

theorem run_sizeOfUint32Option {p : List Step} {v : Val} (f : Field) (hp : getPath p m = .ok v) :
    invoke library X d (k + 4) none t!"sizeOfUint32Option" [.ptr p .uptr, .field (some f)] m = sizeOut m (sizeOption .uint32 v f.tag) := by
  go_call find_sizeOfUint32Option option_sizeOfUint32Option
  rw [sizeOption_eq]
  cases hv : readOpt v with
  | error e => go_run [run_IsSome _ hp, hv, sizeOut]
  | ok r =>
    obtain ⟨o, w⟩ := r
    have := readOpt_ok hv
    subst this
    cases o with
    | true =>
      have h := run_sizeOfUint32Required (X := X) (d := d) k f (getPath_value hp)
      go_run [run_IsSome _ hp, run_unsafePointer, h, hv]
      cases sizeRequired .uint32 w f.tag <;> go_run [sizeOut]
    | false => go_run [run_IsSome _ hp, hv, sizeOut]

theorem run_encodeUint32Option (b : Bytes) {p : List Step} {v : Val} (f : Field) (hp : getPath p m = .ok v) :
    invoke library X d (k + 4) none t!"encodeUint32Option" [.bytes (some b), .ptr p .uptr, .field (some f)] m
      = encodeOut m (encodeOption .uint32 b v f.tag) := by
  go_call find_encodeUint32Option option_encodeUint32Option
  rw [encodeOption_eq]
  cases hv : readOpt v with
  | error e => go_run [run_IsSome _ hp, hv, encodeOut]
  | ok r =>
    obtain ⟨o, w⟩ := r
    have := readOpt_ok hv
    subst this
    cases o with
    | true =>
      have h := run_encodeUint32Required (X := X) (d := d) k b f (getPath_value hp)
      go_run [run_IsSome _ hp, run_unsafePointer, h, hv]
      cases encodeRequired .uint32 b w f.tag <;> go_run [encodeOut]
    | false => go_run [run_IsSome _ hp, hv, encodeOut]

theorem run_decodeUint32Option (b : Bytes) {p : List Step} {v : Val} (hb : b.length < 2 ^ 60) (hw : Writable p) (hp : getPath p m = .ok v) :
    decodeOut p m (decodeOption .uint32 b v) (invoke library X d (k + 4) none t!"decodeUint32Option" [.bytes (some b), .ptr p .uptr] m) := by
  go_call find_decodeUint32Option option_decodeUint32Option
  cases v with
  | opt o w =>
    obtain ⟨m1, hm⟩ := setPath_ok (x := .opt true w) hw hp
    have h := run_decodeUint32 (X := X) (d := d) k b hb (hw.snoc rfl) (getPath_value (setPath_get hm).1)
    refine decodeOut_value hm ?_
    rcases decodeOut_shape h with ⟨f, hf⟩ | ⟨n, e, m', hf⟩
    · rw [hf] at h
      go_run [hp, hm, run_unsafePointer, hf]
      exact h
    · rw [hf] at h
      go_run [hp, hm, run_unsafePointer, hf]
      exact h
  | _ => go_run [hp, decodeOption, decodeOut]

theorem run_sizeOfFixed32Option {p : List Step} {v : Val} (f : Field) (hp : getPath p m = .ok v) :
    invoke library X d (k + 4) none t!"sizeOfFixed32Option" [.ptr p .uptr, .field (some f)] m = sizeOut m (sizeOption .fixed32 v f.tag) := by
  go_call find_sizeOfFixed32Option option_sizeOfFixed32Option
  rw [sizeOption_eq]
  cases hv : readOpt v with
  | error e => go_run [run_IsSome _ hp, hv, sizeOut]
  | ok r =>
    obtain ⟨o, w⟩ := r
    have := readOpt_ok hv
    subst this
    cases o with
    | true =>
      have h := run_sizeOfFixed32Required (X := X) (d := d) k f (getPath_value hp)
      go_run [run_IsSome _ hp, run_unsafePointer, h, hv]
      cases sizeRequired .fixed32 w f.tag <;> go_run [sizeOut]
    | false => go_run [run_IsSome _ hp, hv, sizeOut]

theorem run_encodeFixed32Option (b : Bytes) {p : List Step} {v : Val} (f : Field) (hp : getPath p m = .ok v) :
    invoke library X d (k + 4) none t!"encodeFixed32Option" [.bytes (some b), .ptr p .uptr, .field (some f)] m
      = encodeOut m (encodeOption .fixed32 b v f.tag) := by
  go_call find_encodeFixed32Option option_encodeFixed32Option
  rw [encodeOption_eq]
  cases hv : readOpt v with
  | error e => go_run [run_IsSome _ hp, hv, encodeOut]
  | ok r =>
    obtain ⟨o, w⟩ := r
    have := readOpt_ok hv
    subst this
    cases o with
    | true =>
      have h := run_encodeFixed32Required (X := X) (d := d) k b f (getPath_value hp)
      go_run [run_IsSome _ hp, run_unsafePointer, h, hv]
      cases encodeRequired .fixed32 b w f.tag <;> go_run [encodeOut]
    | false => go_run [run_IsSome _ hp, hv, encodeOut]

theorem run_decodeFixed32Option (b : Bytes) {p : List Step} {v : Val} (hb : b.length < 2 ^ 60) (hw : Writable p) (hp : getPath p m = .ok v) :
    decodeOut p m (decodeOption .fixed32 b v) (invoke library X d (k + 4) none t!"decodeFixed32Option" [.bytes (some b), .ptr p .uptr] m) := by
  go_call find_decodeFixed32Option option_decodeFixed32Option
  cases v with
  | opt o w =>
    obtain ⟨m1, hm⟩ := setPath_ok (x := .opt true w) hw hp
    have h := run_decodeFixed32 (X := X) (d := d) k b hb (hw.snoc rfl) (getPath_value (setPath_get hm).1)
    refine decodeOut_value hm ?_
    rcases decodeOut_shape h with ⟨f, hf⟩ | ⟨n, e, m', hf⟩
    · rw [hf] at h
      go_run [hp, hm, run_unsafePointer, hf]
      exact h
    · rw [hf] at h
      go_run [hp, hm, run_unsafePointer, hf]
      exact h
  | _ => go_run [hp, decodeOption, decodeOut]

theorem run_sizeOfUint64Option {p : List Step} {v : Val} (f : Field) (hp : getPath p m = .ok v) :
    invoke library X d (k + 4) none t!"sizeOfUint64Option" [.ptr p .uptr, .field (some f)] m = sizeOut m (sizeOption .uint64 v f.tag) := by
  go_call find_sizeOfUint64Option option_sizeOfUint64Option
  rw [sizeOption_eq]
  cases hv : readOpt v with
  | error e => go_run [run_IsSome _ hp, hv, sizeOut]
  | ok r =>
    obtain ⟨o, w⟩ := r
    have := readOpt_ok hv
    subst this
    cases o with
    | true =>
      have h := run_sizeOfUint64Required (X := X) (d := d) k f (getPath_value hp)
      go_run [run_IsSome _ hp, run_unsafePointer, h, hv]
      cases sizeRequired .uint64 w f.tag <;> go_run [sizeOut]
    | false => go_run [run_IsSome _ hp, hv, sizeOut]

theorem run_encodeUint64Option (b : Bytes) {p : List Step} {v : Val} (f : Field) (hp : getPath p m = .ok v) :
    invoke library X d (k + 4) none t!"encodeUint64Option" [.bytes (some b), .ptr p .uptr, .field (some f)] m
      = encodeOut m (encodeOption .uint64 b v f.tag) := by
  go_call find_encodeUint64Option option_encodeUint64Option
  rw [encodeOption_eq]
  cases hv : readOpt v with
  | error e => go_run [run_IsSome _ hp, hv, encodeOut]
  | ok r =>
    obtain ⟨o, w⟩ := r
    have := readOpt_ok hv
    subst this
    cases o with
    | true =>
      have h := run_encodeUint64Required (X := X) (d := d) k b f (getPath_value hp)
      go_run [run_IsSome _ hp, run_unsafePointer, h, hv]
      cases encodeRequired .uint64 b w f.tag <;> go_run [encodeOut]
    | false => go_run [run_IsSome _ hp, hv, encodeOut]

theorem run_decodeUint64Option (b : Bytes) {p : List Step} {v : Val} (hb : b.length < 2 ^ 60) (hw : Writable p) (hp : getPath p m = .ok v) :
    decodeOut p m (decodeOption .uint64 b v) (invoke library X d (k + 4) none t!"decodeUint64Option" [.bytes (some b), .ptr p .uptr] m) := by
  go_call find_decodeUint64Option option_decodeUint64Option
  cases v with
  | opt o w =>
    obtain ⟨m1, hm⟩ := setPath_ok (x := .opt true w) hw hp
    have h := run_decodeUint64 (X := X) (d := d) k b hb (hw.snoc rfl) (getPath_value (setPath_get hm).1)
    refine decodeOut_value hm ?_
    rcases decodeOut_shape h with ⟨f, hf⟩ | ⟨n, e, m', hf⟩
    · rw [hf] at h
      go_run [hp, hm, run_unsafePointer, hf]
      exact h
    · rw [hf] at h
      go_run [hp, hm, run_unsafePointer, hf]
      exact h
  | _ => go_run [hp, decodeOption, decodeOut]

theorem run_sizeOfFixed64Option {p : List Step} {v : Val} (f : Field) (hp : getPath p m = .ok v) :
    invoke library X d (k + 4) none t!"sizeOfFixed64Option" [.ptr p .uptr, .field (some f)] m = sizeOut m (sizeOption .fixed64 v f.tag) := by
  go_call find_sizeOfFixed64Option option_sizeOfFixed64Option
  rw [sizeOption_eq]
  cases hv : readOpt v with
  | error e => go_run [run_IsSome _ hp, hv, sizeOut]
  | ok r =>
    obtain ⟨o, w⟩ := r
    have := readOpt_ok hv
    subst this
    cases o with
    | true =>
      have h := run_sizeOfFixed64Required (X := X) (d := d) k f (getPath_value hp)
      go_run [run_IsSome _ hp, run_unsafePointer, h, hv]
      cases sizeRequired .fixed64 w f.tag <;> go_run [sizeOut]
    | false => go_run [run_IsSome _ hp, hv, sizeOut]

theorem run_encodeFixed64Option (b : Bytes) {p : List Step} {v : Val} (f : Field) (hp : getPath p m = .ok v) :
    invoke library X d (k + 4) none t!"encodeFixed64Option" [.bytes (some b), .ptr p .uptr, .field (some f)] m
      = encodeOut m (encodeOption .fixed64 b v f.tag) := by
  go_call find_encodeFixed64Option option_encodeFixed64Option
  rw [encodeOption_eq]
  cases hv : readOpt v with
  | error e => go_run [run_IsSome _ hp, hv, encodeOut]
  | ok r =>
    obtain ⟨o, w⟩ := r
    have := readOpt_ok hv
    subst this
    cases o with
    | true =>
      have h := run_encodeFixed64Required (X := X) (d := d) k b f (getPath_value hp)
      go_run [run_IsSome _ hp, run_unsafePointer, h, hv]
      cases encodeRequired .fixed64 b w f.tag <;> go_run [encodeOut]
    | false => go_run [run_IsSome _ hp, hv, encodeOut]

theorem run_decodeFixed64Option (b : Bytes) {p : List Step} {v : Val} (hb : b.length < 2 ^ 60) (hw : Writable p) (hp : getPath p m = .ok v) :
    decodeOut p m (decodeOption .fixed64 b v) (invoke library X d (k + 4) none t!"decodeFixed64Option" [.bytes (some b), .ptr p .uptr] m) := by
  go_call find_decodeFixed64Option option_decodeFixed64Option
  cases v with
  | opt o w =>
    obtain ⟨m1, hm⟩ := setPath_ok (x := .opt true w) hw hp
    have h := run_decodeFixed64 (X := X) (d := d) k b hb (hw.snoc rfl) (getPath_value (setPath_get hm).1)
    refine decodeOut_value hm ?_
    rcases decodeOut_shape h with ⟨f, hf⟩ | ⟨n, e, m', hf⟩
    · rw [hf] at h
      go_run [hp, hm, run_unsafePointer, hf]
      exact h
    · rw [hf] at h
      go_run [hp, hm, run_unsafePointer, hf]
      exact h
  | _ => go_run [hp, decodeOption, decodeOut]

theorem run_sizeOfZigzag32Option {p : List Step} {v : Val} (f : Field) (hp : getPath p m = .ok v) :
    invoke library X d (k + 4) none t!"sizeOfZigzag32Option" [.ptr p .uptr, .field (some f)] m = sizeOut m (sizeOption .zigzag32 v f.tag) := by
  go_call find_sizeOfZigzag32Option option_sizeOfZigzag32Option
  rw [sizeOption_eq]
  cases hv : readOpt v with
  | error e => go_run [run_IsSome _ hp, hv, sizeOut]
  | ok r =>
    obtain ⟨o, w⟩ := r
    have := readOpt_ok hv
    subst this
    cases o with
    | true =>
      have h := run_sizeOfZigzag32Required (X := X) (d := d) k f (getPath_value hp)
      go_run [run_IsSome _ hp, run_unsafePointer, h, hv]
      cases sizeRequired .zigzag32 w f.tag <;> go_run [sizeOut]
    | false => go_run [run_IsSome _ hp, hv, sizeOut]

theorem run_encodeZigzag32Option (b : Bytes) {p : List Step} {v : Val} (f : Field) (hp : getPath p m = .ok v) :
    invoke library X d (k + 4) none t!"encodeZigzag32Option" [.bytes (some b), .ptr p .uptr, .field (some f)] m
      = encodeOut m (encodeOption .zigzag32 b v f.tag) := by
  go_call find_encodeZigzag32Option option_encodeZigzag32Option
  rw [encodeOption_eq]
  cases hv : readOpt v with
  | error e => go_run [run_IsSome _ hp, hv, encodeOut]
  | ok r =>
    obtain ⟨o, w⟩ := r
    have := readOpt_ok hv
    subst this
    cases o with
    | true =>
      have h := run_encodeZigzag32Required (X := X) (d := d) k b f (getPath_value hp)
      go_run [run_IsSome _ hp, run_unsafePointer, h, hv]
      cases encodeRequired .zigzag32 b w f.tag <;> go_run [encodeOut]
    | false => go_run [run_IsSome _ hp, hv, encodeOut]

theorem run_decodeZigzag32Option (b : Bytes) {p : List Step} {v : Val} (hb : b.length < 2 ^ 60) (hw : Writable p) (hp : getPath p m = .ok v) :
    decodeOut p m (decodeOption .zigzag32 b v) (invoke library X d (k + 4) none t!"decodeZigzag32Option" [.bytes (some b), .ptr p .uptr] m) := by
  go_call find_decodeZigzag32Option option_decodeZigzag32Option
  cases v with
  | opt o w =>
    obtain ⟨m1, hm⟩ := setPath_ok (x := .opt true w) hw hp
    have h := run_decodeZigzag32 (X := X) (d := d) k b hb (hw.snoc rfl) (getPath_value (setPath_get hm).1)
    refine decodeOut_value hm ?_
    rcases decodeOut_shape h with ⟨f, hf⟩ | ⟨n, e, m', hf⟩
    · rw [hf] at h
      go_run [hp, hm, run_unsafePointer, hf]
      exact h
    · rw [hf] at h
      go_run [hp, hm, run_unsafePointer, hf]
      exact h
  | _ => go_run [hp, decodeOption, decodeOut]

theorem run_sizeOfZigzag64Option {p : List Step} {v : Val} (f : Field) (hp : getPath p m = .ok v) :
    invoke library X d (k + 4) none t!"sizeOfZigzag64Option" [.ptr p .uptr, .field (some f)] m = sizeOut m (sizeOption .zigzag64 v f.tag) := by
  go_call find_sizeOfZigzag64Option option_sizeOfZigzag64Option
  rw [sizeOption_eq]
  cases hv : readOpt v with
  | error e => go_run [run_IsSome _ hp, hv, sizeOut]
  | ok r =>
    obtain ⟨o, w⟩ := r
    have := readOpt_ok hv
    subst this
    cases o with
    | true =>
      have h := run_sizeOfZigzag64Required (X := X) (d := d) k f (getPath_value hp)
      go_run [run_IsSome _ hp, run_unsafePointer, h, hv]
      cases sizeRequired .zigzag64 w f.tag <;> go_run [sizeOut]
    | false => go_run [run_IsSome _ hp, hv, sizeOut]

theorem run_encodeZigzag64Option (b : Bytes) {p : List Step} {v : Val} (f : Field) (hp : getPath p m = .ok v) :
    invoke library X d (k + 4) none t!"encodeZigzag64Option" [.bytes (some b), .ptr p .uptr, .field (some f)] m
      = encodeOut m (encodeOption .zigzag64 b v f.tag) := by
  go_call find_encodeZigzag64Option option_encodeZigzag64Option
  rw [encodeOption_eq]
  cases hv : readOpt v with
  | error e => go_run [run_IsSome _ hp, hv, encodeOut]
  | ok r =>
    obtain ⟨o, w⟩ := r
    have := readOpt_ok hv
    subst this
    cases o with
    | true =>
      have h := run_encodeZigzag64Required (X := X) (d := d) k b f (getPath_value hp)
      go_run [run_IsSome _ hp, run_unsafePointer, h, hv]
      cases encodeRequired .zigzag64 b w f.tag <;> go_run [encodeOut]
    | false => go_run [run_IsSome _ hp, hv, encodeOut]

theorem run_decodeZigzag64Option (b : Bytes) {p : List Step} {v : Val} (hb : b.length < 2 ^ 60) (hw : Writable p) (hp : getPath p m = .ok v) :
    decodeOut p m (decodeOption .zigzag64 b v) (invoke library X d (k + 4) none t!"decodeZigzag64Option" [.bytes (some b), .ptr p .uptr] m) := by
  go_call find_decodeZigzag64Option option_decodeZigzag64Option
  cases v with
  | opt o w =>
    obtain ⟨m1, hm⟩ := setPath_ok (x := .opt true w) hw hp
    have h := run_decodeZigzag64 (X := X) (d := d) k b hb (hw.snoc rfl) (getPath_value (setPath_get hm).1)
    refine decodeOut_value hm ?_
    rcases decodeOut_shape h with ⟨f, hf⟩ | ⟨n, e, m', hf⟩
    · rw [hf] at h
      go_run [hp, hm, run_unsafePointer, hf]
      exact h
    · rw [hf] at h
      go_run [hp, hm, run_unsafePointer, hf]
      exact h
  | _ => go_run [hp, decodeOption, decodeOut]

end Pb.Go
