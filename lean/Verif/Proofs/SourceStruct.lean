import Verif.Proofs.SourceOpt
/-
Running size and encode of struct.go.
-/
namespace Pb.Go
open Tree

set_option linter.unusedSimpArgs false

variable {X : Calls} {d : Nat} (k : Nat) {m : Val}

theorem run_codec (c : Codec) (n : Text) (args : List V) :
    invoke library X d (k + 1) (some (.codec c)) n args m = X (some (.codec c)) n args m := by
  rw [invoke]; simp only [Option.map, V.typeName, find_codec]

theorem run_fieldNumber (f : Field) :
    invoke library X d (k + 1) (some (.field (some f))) t!"fieldNumber" [] m = .ok ([.uint (f.tag.wiretag >>> 3)], m) := by
  go_call find_fieldNumber struct_fieldNumber
  go_run []

theorem run_wireType (f : Field) :
    invoke library X d (k + 1) (some (.field (some f))) t!"wireType" [] m = .ok ([.uint (f.tag.wiretag &&& 7#64)], m) := by
  go_call find_wireType struct_wireType
  go_run []

theorem run_pointer (f : Field) (p : List Step) :
    invoke library X d (k + 1) (some (.field (some f))) t!"pointer" [.ptr p .uptr] m = .ok ([.ptr (p ++ [.slot f.offset]) .uptr], m) := by
  go_call find_pointer struct_pointer
  go_run []

theorem run_deref (p : List Step) :
    invoke library X d (k + 1) none t!"deref" [.ptr p .uptr] m = ((getPath p m).bind (loadPtr p)).map fun v => ([v], m) := by
  go_call find_deref deref_deref
  cases h : getPath p m with
  | error e => go_run [h]
  | ok v =>
    cases v with
    | map n es => cases n <;> go_run [h]
    | _ => go_run [h]

theorem run_fieldError (a w : U64) (e : Err) :
    invoke library X d (k + 1) none t!"fieldError" [.uint a, .uint w, .err (some e)] m
      = .ok ([.err (some (.field a.toNat w.toNat e))], m) := by
  go_call find_fieldError fieldError_fieldError
  go_run []

/-! ### size and encode -/

/-- The body of the loop of `size`. -/
def sizeBody : Stmt :=
  match struct_size.body with
  | .seq _ (.seq _ (.seq (.range _ _ _ b) _)) => b
  | _ => .skip

/-- The variables of `size` in the loop. -/
def sizeVars (x : BitVec 64) (p : List Step) (fs : List Field) : Vars :=
  [(t!"n", .int x), (t!"p", .ptr p .uptr), (t!"info", .info fs)]

theorem size_step {p : List Step} {fs : List Field} {f : Field} {s : Nat} (x : BitVec 64) (i : V) (b : Nat)
    (hX : X (some (.codec f.codec)) t!"size" [.ptr (p ++ [.slot f.offset]) .uptr, .field (some f)] m = .ok ([.int (BitVec.ofNat 64 s)], m)) :
    inBlock (fun s => exec (invoke library X d (k + 1)) d sizeBody (rangeVar t!"f" (.field (some f)) (rangeVar t!"_" i s)))
      ⟨sizeVars x p fs, b, m⟩ = .ok (.next, ⟨sizeVars (x + BitVec.ofNat 64 s) p fs, b, m⟩) := by
  have hb : sizeBody = .seq (.opAssign .add (.ident t!"n") (.call (.sel (.sel (.ident t!"f") t!"codec") t!"size")
    (.arg (.call (.sel (.ident t!"f") t!"pointer") (.arg (.ident t!"p") .none)) (.arg (.ident t!"f") .none)))) .skip := rfl
  rw [hb]
  go_run [rangeVar, sizeVars, run_pointer, run_codec, hX]

theorem size_loop {p : List Step} {w : Val} {size : Codec → Val → FTag → Except Fault Nat} (all : List Field) (b : Nat) : ∀ (fs : List Field)
    (a : Nat) (i : Nat) {n : Nat},
    (∀ f ∈ fs, ∀ v s, slotOf w f.offset = .ok v → size f.codec v f.tag = .ok s →
      X (some (.codec f.codec)) t!"size" [.ptr (p ++ [.slot f.offset]) .uptr, .field (some f)] m = .ok ([.int (BitVec.ofNat 64 s)], m)) →
    sumSizes (fun (f : Field) => do
      let v ← slotOf w f.offset
      size f.codec v f.tag) a fs = .ok n →
    rangeFields (fun i f => inBlock (fun s => exec (invoke library X d (k + 1)) d sizeBody (rangeVar t!"f" f (rangeVar t!"_" i s)))) i fs
      ⟨sizeVars (BitVec.ofNat 64 a) p all, b, m⟩ = .ok (.next, ⟨sizeVars (BitVec.ofNat 64 n) p all, b, m⟩) := by
  intro fs
  induction fs with
  | nil =>
    intro a i n _ h
    cases h
    rfl
  | cons f fs ih =>
    intro a i n hX h
    rw [sumSizes] at h
    cases hv : slotOf w f.offset with
    | error e => rw [hv] at h; cases h
    | ok v =>
      cases hs : size f.codec v f.tag with
      | error e => rw [hv] at h; simp only [bind, Except.bind, hs] at h; cases h
      | ok s =>
        rw [hv] at h
        simp only [bind, Except.bind, hs] at h
        rw [rangeFields, size_step k _ _ _ (hX f (by simp) v s hv hs)]
        simp only [bind, Except.bind]
        rw [← BitVec.ofNat_add]
        exact ih (a + s) (i + 1) (fun f hf => hX f (by simp [hf])) h

theorem run_size {p : List Step} {w : Val} {size : Codec → Val → FTag → Except Fault Nat} {fs : List Field} {n : Nat}
    (hX : ∀ f ∈ fs, ∀ v s, slotOf w f.offset = .ok v → size f.codec v f.tag = .ok s →
      X (some (.codec f.codec)) t!"size" [.ptr (p ++ [.slot f.offset]) .uptr, .field (some f)] m = .ok ([.int (BitVec.ofNat 64 s)], m))
    (h : structSize size fs w = .ok n) :
    invoke library X d (k + 2) (some (.info fs)) t!"size" [.ptr p .uptr] m = .ok ([.int (BitVec.ofNat 64 n)], m) := by
  have hl := size_loop (X := X) (d := d) (p := p) k fs 3 fs 0 0 hX h
  rw [invoke]
  simp only [Option.map, V.typeName, find_size]
  have hbody : struct_size.body = .seq (.ite .skip (.bin .eq (.ident t!"p") (.ident t!"nil")) (.seq (.ret (.arg (.num 0) .none)) .skip) .skip)
    (.seq (.define (.arg (.ident t!"n") .none) (.num 0)) (.seq (.range t!"_" t!"f" (.sel (.ident t!"info") t!"fields") sizeBody)
      (.seq (.ret (.arg (.ident t!"n") .none)) .skip))) := rfl
  have hp : struct_size.params = [(t!"p", .sel (.ident t!"unsafe") t!"Pointer")] := rfl
  have hr : struct_size.results = [(t!"", .ident t!"int")] := rfl
  have hv : struct_size.recv = some (t!"info", .un .deref (.ident t!"structInfo")) := rfl
  simp only [callFunc, hbody, hp, hr, hv]
  simp only [sizeVars] at hl
  generalize sizeBody = B at hl ⊢
  go_run [hl]

/-- The body of the loop of `encode`. -/
def encodeBody : Stmt :=
  match struct_encode.body with
  | .seq _ (.seq (.range _ _ _ b) _) => b
  | _ => .skip

/-- The variables of `encode`. -/
def encodeVars (b : Bytes) (p : List Step) (fs : List Field) : Vars :=
  [(t!"b", .bytes (some b)), (t!"p", .ptr p .uptr), (t!"info", .info fs)]

theorem encode_step {p : List Step} {fs : List Field} {f : Field} {c : Bytes} (b : Bytes) (i : V) (n : Nat)
    (hX : X (some (.codec f.codec)) t!"encode" [.bytes (some b), .ptr (p ++ [.slot f.offset]) .uptr, .field (some f)] m
      = .ok ([.bytes (some c)], m)) :
    inBlock (fun s => exec (invoke library X d (k + 1)) d encodeBody (rangeVar t!"f" (.field (some f)) (rangeVar t!"_" i s)))
      ⟨encodeVars b p fs, n, m⟩ = .ok (.next, ⟨encodeVars c p fs, n, m⟩) := by
  have hb : encodeBody = .seq (.assign (.arg (.ident t!"b") .none) (.arg (.call (.sel (.sel (.ident t!"f") t!"codec") t!"encode")
    (.arg (.ident t!"b") (.arg (.call (.sel (.ident t!"f") t!"pointer") (.arg (.ident t!"p") .none)) (.arg (.ident t!"f") .none)))) .none)) .skip := rfl
  rw [hb]
  go_run [rangeVar, encodeVars, run_pointer, run_codec, hX]

theorem encode_loop {p : List Step} {w : Val} {enc : Codec → Bytes → Val → FTag → Except Fault Bytes} (all : List Field) (n : Nat) :
    ∀ (fs : List Field) (b : Bytes) (i : Nat) {c : Bytes},
    (∀ f ∈ fs, ∀ b v c, slotOf w f.offset = .ok v → enc f.codec b v f.tag = .ok c →
      X (some (.codec f.codec)) t!"encode" [.bytes (some b), .ptr (p ++ [.slot f.offset]) .uptr, .field (some f)] m
        = .ok ([.bytes (some c)], m)) →
    appendAll (fun b (f : Field) => do
      let v ← slotOf w f.offset
      enc f.codec b v f.tag) b fs = .ok c →
    rangeFields (fun i f => inBlock (fun s => exec (invoke library X d (k + 1)) d encodeBody (rangeVar t!"f" f (rangeVar t!"_" i s)))) i fs
      ⟨encodeVars b p all, n, m⟩ = .ok (.next, ⟨encodeVars c p all, n, m⟩) := by
  intro fs
  induction fs with
  | nil =>
    intro a i n _ h
    cases h
    rfl
  | cons f fs ih =>
    intro b i c hX h
    rw [appendAll] at h
    cases hv : slotOf w f.offset with
    | error e => rw [hv] at h; cases h
    | ok v =>
      cases hs : enc f.codec b v f.tag with
      | error e => rw [hv] at h; simp only [bind, Except.bind, hs] at h; cases h
      | ok s =>
        rw [hv] at h
        simp only [bind, Except.bind, hs] at h
        rw [rangeFields, encode_step k _ _ _ (hX f (by simp) b v s hv hs)]
        simp only [bind, Except.bind]
        exact ih s (i + 1) (fun f hf => hX f (by simp [hf])) h

theorem run_encode {p : List Step} {w : Val} {enc : Codec → Bytes → Val → FTag → Except Fault Bytes} {fs : List Field} {b c : Bytes}
    (hX : ∀ f ∈ fs, ∀ b v c, slotOf w f.offset = .ok v → enc f.codec b v f.tag = .ok c →
      X (some (.codec f.codec)) t!"encode" [.bytes (some b), .ptr (p ++ [.slot f.offset]) .uptr, .field (some f)] m
        = .ok ([.bytes (some c)], m))
    (h : structEncode enc fs b w = .ok c) :
    invoke library X d (k + 2) (some (.info fs)) t!"encode" [.bytes (some b), .ptr p .uptr] m = .ok ([.bytes (some c)], m) := by
  have hl := encode_loop (X := X) (d := d) (p := p) k fs 3 fs b 0 hX h
  rw [invoke]
  simp only [Option.map, V.typeName, find_encode]
  have hbody : struct_encode.body = .seq (.ite .skip (.bin .eq (.ident t!"p") (.ident t!"nil")) (.seq (.ret (.arg (.ident t!"b") .none)) .skip) .skip)
    (.seq (.range t!"_" t!"f" (.sel (.ident t!"info") t!"fields") encodeBody)
      (.seq (.ret (.arg (.ident t!"b") .none)) .skip)) := rfl
  have hp : struct_encode.params = [(t!"b", .un .sliceOf (.ident t!"byte")), (t!"p", .sel (.ident t!"unsafe") t!"Pointer")] := rfl
  have hr : struct_encode.results = [(t!"", .un .sliceOf (.ident t!"byte"))] := rfl
  have hv : struct_encode.recv = some (t!"info", .un .deref (.ident t!"structInfo")) := rfl
  simp only [callFunc, hbody, hp, hr, hv]
  simp only [encodeVars] at hl
  generalize encodeBody = B at hl ⊢
  go_run [hl]

end Pb.Go
