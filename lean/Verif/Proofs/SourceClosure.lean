import Verif.Proofs.SourceLoop
/-
Running the function literals of walker.go, slice.go and map.go.
-/
namespace Pb.Go
open Tree

set_option linter.unusedSimpArgs false

variable {X : Calls} {d : Nat} (k : Nat) {m : Val}

/-! ### pointers -/

theorem run_pointerSize_nil {p : List Step} (c : Codec) (f : Field) (hp : getPath p m = .ok .nilp) :
    callClosure (invoke library X d (k + 1)) d closure_pointerSize [(t!"c", .codec c)] [.ptr p .uptr, .field (some f)] m = .ok ([.int 0#64], m) := by
  unfold closure_pointerSize
  go_run [callClosure, run_deref, hp]

theorem run_pointerSize {p : List Step} {v : Val} {c : Codec} {f : Field} {x : BitVec 64} (hp : getPath p m = .ok (.ptr v))
    (hX : X (some (.codec c)) t!"size" [.ptr (p ++ [.deref]) .uptr, .field (some f)] m = .ok ([.int x], m)) :
    callClosure (invoke library X d (k + 1)) d closure_pointerSize [(t!"c", .codec c)] [.ptr p .uptr, .field (some f)] m = .ok ([.int x], m) := by
  unfold closure_pointerSize
  go_run [callClosure, run_deref, hp, run_codec, hX]

theorem run_pointerEncode_nil {p : List Step} (c : Codec) (b : Bytes) (f : Field) (hp : getPath p m = .ok .nilp) :
    callClosure (invoke library X d (k + 1)) d closure_pointerEncode [(t!"c", .codec c)] [.bytes (some b), .ptr p .uptr, .field (some f)] m
      = .ok ([.bytes (some b)], m) := by
  unfold closure_pointerEncode
  go_run [callClosure, run_deref, hp]

theorem run_pointerEncode {p : List Step} {v : Val} {c : Codec} {f : Field} {b x : Bytes} (hp : getPath p m = .ok (.ptr v))
    (hX : X (some (.codec c)) t!"encode" [.bytes (some b), .ptr (p ++ [.deref]) .uptr, .field (some f)] m = .ok ([.bytes (some x)], m)) :
    callClosure (invoke library X d (k + 1)) d closure_pointerEncode [(t!"c", .codec c)] [.bytes (some b), .ptr p .uptr, .field (some f)] m
      = .ok ([.bytes (some x)], m) := by
  unfold closure_pointerEncode
  go_run [callClosure, run_deref, hp, run_codec, hX]

theorem run_pointerDecode_nil {p : List Step} {z m1 m2 : Val} {c : Codec} {b : Bytes} {i : BitVec 64} {e : Option Err} (hp : getPath p m = .ok .nilp)
    (hs : setPath (.ptr z) p m = .ok m1)
    (hX : X (some (.codec c)) t!"decode" [.bytes (some b), .ptr (p ++ [.deref]) .uptr] m1 = .ok ([.int i, .err e], m2)) :
    callClosure (invoke library X d (k + 1)) d closure_pointerDecode [(t!"t", .rtype z), (t!"c", .codec c)] [.bytes (some b), .ptr p .uptr] m
      = .ok ([.int i, .err e], m2) := by
  have hg := (setPath_get hs).1
  unfold closure_pointerDecode
  go_run [callClosure, hp, hs, hg, run_codec, hX]

theorem run_pointerDecode {p : List Step} {z v m2 : Val} {c : Codec} {b : Bytes} {i : BitVec 64} {e : Option Err} (hp : getPath p m = .ok (.ptr v))
    (hX : X (some (.codec c)) t!"decode" [.bytes (some b), .ptr (p ++ [.deref]) .uptr] m = .ok ([.int i, .err e], m2)) :
    callClosure (invoke library X d (k + 1)) d closure_pointerDecode [(t!"t", .rtype z), (t!"c", .codec c)] [.bytes (some b), .ptr p .uptr] m
      = .ok ([.int i, .err e], m2) := by
  unfold closure_pointerDecode
  go_run [callClosure, hp, run_codec, hX]

/-! ### messages -/

theorem run_messageSize_nil {p : List Step} {z : Val} {fs : List Field} (f : Field) (hp : getPath p m = .ok .nilp) :
    callClosure (invoke library X d (k + 1)) d closure_messageSize (msgVars fs z) [.ptr p .uptr, .field (some f)] m = .ok ([.int 0#64], m) := by
  unfold closure_messageSize
  go_run [callClosure, msgVars, run_deref, hp]

theorem run_messageSize {p : List Step} {v z : Val} {fs : List Field} {f : Field} {n : Nat} (hp : getPath p m = .ok (.ptr v))
    (hI : invoke library X d (k + 1) (some (.info fs)) t!"size" [.ptr (p ++ [.deref]) .uptr] m = .ok ([.int (BitVec.ofNat 64 n)], m)) :
    callClosure (invoke library X d (k + 1)) d closure_messageSize (msgVars fs z) [.ptr p .uptr, .field (some f)] m
      = .ok ([.int (BitVec.ofNat 64 (n + (sizeOfVarint (BitVec.ofNat 64 n) + f.tag.tagsize)))], m) := by
  unfold closure_messageSize
  go_run [callClosure, msgVars, run_deref, hp, hI, run_sizeOfVarint, BitVec.ofNat_add]

theorem run_messageEncode_nil {p : List Step} {z : Val} {fs : List Field} (b : Bytes) (f : Field) (hp : getPath p m = .ok .nilp) :
    callClosure (invoke library X d (k + 1)) d closure_messageEncode (msgVars fs z) [.bytes (some b), .ptr p .uptr, .field (some f)] m
      = .ok ([.bytes (some b)], m) := by
  unfold closure_messageEncode
  go_run [callClosure, msgVars, run_deref, hp]

theorem run_messageEncode {p : List Step} {v z : Val} {fs : List Field} {f : Field} {n : Nat} {b x : Bytes} (hp : getPath p m = .ok (.ptr v))
    (hI : invoke library X d (k + 1) (some (.info fs)) t!"size" [.ptr (p ++ [.deref]) .uptr] m = .ok ([.int (BitVec.ofNat 64 n)], m))
    (hE : invoke library X d (k + 1) (some (.info fs)) t!"encode"
      [.bytes (some (appendVarint (appendVarint b f.tag.wiretag) (BitVec.ofNat 64 n))), .ptr (p ++ [.deref]) .uptr] m = .ok ([.bytes (some x)], m)) :
    callClosure (invoke library X d (k + 1)) d closure_messageEncode (msgVars fs z) [.bytes (some b), .ptr p .uptr, .field (some f)] m
      = .ok ([.bytes (some x)], m) := by
  unfold closure_messageEncode
  go_run [callClosure, msgVars, run_deref, hp, hI, hE, run_appendVarint]

/-- What is there after `if *v == nil { *v = new }`. -/
def Made (z : Val) (p : List Step) (m m1 : Val) : Prop :=
  (getPath p m = .ok .nilp ∧ setPath (.ptr z) p m = .ok m1) ∨ (m1 = m ∧ ∃ v, getPath p m = .ok (.ptr v))

theorem run_messageDecode_err {p : List Step} {z m1 : Val} {fs : List Field} {b : Bytes} {x : U64} {n : Nat} {e : Err} (hb : b.length < 2 ^ 60)
    (h1 : Made z p m m1) (hv : decodeVarint b = (x, n, some e)) :
    callClosure (invoke library X d (k + 1)) d closure_messageDecode (msgVars fs z) [.bytes (some b), .ptr p .uptr] m
      = .ok ([.int (BitVec.ofNat 64 n), .err (some e)], m1) := by
  have hr := fun m => run_decodeVarint (X := X) (d := d) k (m := m) b hb
  rw [hv] at hr
  unfold closure_messageDecode
  rcases h1 with ⟨hp, hs⟩ | ⟨rfl, v, hp⟩
  · have hg := (setPath_get hs).1
    go_run [callClosure, msgVars, hp, hs, hg, hr, varintResult]
  · go_run [callClosure, msgVars, hp, hr, varintResult]

theorem run_messageDecode {p : List Step} {z m1 m2 : Val} {fs : List Field} {b : Bytes} {x : U64} {n : Nat} {i : BitVec 64} {e : Option Err}
    (hb : b.length < 2 ^ 60) (h1 : Made z p m m1) (hv : decodeVarint b = (x, n, none))
    (hI : invoke library X d (k + 1) (some (.info fs)) t!"decode" [.bytes (some (b.drop n)), .ptr (p ++ [.deref]) .uptr] m1 = .ok ([.int i, .err e], m2)) :
    callClosure (invoke library X d (k + 1)) d closure_messageDecode (msgVars fs z) [.bytes (some b), .ptr p .uptr] m
      = .ok ([.int (BitVec.ofNat 64 n + i), .err e], m2) := by
  have hn := decodeVarint_le hv
  have hsl := slice_from hb hn
  have hr := fun m => run_decodeVarint (X := X) (d := d) k (m := m) b hb
  rw [hv] at hr
  unfold closure_messageDecode
  have e1 : n % 18446744073709551616 = n := Nat.mod_eq_of_lt (by omega)
  rcases h1 with ⟨hp, hs⟩ | ⟨rfl, v, hp⟩
  · obtain ⟨hg, _⟩ := setPath_get hs
    go_run [callClosure, msgVars, hp, hs, hg, hr, varintResult, hI, msb_ofNat (show n < 2 ^ 63 by omega), e1, hn, Option.map]
  · go_run [callClosure, msgVars, hp, hr, varintResult, hI, msb_ofNat (show n < 2 ^ 63 by omega), e1, hn, Option.map]

end Pb.Go
