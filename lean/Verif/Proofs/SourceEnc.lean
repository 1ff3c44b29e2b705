import Verif.Proofs.SourceSize
/-
Running the encode functions of normal_codec.go and required_codec.go.
-/
namespace Pb.Go
open Tree

set_option linter.unusedSimpArgs false

variable {X : Calls} {d : Nat} (k : Nat) {m : Val}

theorem run_encodeBool (b : Bytes) {p : List Step} {v : Val} (f : Field) (hp : getPath p m = .ok v) :
    invoke library X d (k + 3) none t!"encodeBool" [.bytes (some b), .ptr p .uptr, .field (some f)] m
      = encodeOut m (encodeNormal .bool b v f.tag) := by
  go_call find_encodeBool normal_encodeBool
  cases h : readB8 v with
  | error e => go_run [hp, h, encodeNormal, encodeRequired, encodeOut, run_appendVarint, run_encodeLE32, run_encodeLE64, run_encodeZigZag64, sext, zext, len64]
  | ok x =>
    cases x with
    | true => go_run [hp, h, encodeNormal, encodeRequired, encodeOut, run_appendVarint, run_encodeLE32, run_encodeLE64, run_encodeZigZag64, sext, zext, len64]
    | false => go_run [hp, h, encodeNormal, encodeRequired, encodeOut, run_appendVarint, run_encodeLE32, run_encodeLE64, run_encodeZigZag64, sext, zext, len64]

theorem run_encodeString (b : Bytes) {p : List Step} {v : Val} (f : Field) (hp : getPath p m = .ok v) :
    invoke library X d (k + 3) none t!"encodeString" [.bytes (some b), .ptr p .uptr, .field (some f)] m
      = encodeOut m (encodeNormal .string b v f.tag) := by
  go_call find_encodeString normal_encodeString
  cases h : readStr v with
  | error e => go_run [hp, h, encodeNormal, encodeRequired, encodeOut, run_appendVarint, run_encodeLE32, run_encodeLE64, run_encodeZigZag64, sext, zext, len64]
  | ok x =>
    by_cases h1 : x = []
    · go_run [hp, h, h1, encodeNormal, encodeRequired, encodeOut, run_appendVarint, run_encodeLE32, run_encodeLE64, run_encodeZigZag64, sext, zext, len64]
    · go_run [hp, h, h1, encodeNormal, encodeRequired, encodeOut, run_appendVarint, run_encodeLE32, run_encodeLE64, run_encodeZigZag64, sext, zext, len64]

theorem run_encodeFloat32 (b : Bytes) {p : List Step} {v : Val} (f : Field) (hp : getPath p m = .ok v) :
    invoke library X d (k + 3) none t!"encodeFloat32" [.bytes (some b), .ptr p .uptr, .field (some f)] m
      = encodeOut m (encodeNormal .float32 b v f.tag) := by
  go_call find_encodeFloat32 normal_encodeFloat32
  cases h : read32 v with
  | error e => go_run [hp, h, encodeNormal, encodeRequired, encodeOut, run_appendVarint, run_encodeLE32, run_encodeLE64, run_encodeZigZag64, sext, zext, len64]
  | ok x =>
    have hf := f32Present_eq x
    cases h1 : f32Eq x 0#32 with
    | false =>
      simp only [h1, Bool.not_false, Bool.true_or] at hf
      go_run [hp, h, h1, ← hf, encodeNormal, encodeRequired, encodeOut, run_appendVarint, run_encodeLE32, run_encodeLE64, run_encodeZigZag64, sext, zext, len64]
    | true =>
      cases h2 : x.msb with
      | true =>
        simp only [h1, h2, Bool.not_true, Bool.false_or] at hf
        go_run [hp, h, h1, h2, ← hf, encodeNormal, encodeRequired, encodeOut, run_appendVarint, run_encodeLE32, run_encodeLE64, run_encodeZigZag64, sext, zext, len64]
      | false =>
        simp only [h1, h2, Bool.not_true, Bool.false_or] at hf
        go_run [hp, h, h1, h2, ← hf, encodeNormal, encodeRequired, encodeOut, run_appendVarint, run_encodeLE32, run_encodeLE64, run_encodeZigZag64, sext, zext, len64]

theorem run_encodeFloat64 (b : Bytes) {p : List Step} {v : Val} (f : Field) (hp : getPath p m = .ok v) :
    invoke library X d (k + 3) none t!"encodeFloat64" [.bytes (some b), .ptr p .uptr, .field (some f)] m
      = encodeOut m (encodeNormal .float64 b v f.tag) := by
  go_call find_encodeFloat64 normal_encodeFloat64
  cases h : read64 v with
  | error e => go_run [hp, h, encodeNormal, encodeRequired, encodeOut, run_appendVarint, run_encodeLE32, run_encodeLE64, run_encodeZigZag64, sext, zext, len64]
  | ok x =>
    have hf := f64Present_eq x
    cases h1 : f64Eq x 0#64 with
    | false =>
      simp only [h1, Bool.not_false, Bool.true_or] at hf
      go_run [hp, h, h1, ← hf, encodeNormal, encodeRequired, encodeOut, run_appendVarint, run_encodeLE32, run_encodeLE64, run_encodeZigZag64, sext, zext, len64]
    | true =>
      cases h2 : x.msb with
      | true =>
        simp only [h1, h2, Bool.not_true, Bool.false_or] at hf
        go_run [hp, h, h1, h2, ← hf, encodeNormal, encodeRequired, encodeOut, run_appendVarint, run_encodeLE32, run_encodeLE64, run_encodeZigZag64, sext, zext, len64]
      | false =>
        simp only [h1, h2, Bool.not_true, Bool.false_or] at hf
        go_run [hp, h, h1, h2, ← hf, encodeNormal, encodeRequired, encodeOut, run_appendVarint, run_encodeLE32, run_encodeLE64, run_encodeZigZag64, sext, zext, len64]

theorem run_encodeInt32 (b : Bytes) {p : List Step} {v : Val} (f : Field) (hp : getPath p m = .ok v) :
    invoke library X d (k + 3) none t!"encodeInt32" [.bytes (some b), .ptr p .uptr, .field (some f)] m
      = encodeOut m (encodeNormal .int32 b v f.tag) := by
  go_call find_encodeInt32 normal_encodeInt32
  cases h : read32 v with
  | error e => go_run [hp, h, encodeNormal, encodeRequired, encodeOut, run_appendVarint, run_encodeLE32, run_encodeLE64, run_encodeZigZag64, sext, zext, len64]
  | ok x =>
    by_cases h1 : x = 0#32
    · go_run [hp, h, h1, encodeNormal, encodeRequired, encodeOut, run_appendVarint, run_encodeLE32, run_encodeLE64, run_encodeZigZag64, sext, zext, len64]
    · go_run [hp, h, h1, encodeNormal, encodeRequired, encodeOut, run_appendVarint, run_encodeLE32, run_encodeLE64, run_encodeZigZag64, sext, zext, len64]

theorem run_encodeInt64 (b : Bytes) {p : List Step} {v : Val} (f : Field) (hp : getPath p m = .ok v) :
    invoke library X d (k + 3) none t!"encodeInt64" [.bytes (some b), .ptr p .uptr, .field (some f)] m
      = encodeOut m (encodeNormal .int64 b v f.tag) := by
  go_call find_encodeInt64 normal_encodeInt64
  cases h : read64 v with
  | error e => go_run [hp, h, encodeNormal, encodeRequired, encodeOut, run_appendVarint, run_encodeLE32, run_encodeLE64, run_encodeZigZag64, sext, zext, len64]
  | ok x =>
    by_cases h1 : x = 0#64
    · go_run [hp, h, h1, encodeNormal, encodeRequired, encodeOut, run_appendVarint, run_encodeLE32, run_encodeLE64, run_encodeZigZag64, sext, zext, len64]
    · go_run [hp, h, h1, encodeNormal, encodeRequired, encodeOut, run_appendVarint, run_encodeLE32, run_encodeLE64, run_encodeZigZag64, sext, zext, len64]

theorem run_encodeUint32 (b : Bytes) {p : List Step} {v : Val} (f : Field) (hp : getPath p m = .ok v) :
    invoke library X d (k + 3) none t!"encodeUint32" [.bytes (some b), .ptr p .uptr, .field (some f)] m
      = encodeOut m (encodeNormal .uint32 b v f.tag) := by
  go_call find_encodeUint32 normal_encodeUint32
  cases h : read32 v with
  | error e => go_run [hp, h, encodeNormal, encodeRequired, encodeOut, run_appendVarint, run_encodeLE32, run_encodeLE64, run_encodeZigZag64, sext, zext, len64]
  | ok x =>
    by_cases h1 : x = 0#32
    · go_run [hp, h, h1, encodeNormal, encodeRequired, encodeOut, run_appendVarint, run_encodeLE32, run_encodeLE64, run_encodeZigZag64, sext, zext, len64]
    · go_run [hp, h, h1, encodeNormal, encodeRequired, encodeOut, run_appendVarint, run_encodeLE32, run_encodeLE64, run_encodeZigZag64, sext, zext, len64]

theorem run_encodeFixed32 (b : Bytes) {p : List Step} {v : Val} (f : Field) (hp : getPath p m = .ok v) :
    invoke library X d (k + 3) none t!"encodeFixed32" [.bytes (some b), .ptr p .uptr, .field (some f)] m
      = encodeOut m (encodeNormal .fixed32 b v f.tag) := by
  go_call find_encodeFixed32 normal_encodeFixed32
  cases h : read32 v with
  | error e => go_run [hp, h, encodeNormal, encodeRequired, encodeOut, run_appendVarint, run_encodeLE32, run_encodeLE64, run_encodeZigZag64, sext, zext, len64]
  | ok x =>
    by_cases h1 : x = 0#32
    · go_run [hp, h, h1, encodeNormal, encodeRequired, encodeOut, run_appendVarint, run_encodeLE32, run_encodeLE64, run_encodeZigZag64, sext, zext, len64]
    · go_run [hp, h, h1, encodeNormal, encodeRequired, encodeOut, run_appendVarint, run_encodeLE32, run_encodeLE64, run_encodeZigZag64, sext, zext, len64]

theorem run_encodeUint64 (b : Bytes) {p : List Step} {v : Val} (f : Field) (hp : getPath p m = .ok v) :
    invoke library X d (k + 3) none t!"encodeUint64" [.bytes (some b), .ptr p .uptr, .field (some f)] m
      = encodeOut m (encodeNormal .uint64 b v f.tag) := by
  go_call find_encodeUint64 normal_encodeUint64
  cases h : read64 v with
  | error e => go_run [hp, h, encodeNormal, encodeRequired, encodeOut, run_appendVarint, run_encodeLE32, run_encodeLE64, run_encodeZigZag64, sext, zext, len64]
  | ok x =>
    by_cases h1 : x = 0#64
    · go_run [hp, h, h1, encodeNormal, encodeRequired, encodeOut, run_appendVarint, run_encodeLE32, run_encodeLE64, run_encodeZigZag64, sext, zext, len64]
    · go_run [hp, h, h1, encodeNormal, encodeRequired, encodeOut, run_appendVarint, run_encodeLE32, run_encodeLE64, run_encodeZigZag64, sext, zext, len64]

theorem run_encodeFixed64 (b : Bytes) {p : List Step} {v : Val} (f : Field) (hp : getPath p m = .ok v) :
    invoke library X d (k + 3) none t!"encodeFixed64" [.bytes (some b), .ptr p .uptr, .field (some f)] m
      = encodeOut m (encodeNormal .fixed64 b v f.tag) := by
  go_call find_encodeFixed64 normal_encodeFixed64
  cases h : read64 v with
  | error e => go_run [hp, h, encodeNormal, encodeRequired, encodeOut, run_appendVarint, run_encodeLE32, run_encodeLE64, run_encodeZigZag64, sext, zext, len64]
  | ok x =>
    by_cases h1 : x = 0#64
    · go_run [hp, h, h1, encodeNormal, encodeRequired, encodeOut, run_appendVarint, run_encodeLE32, run_encodeLE64, run_encodeZigZag64, sext, zext, len64]
    · go_run [hp, h, h1, encodeNormal, encodeRequired, encodeOut, run_appendVarint, run_encodeLE32, run_encodeLE64, run_encodeZigZag64, sext, zext, len64]

theorem run_encodeZigzag32 (b : Bytes) {p : List Step} {v : Val} (f : Field) (hp : getPath p m = .ok v) :
    invoke library X d (k + 3) none t!"encodeZigzag32" [.bytes (some b), .ptr p .uptr, .field (some f)] m
      = encodeOut m (encodeNormal .zigzag32 b v f.tag) := by
  go_call find_encodeZigzag32 normal_encodeZigzag32
  cases h : read32 v with
  | error e => go_run [hp, h, encodeNormal, encodeRequired, encodeOut, run_appendVarint, run_encodeLE32, run_encodeLE64, run_encodeZigZag64, sext, zext, len64]
  | ok x =>
    by_cases h1 : x = 0#32
    · go_run [hp, h, h1, encodeNormal, encodeRequired, encodeOut, run_appendVarint, run_encodeLE32, run_encodeLE64, run_encodeZigZag64, sext, zext, len64]
    · go_run [hp, h, h1, encodeNormal, encodeRequired, encodeOut, run_appendVarint, run_encodeLE32, run_encodeLE64, run_encodeZigZag64, sext, zext, len64]

theorem run_encodeZigzag64 (b : Bytes) {p : List Step} {v : Val} (f : Field) (hp : getPath p m = .ok v) :
    invoke library X d (k + 3) none t!"encodeZigzag64" [.bytes (some b), .ptr p .uptr, .field (some f)] m
      = encodeOut m (encodeNormal .zigzag64 b v f.tag) := by
  go_call find_encodeZigzag64 normal_encodeZigzag64
  cases h : read64 v with
  | error e => go_run [hp, h, encodeNormal, encodeRequired, encodeOut, run_appendVarint, run_encodeLE32, run_encodeLE64, run_encodeZigZag64, sext, zext, len64]
  | ok x =>
    by_cases h1 : x = 0#64
    · go_run [hp, h, h1, encodeNormal, encodeRequired, encodeOut, run_appendVarint, run_encodeLE32, run_encodeLE64, run_encodeZigZag64, sext, zext, len64]
    · go_run [hp, h, h1, encodeNormal, encodeRequired, encodeOut, run_appendVarint, run_encodeLE32, run_encodeLE64, run_encodeZigZag64, sext, zext, len64]

theorem run_encodeBoolRequired (b : Bytes) {p : List Step} {v : Val} (f : Field) (hp : getPath p m = .ok v) :
    invoke library X d (k + 3) none t!"encodeBoolRequired" [.bytes (some b), .ptr p .uptr, .field (some f)] m
      = encodeOut m (encodeRequired .bool b v f.tag) := by
  go_call find_encodeBoolRequired required_encodeBoolRequired
  cases h : readB8 v with
  | error e => go_run [hp, h, encodeNormal, encodeRequired, encodeOut, run_appendVarint, run_encodeLE32, run_encodeLE64, run_encodeZigZag64, sext, zext, len64]
  | ok x =>
    cases x with
    | true => go_run [hp, h, encodeNormal, encodeRequired, encodeOut, run_appendVarint, run_encodeLE32, run_encodeLE64, run_encodeZigZag64, sext, zext, len64]
    | false => go_run [hp, h, encodeNormal, encodeRequired, encodeOut, run_appendVarint, run_encodeLE32, run_encodeLE64, run_encodeZigZag64, sext, zext, len64]

theorem run_encodeStringRequired (b : Bytes) {p : List Step} {v : Val} (f : Field) (hp : getPath p m = .ok v) :
    invoke library X d (k + 3) none t!"encodeStringRequired" [.bytes (some b), .ptr p .uptr, .field (some f)] m
      = encodeOut m (encodeRequired .string b v f.tag) := by
  go_call find_encodeStringRequired required_encodeStringRequired
  cases h : readStr v with
  | error e => go_run [hp, h, encodeNormal, encodeRequired, encodeOut, run_appendVarint, run_encodeLE32, run_encodeLE64, run_encodeZigZag64, sext, zext, len64]
  | ok x => go_run [hp, h, encodeNormal, encodeRequired, encodeOut, run_appendVarint, run_encodeLE32, run_encodeLE64, run_encodeZigZag64, sext, zext, len64]

theorem run_encodeFloat32Required (b : Bytes) {p : List Step} {v : Val} (f : Field) (hp : getPath p m = .ok v) :
    invoke library X d (k + 3) none t!"encodeFloat32Required" [.bytes (some b), .ptr p .uptr, .field (some f)] m
      = encodeOut m (encodeRequired .float32 b v f.tag) := by
  go_call find_encodeFloat32Required required_encodeFloat32Required
  cases h : read32 v with
  | error e => go_run [hp, h, encodeNormal, encodeRequired, encodeOut, run_appendVarint, run_encodeLE32, run_encodeLE64, run_encodeZigZag64, sext, zext, len64]
  | ok x => go_run [hp, h, encodeNormal, encodeRequired, encodeOut, run_appendVarint, run_encodeLE32, run_encodeLE64, run_encodeZigZag64, sext, zext, len64]

theorem run_encodeFloat64Required (b : Bytes) {p : List Step} {v : Val} (f : Field) (hp : getPath p m = .ok v) :
    invoke library X d (k + 3) none t!"encodeFloat64Required" [.bytes (some b), .ptr p .uptr, .field (some f)] m
      = encodeOut m (encodeRequired .float64 b v f.tag) := by
  go_call find_encodeFloat64Required required_encodeFloat64Required
  cases h : read64 v with
  | error e => go_run [hp, h, encodeNormal, encodeRequired, encodeOut, run_appendVarint, run_encodeLE32, run_encodeLE64, run_encodeZigZag64, sext, zext, len64]
  | ok x => go_run [hp, h, encodeNormal, encodeRequired, encodeOut, run_appendVarint, run_encodeLE32, run_encodeLE64, run_encodeZigZag64, sext, zext, len64]

theorem run_encodeInt32Required (b : Bytes) {p : List Step} {v : Val} (f : Field) (hp : getPath p m = .ok v) :
    invoke library X d (k + 3) none t!"encodeInt32Required" [.bytes (some b), .ptr p .uptr, .field (some f)] m
      = encodeOut m (encodeRequired .int32 b v f.tag) := by
  go_call find_encodeInt32Required required_encodeInt32Required
  cases h : read32 v with
  | error e => go_run [hp, h, encodeNormal, encodeRequired, encodeOut, run_appendVarint, run_encodeLE32, run_encodeLE64, run_encodeZigZag64, sext, zext, len64]
  | ok x => go_run [hp, h, encodeNormal, encodeRequired, encodeOut, run_appendVarint, run_encodeLE32, run_encodeLE64, run_encodeZigZag64, sext, zext, len64]

theorem run_encodeInt64Required (b : Bytes) {p : List Step} {v : Val} (f : Field) (hp : getPath p m = .ok v) :
    invoke library X d (k + 3) none t!"encodeInt64Required" [.bytes (some b), .ptr p .uptr, .field (some f)] m
      = encodeOut m (encodeRequired .int64 b v f.tag) := by
  go_call find_encodeInt64Required required_encodeInt64Required
  cases h : read64 v with
  | error e => go_run [hp, h, encodeNormal, encodeRequired, encodeOut, run_appendVarint, run_encodeLE32, run_encodeLE64, run_encodeZigZag64, sext, zext, len64]
  | ok x => go_run [hp, h, encodeNormal, encodeRequired, encodeOut, run_appendVarint, run_encodeLE32, run_encodeLE64, run_encodeZigZag64, sext, zext, len64]

theorem run_encodeUint32Required (b : Bytes) {p : List Step} {v : Val} (f : Field) (hp : getPath p m = .ok v) :
    invoke library X d (k + 3) none t!"encodeUint32Required" [.bytes (some b), .ptr p .uptr, .field (some f)] m
      = encodeOut m (encodeRequired .uint32 b v f.tag) := by
  go_call find_encodeUint32Required required_encodeUint32Required
  cases h : read32 v with
  | error e => go_run [hp, h, encodeNormal, encodeRequired, encodeOut, run_appendVarint, run_encodeLE32, run_encodeLE64, run_encodeZigZag64, sext, zext, len64]
  | ok x => go_run [hp, h, encodeNormal, encodeRequired, encodeOut, run_appendVarint, run_encodeLE32, run_encodeLE64, run_encodeZigZag64, sext, zext, len64]

theorem run_encodeFixed32Required (b : Bytes) {p : List Step} {v : Val} (f : Field) (hp : getPath p m = .ok v) :
    invoke library X d (k + 3) none t!"encodeFixed32Required" [.bytes (some b), .ptr p .uptr, .field (some f)] m
      = encodeOut m (encodeRequired .fixed32 b v f.tag) := by
  go_call find_encodeFixed32Required required_encodeFixed32Required
  cases h : read32 v with
  | error e => go_run [hp, h, encodeNormal, encodeRequired, encodeOut, run_appendVarint, run_encodeLE32, run_encodeLE64, run_encodeZigZag64, sext, zext, len64]
  | ok x => go_run [hp, h, encodeNormal, encodeRequired, encodeOut, run_appendVarint, run_encodeLE32, run_encodeLE64, run_encodeZigZag64, sext, zext, len64]

theorem run_encodeUint64Required (b : Bytes) {p : List Step} {v : Val} (f : Field) (hp : getPath p m = .ok v) :
    invoke library X d (k + 3) none t!"encodeUint64Required" [.bytes (some b), .ptr p .uptr, .field (some f)] m
      = encodeOut m (encodeRequired .uint64 b v f.tag) := by
  go_call find_encodeUint64Required required_encodeUint64Required
  cases h : read64 v with
  | error e => go_run [hp, h, encodeNormal, encodeRequired, encodeOut, run_appendVarint, run_encodeLE32, run_encodeLE64, run_encodeZigZag64, sext, zext, len64]
  | ok x => go_run [hp, h, encodeNormal, encodeRequired, encodeOut, run_appendVarint, run_encodeLE32, run_encodeLE64, run_encodeZigZag64, sext, zext, len64]

theorem run_encodeFixed64Required (b : Bytes) {p : List Step} {v : Val} (f : Field) (hp : getPath p m = .ok v) :
    invoke library X d (k + 3) none t!"encodeFixed64Required" [.bytes (some b), .ptr p .uptr, .field (some f)] m
      = encodeOut m (encodeRequired .fixed64 b v f.tag) := by
  go_call find_encodeFixed64Required required_encodeFixed64Required
  cases h : read64 v with
  | error e => go_run [hp, h, encodeNormal, encodeRequired, encodeOut, run_appendVarint, run_encodeLE32, run_encodeLE64, run_encodeZigZag64, sext, zext, len64]
  | ok x => go_run [hp, h, encodeNormal, encodeRequired, encodeOut, run_appendVarint, run_encodeLE32, run_encodeLE64, run_encodeZigZag64, sext, zext, len64]

theorem run_encodeZigzag32Required (b : Bytes) {p : List Step} {v : Val} (f : Field) (hp : getPath p m = .ok v) :
    invoke library X d (k + 3) none t!"encodeZigzag32Required" [.bytes (some b), .ptr p .uptr, .field (some f)] m
      = encodeOut m (encodeRequired .zigzag32 b v f.tag) := by
  go_call find_encodeZigzag32Required required_encodeZigzag32Required
  cases h : read32 v with
  | error e => go_run [hp, h, encodeNormal, encodeRequired, encodeOut, run_appendVarint, run_encodeLE32, run_encodeLE64, run_encodeZigZag64, sext, zext, len64]
  | ok x => go_run [hp, h, encodeNormal, encodeRequired, encodeOut, run_appendVarint, run_encodeLE32, run_encodeLE64, run_encodeZigZag64, sext, zext, len64]

theorem run_encodeZigzag64Required (b : Bytes) {p : List Step} {v : Val} (f : Field) (hp : getPath p m = .ok v) :
    invoke library X d (k + 3) none t!"encodeZigzag64Required" [.bytes (some b), .ptr p .uptr, .field (some f)] m
      = encodeOut m (encodeRequired .zigzag64 b v f.tag) := by
  go_call find_encodeZigzag64Required required_encodeZigzag64Required
  cases h : read64 v with
  | error e => go_run [hp, h, encodeNormal, encodeRequired, encodeOut, run_appendVarint, run_encodeLE32, run_encodeLE64, run_encodeZigZag64, sext, zext, len64]
  | ok x => go_run [hp, h, encodeNormal, encodeRequired, encodeOut, run_appendVarint, run_encodeLE32, run_encodeLE64, run_encodeZigZag64, sext, zext, len64]

theorem run_sizeOfBytes {p : List Step} {v : Val} (f : Field) (hp : getPath p m = .ok v) :
    invoke library X d (k + 3) none t!"sizeOfBytes" [.ptr p .uptr, .field (some f)] m = sizeOut m (sizeOfBytes v f.tag) := by
  go_call find_sizeOfBytes normal_sizeOfBytes
  cases h : readBytes v with
  | error e => go_run [hp, h, sizeOfBytes, sizeOut]
  | ok x =>
    cases x with
    | none => go_run [hp, h, sizeOfBytes, sizeOut]
    | some s => go_run [hp, h, sizeOfBytes, sizeOut, run_sizeOfVarlen, BitVec.ofNat_add]

theorem run_encodeBytes (b : Bytes) {p : List Step} {v : Val} (f : Field) (hp : getPath p m = .ok v) :
    invoke library X d (k + 3) none t!"encodeBytes" [.bytes (some b), .ptr p .uptr, .field (some f)] m
      = encodeOut m (encodeBytes b v f.tag) := by
  go_call find_encodeBytes normal_encodeBytes
  cases h : readBytes v with
  | error e => go_run [hp, h, encodeBytes, encodeOut]
  | ok x =>
    cases x with
    | none => go_run [hp, h, encodeBytes, encodeOut]
    | some s => go_run [hp, h, encodeBytes, encodeOut, run_appendVarint, len64]

end Pb.Go
