import Verif.Proofs.SourceWire
/-
Running the size functions of normal_codec.go and required_codec.go.
-/
namespace Pb.Go
open Tree

set_option linter.unusedSimpArgs false

variable {X : Calls} {d : Nat} (k : Nat) {m : Val}

theorem f32Present_eq (x : U32) : (!f32Eq x 0#32 || x.msb) = f32Present x := by
  unfold f32Eq f32Present
  have key : (x &&& 0x7fffffff#32 = 0#32) ↔ (x = 0#32 ∨ x = 0x80000000#32) := by
    constructor
    · intro h
      have e : x = (x &&& 0x7fffffff#32) ||| (x &&& 0x80000000#32) := by
        rw [← BitVec.and_or_distrib_left]; exact (BitVec.and_allOnes (x := x)).symm
      have h2 : x &&& 0x80000000#32 = 0#32 ∨ x &&& 0x80000000#32 = 0x80000000#32 := by
        rw [show (0x80000000#32) = BitVec.twoPow 32 31 from rfl, BitVec.and_twoPow]
        split
        · exact .inr rfl
        · exact .inl rfl
      rw [h] at e
      rcases h2 with h2 | h2 <;> rw [h2] at e
      · exact .inl e
      · exact .inr e
    · rintro (h | h) <;> subst h <;> rfl
  by_cases h0 : x = 0#32
  · subst h0; rfl
  by_cases h1 : x = 0x80000000#32
  · subst h1; rfl
  have h2 : ¬ (x &&& 0x7fffffff#32 = 0#32) := fun h => (key.1 h).elim h0 h1
  have b0 : (x == 0#32) = false := beq_eq_false_iff_ne.2 h0
  have b1 : (x == 0x80000000#32) = false := beq_eq_false_iff_ne.2 h1
  have b2 : (x &&& 0x7fffffff#32 == 0#32) = false := beq_eq_false_iff_ne.2 h2
  simp [bne, b0, b1, b2]

theorem f64Present_eq (x : U64) : (!f64Eq x 0#64 || x.msb) = f64Present x := by
  unfold f64Eq f64Present
  have key : (x &&& 0x7fffffffffffffff#64 = 0#64) ↔ (x = 0#64 ∨ x = 0x8000000000000000#64) := by
    constructor
    · intro h
      have e : x = (x &&& 0x7fffffffffffffff#64) ||| (x &&& 0x8000000000000000#64) := by
        rw [← BitVec.and_or_distrib_left]; exact (BitVec.and_allOnes (x := x)).symm
      have h2 : x &&& 0x8000000000000000#64 = 0#64 ∨ x &&& 0x8000000000000000#64 = 0x8000000000000000#64 := by
        rw [show (0x8000000000000000#64) = BitVec.twoPow 64 63 from rfl, BitVec.and_twoPow]
        split
        · exact .inr rfl
        · exact .inl rfl
      rw [h] at e
      rcases h2 with h2 | h2 <;> rw [h2] at e
      · exact .inl e
      · exact .inr e
    · rintro (h | h) <;> subst h <;> rfl
  by_cases h0 : x = 0#64
  · subst h0; rfl
  by_cases h1 : x = 0x8000000000000000#64
  · subst h1; rfl
  have h2 : ¬ (x &&& 0x7fffffffffffffff#64 = 0#64) := fun h => (key.1 h).elim h0 h1
  have b0 : (x == 0#64) = false := beq_eq_false_iff_ne.2 h0
  have b1 : (x == 0x8000000000000000#64) = false := beq_eq_false_iff_ne.2 h1
  have b2 : (x &&& 0x7fffffffffffffff#64 == 0#64) = false := beq_eq_false_iff_ne.2 h2
  simp [bne, b0, b1, b2]

theorem run_sizeOfBool {p : List Step} {v : Val} (f : Field) (hp : getPath p m = .ok v) :
    invoke library X d (k + 3) none t!"sizeOfBool" [.ptr p .uptr, .field (some f)] m = sizeOut m (sizeNormal .bool v f.tag) := by
  go_call find_sizeOfBool normal_sizeOfBool
  cases h : readB8 v with
  | error e => go_run [hp, h, sizeNormal, sizeRequired, sizeOut, BitVec.ofNat_add, run_sizeOfVarint, run_sizeOfVarlen, run_encodeZigZag64, sext, zext]
  | ok x =>
    cases x with
    | true => go_run [hp, h, sizeNormal, sizeRequired, sizeOut, BitVec.ofNat_add, run_sizeOfVarint, run_sizeOfVarlen, run_encodeZigZag64, sext, zext]
    | false => go_run [hp, h, sizeNormal, sizeRequired, sizeOut, BitVec.ofNat_add, run_sizeOfVarint, run_sizeOfVarlen, run_encodeZigZag64, sext, zext]

theorem run_sizeOfString {p : List Step} {v : Val} (f : Field) (hp : getPath p m = .ok v) :
    invoke library X d (k + 3) none t!"sizeOfString" [.ptr p .uptr, .field (some f)] m = sizeOut m (sizeNormal .string v f.tag) := by
  go_call find_sizeOfString normal_sizeOfString
  cases h : readStr v with
  | error e => go_run [hp, h, sizeNormal, sizeRequired, sizeOut, BitVec.ofNat_add, run_sizeOfVarint, run_sizeOfVarlen, run_encodeZigZag64, sext, zext]
  | ok x =>
    by_cases h1 : x = []
    · go_run [hp, h, h1, sizeNormal, sizeRequired, sizeOut, BitVec.ofNat_add, run_sizeOfVarint, run_sizeOfVarlen, run_encodeZigZag64, sext, zext]
    · go_run [hp, h, h1, sizeNormal, sizeRequired, sizeOut, BitVec.ofNat_add, run_sizeOfVarint, run_sizeOfVarlen, run_encodeZigZag64, sext, zext]

theorem run_sizeOfFloat32 {p : List Step} {v : Val} (f : Field) (hp : getPath p m = .ok v) :
    invoke library X d (k + 3) none t!"sizeOfFloat32" [.ptr p .uptr, .field (some f)] m = sizeOut m (sizeNormal .float32 v f.tag) := by
  go_call find_sizeOfFloat32 normal_sizeOfFloat32
  cases h : read32 v with
  | error e => go_run [hp, h, sizeNormal, sizeRequired, sizeOut, BitVec.ofNat_add, run_sizeOfVarint, run_sizeOfVarlen, run_encodeZigZag64, sext, zext]
  | ok x =>
    have hf := f32Present_eq x
    cases h1 : f32Eq x 0#32 with
    | false =>
      simp only [h1, Bool.not_false, Bool.true_or] at hf
      go_run [hp, h, h1, ← hf, sizeNormal, sizeRequired, sizeOut, BitVec.ofNat_add, run_sizeOfVarint, run_sizeOfVarlen, run_encodeZigZag64, sext, zext]
    | true =>
      cases h2 : x.msb with
      | true =>
        simp only [h1, h2, Bool.not_true, Bool.false_or] at hf
        go_run [hp, h, h1, h2, ← hf, sizeNormal, sizeRequired, sizeOut, BitVec.ofNat_add, run_sizeOfVarint, run_sizeOfVarlen, run_encodeZigZag64, sext, zext]
      | false =>
        simp only [h1, h2, Bool.not_true, Bool.false_or] at hf
        go_run [hp, h, h1, h2, ← hf, sizeNormal, sizeRequired, sizeOut, BitVec.ofNat_add, run_sizeOfVarint, run_sizeOfVarlen, run_encodeZigZag64, sext, zext]

theorem run_sizeOfFloat64 {p : List Step} {v : Val} (f : Field) (hp : getPath p m = .ok v) :
    invoke library X d (k + 3) none t!"sizeOfFloat64" [.ptr p .uptr, .field (some f)] m = sizeOut m (sizeNormal .float64 v f.tag) := by
  go_call find_sizeOfFloat64 normal_sizeOfFloat64
  cases h : read64 v with
  | error e => go_run [hp, h, sizeNormal, sizeRequired, sizeOut, BitVec.ofNat_add, run_sizeOfVarint, run_sizeOfVarlen, run_encodeZigZag64, sext, zext]
  | ok x =>
    have hf := f64Present_eq x
    cases h1 : f64Eq x 0#64 with
    | false =>
      simp only [h1, Bool.not_false, Bool.true_or] at hf
      go_run [hp, h, h1, ← hf, sizeNormal, sizeRequired, sizeOut, BitVec.ofNat_add, run_sizeOfVarint, run_sizeOfVarlen, run_encodeZigZag64, sext, zext]
    | true =>
      cases h2 : x.msb with
      | true =>
        simp only [h1, h2, Bool.not_true, Bool.false_or] at hf
        go_run [hp, h, h1, h2, ← hf, sizeNormal, sizeRequired, sizeOut, BitVec.ofNat_add, run_sizeOfVarint, run_sizeOfVarlen, run_encodeZigZag64, sext, zext]
      | false =>
        simp only [h1, h2, Bool.not_true, Bool.false_or] at hf
        go_run [hp, h, h1, h2, ← hf, sizeNormal, sizeRequired, sizeOut, BitVec.ofNat_add, run_sizeOfVarint, run_sizeOfVarlen, run_encodeZigZag64, sext, zext]

theorem run_sizeOfInt32 {p : List Step} {v : Val} (f : Field) (hp : getPath p m = .ok v) :
    invoke library X d (k + 3) none t!"sizeOfInt32" [.ptr p .uptr, .field (some f)] m = sizeOut m (sizeNormal .int32 v f.tag) := by
  go_call find_sizeOfInt32 normal_sizeOfInt32
  cases h : read32 v with
  | error e => go_run [hp, h, sizeNormal, sizeRequired, sizeOut, BitVec.ofNat_add, run_sizeOfVarint, run_sizeOfVarlen, run_encodeZigZag64, sext, zext]
  | ok x =>
    by_cases h1 : x = 0#32
    · go_run [hp, h, h1, sizeNormal, sizeRequired, sizeOut, BitVec.ofNat_add, run_sizeOfVarint, run_sizeOfVarlen, run_encodeZigZag64, sext, zext]
    · go_run [hp, h, h1, sizeNormal, sizeRequired, sizeOut, BitVec.ofNat_add, run_sizeOfVarint, run_sizeOfVarlen, run_encodeZigZag64, sext, zext]

theorem run_sizeOfInt64 {p : List Step} {v : Val} (f : Field) (hp : getPath p m = .ok v) :
    invoke library X d (k + 3) none t!"sizeOfInt64" [.ptr p .uptr, .field (some f)] m = sizeOut m (sizeNormal .int64 v f.tag) := by
  go_call find_sizeOfInt64 normal_sizeOfInt64
  cases h : read64 v with
  | error e => go_run [hp, h, sizeNormal, sizeRequired, sizeOut, BitVec.ofNat_add, run_sizeOfVarint, run_sizeOfVarlen, run_encodeZigZag64, sext, zext]
  | ok x =>
    by_cases h1 : x = 0#64
    · go_run [hp, h, h1, sizeNormal, sizeRequired, sizeOut, BitVec.ofNat_add, run_sizeOfVarint, run_sizeOfVarlen, run_encodeZigZag64, sext, zext]
    · go_run [hp, h, h1, sizeNormal, sizeRequired, sizeOut, BitVec.ofNat_add, run_sizeOfVarint, run_sizeOfVarlen, run_encodeZigZag64, sext, zext]

theorem run_sizeOfUint32 {p : List Step} {v : Val} (f : Field) (hp : getPath p m = .ok v) :
    invoke library X d (k + 3) none t!"sizeOfUint32" [.ptr p .uptr, .field (some f)] m = sizeOut m (sizeNormal .uint32 v f.tag) := by
  go_call find_sizeOfUint32 normal_sizeOfUint32
  cases h : read32 v with
  | error e => go_run [hp, h, sizeNormal, sizeRequired, sizeOut, BitVec.ofNat_add, run_sizeOfVarint, run_sizeOfVarlen, run_encodeZigZag64, sext, zext]
  | ok x =>
    by_cases h1 : x = 0#32
    · go_run [hp, h, h1, sizeNormal, sizeRequired, sizeOut, BitVec.ofNat_add, run_sizeOfVarint, run_sizeOfVarlen, run_encodeZigZag64, sext, zext]
    · go_run [hp, h, h1, sizeNormal, sizeRequired, sizeOut, BitVec.ofNat_add, run_sizeOfVarint, run_sizeOfVarlen, run_encodeZigZag64, sext, zext]

theorem run_sizeOfFixed32 {p : List Step} {v : Val} (f : Field) (hp : getPath p m = .ok v) :
    invoke library X d (k + 3) none t!"sizeOfFixed32" [.ptr p .uptr, .field (some f)] m = sizeOut m (sizeNormal .fixed32 v f.tag) := by
  go_call find_sizeOfFixed32 normal_sizeOfFixed32
  cases h : read32 v with
  | error e => go_run [hp, h, sizeNormal, sizeRequired, sizeOut, BitVec.ofNat_add, run_sizeOfVarint, run_sizeOfVarlen, run_encodeZigZag64, sext, zext]
  | ok x =>
    by_cases h1 : x = 0#32
    · go_run [hp, h, h1, sizeNormal, sizeRequired, sizeOut, BitVec.ofNat_add, run_sizeOfVarint, run_sizeOfVarlen, run_encodeZigZag64, sext, zext]
    · go_run [hp, h, h1, sizeNormal, sizeRequired, sizeOut, BitVec.ofNat_add, run_sizeOfVarint, run_sizeOfVarlen, run_encodeZigZag64, sext, zext]

theorem run_sizeOfUint64 {p : List Step} {v : Val} (f : Field) (hp : getPath p m = .ok v) :
    invoke library X d (k + 3) none t!"sizeOfUint64" [.ptr p .uptr, .field (some f)] m = sizeOut m (sizeNormal .uint64 v f.tag) := by
  go_call find_sizeOfUint64 normal_sizeOfUint64
  cases h : read64 v with
  | error e => go_run [hp, h, sizeNormal, sizeRequired, sizeOut, BitVec.ofNat_add, run_sizeOfVarint, run_sizeOfVarlen, run_encodeZigZag64, sext, zext]
  | ok x =>
    by_cases h1 : x = 0#64
    · go_run [hp, h, h1, sizeNormal, sizeRequired, sizeOut, BitVec.ofNat_add, run_sizeOfVarint, run_sizeOfVarlen, run_encodeZigZag64, sext, zext]
    · go_run [hp, h, h1, sizeNormal, sizeRequired, sizeOut, BitVec.ofNat_add, run_sizeOfVarint, run_sizeOfVarlen, run_encodeZigZag64, sext, zext]

theorem run_sizeOfFixed64 {p : List Step} {v : Val} (f : Field) (hp : getPath p m = .ok v) :
    invoke library X d (k + 3) none t!"sizeOfFixed64" [.ptr p .uptr, .field (some f)] m = sizeOut m (sizeNormal .fixed64 v f.tag) := by
  go_call find_sizeOfFixed64 normal_sizeOfFixed64
  cases h : read64 v with
  | error e => go_run [hp, h, sizeNormal, sizeRequired, sizeOut, BitVec.ofNat_add, run_sizeOfVarint, run_sizeOfVarlen, run_encodeZigZag64, sext, zext]
  | ok x =>
    by_cases h1 : x = 0#64
    · go_run [hp, h, h1, sizeNormal, sizeRequired, sizeOut, BitVec.ofNat_add, run_sizeOfVarint, run_sizeOfVarlen, run_encodeZigZag64, sext, zext]
    · go_run [hp, h, h1, sizeNormal, sizeRequired, sizeOut, BitVec.ofNat_add, run_sizeOfVarint, run_sizeOfVarlen, run_encodeZigZag64, sext, zext]

theorem run_sizeOfZigzag32 {p : List Step} {v : Val} (f : Field) (hp : getPath p m = .ok v) :
    invoke library X d (k + 3) none t!"sizeOfZigzag32" [.ptr p .uptr, .field (some f)] m = sizeOut m (sizeNormal .zigzag32 v f.tag) := by
  go_call find_sizeOfZigzag32 normal_sizeOfZigzag32
  cases h : read32 v with
  | error e => go_run [hp, h, sizeNormal, sizeRequired, sizeOut, BitVec.ofNat_add, run_sizeOfVarint, run_sizeOfVarlen, run_encodeZigZag64, sext, zext]
  | ok x =>
    by_cases h1 : x = 0#32
    · go_run [hp, h, h1, sizeNormal, sizeRequired, sizeOut, BitVec.ofNat_add, run_sizeOfVarint, run_sizeOfVarlen, run_encodeZigZag64, sext, zext]
    · go_run [hp, h, h1, sizeNormal, sizeRequired, sizeOut, BitVec.ofNat_add, run_sizeOfVarint, run_sizeOfVarlen, run_encodeZigZag64, sext, zext]

theorem run_sizeOfZigzag64 {p : List Step} {v : Val} (f : Field) (hp : getPath p m = .ok v) :
    invoke library X d (k + 3) none t!"sizeOfZigzag64" [.ptr p .uptr, .field (some f)] m = sizeOut m (sizeNormal .zigzag64 v f.tag) := by
  go_call find_sizeOfZigzag64 normal_sizeOfZigzag64
  cases h : read64 v with
  | error e => go_run [hp, h, sizeNormal, sizeRequired, sizeOut, BitVec.ofNat_add, run_sizeOfVarint, run_sizeOfVarlen, run_encodeZigZag64, sext, zext]
  | ok x =>
    by_cases h1 : x = 0#64
    · go_run [hp, h, h1, sizeNormal, sizeRequired, sizeOut, BitVec.ofNat_add, run_sizeOfVarint, run_sizeOfVarlen, run_encodeZigZag64, sext, zext]
    · go_run [hp, h, h1, sizeNormal, sizeRequired, sizeOut, BitVec.ofNat_add, run_sizeOfVarint, run_sizeOfVarlen, run_encodeZigZag64, sext, zext]

theorem run_sizeOfBoolRequired {p : List Step} {v : Val} (f : Field) (_ : getPath p m = .ok v) :
    invoke library X d (k + 3) none t!"sizeOfBoolRequired" [.ptr p .uptr, .field (some f)] m = sizeOut m (sizeRequired .bool v f.tag) := by
  go_call find_sizeOfBoolRequired required_sizeOfBoolRequired
  go_run [sizeNormal, sizeRequired, sizeOut, BitVec.ofNat_add, run_sizeOfVarint, run_sizeOfVarlen, run_encodeZigZag64, sext, zext]

theorem run_sizeOfStringRequired {p : List Step} {v : Val} (f : Field) (hp : getPath p m = .ok v) :
    invoke library X d (k + 3) none t!"sizeOfStringRequired" [.ptr p .uptr, .field (some f)] m = sizeOut m (sizeRequired .string v f.tag) := by
  go_call find_sizeOfStringRequired required_sizeOfStringRequired
  cases h : readStr v with
  | error e => go_run [hp, h, sizeNormal, sizeRequired, sizeOut, BitVec.ofNat_add, run_sizeOfVarint, run_sizeOfVarlen, run_encodeZigZag64, sext, zext]
  | ok x => go_run [hp, h, sizeNormal, sizeRequired, sizeOut, BitVec.ofNat_add, run_sizeOfVarint, run_sizeOfVarlen, run_encodeZigZag64, sext, zext]

theorem run_sizeOfFloat32Required {p : List Step} {v : Val} (f : Field) (_ : getPath p m = .ok v) :
    invoke library X d (k + 3) none t!"sizeOfFloat32Required" [.ptr p .uptr, .field (some f)] m = sizeOut m (sizeRequired .float32 v f.tag) := by
  go_call find_sizeOfFloat32Required required_sizeOfFloat32Required
  go_run [sizeNormal, sizeRequired, sizeOut, BitVec.ofNat_add, run_sizeOfVarint, run_sizeOfVarlen, run_encodeZigZag64, sext, zext]

theorem run_sizeOfFloat64Required {p : List Step} {v : Val} (f : Field) (_ : getPath p m = .ok v) :
    invoke library X d (k + 3) none t!"sizeOfFloat64Required" [.ptr p .uptr, .field (some f)] m = sizeOut m (sizeRequired .float64 v f.tag) := by
  go_call find_sizeOfFloat64Required required_sizeOfFloat64Required
  go_run [sizeNormal, sizeRequired, sizeOut, BitVec.ofNat_add, run_sizeOfVarint, run_sizeOfVarlen, run_encodeZigZag64, sext, zext]

theorem run_sizeOfInt32Required {p : List Step} {v : Val} (f : Field) (hp : getPath p m = .ok v) :
    invoke library X d (k + 3) none t!"sizeOfInt32Required" [.ptr p .uptr, .field (some f)] m = sizeOut m (sizeRequired .int32 v f.tag) := by
  go_call find_sizeOfInt32Required required_sizeOfInt32Required
  cases h : read32 v with
  | error e => go_run [hp, h, sizeNormal, sizeRequired, sizeOut, BitVec.ofNat_add, run_sizeOfVarint, run_sizeOfVarlen, run_encodeZigZag64, sext, zext]
  | ok x => go_run [hp, h, sizeNormal, sizeRequired, sizeOut, BitVec.ofNat_add, run_sizeOfVarint, run_sizeOfVarlen, run_encodeZigZag64, sext, zext]

theorem run_sizeOfInt64Required {p : List Step} {v : Val} (f : Field) (hp : getPath p m = .ok v) :
    invoke library X d (k + 3) none t!"sizeOfInt64Required" [.ptr p .uptr, .field (some f)] m = sizeOut m (sizeRequired .int64 v f.tag) := by
  go_call find_sizeOfInt64Required required_sizeOfInt64Required
  cases h : read64 v with
  | error e => go_run [hp, h, sizeNormal, sizeRequired, sizeOut, BitVec.ofNat_add, run_sizeOfVarint, run_sizeOfVarlen, run_encodeZigZag64, sext, zext]
  | ok x => go_run [hp, h, sizeNormal, sizeRequired, sizeOut, BitVec.ofNat_add, run_sizeOfVarint, run_sizeOfVarlen, run_encodeZigZag64, sext, zext]

theorem run_sizeOfUint32Required {p : List Step} {v : Val} (f : Field) (hp : getPath p m = .ok v) :
    invoke library X d (k + 3) none t!"sizeOfUint32Required" [.ptr p .uptr, .field (some f)] m = sizeOut m (sizeRequired .uint32 v f.tag) := by
  go_call find_sizeOfUint32Required required_sizeOfUint32Required
  cases h : read32 v with
  | error e => go_run [hp, h, sizeNormal, sizeRequired, sizeOut, BitVec.ofNat_add, run_sizeOfVarint, run_sizeOfVarlen, run_encodeZigZag64, sext, zext]
  | ok x => go_run [hp, h, sizeNormal, sizeRequired, sizeOut, BitVec.ofNat_add, run_sizeOfVarint, run_sizeOfVarlen, run_encodeZigZag64, sext, zext]

theorem run_sizeOfFixed32Required {p : List Step} {v : Val} (f : Field) (_ : getPath p m = .ok v) :
    invoke library X d (k + 3) none t!"sizeOfFixed32Required" [.ptr p .uptr, .field (some f)] m = sizeOut m (sizeRequired .fixed32 v f.tag) := by
  go_call find_sizeOfFixed32Required required_sizeOfFixed32Required
  go_run [sizeNormal, sizeRequired, sizeOut, BitVec.ofNat_add, run_sizeOfVarint, run_sizeOfVarlen, run_encodeZigZag64, sext, zext]

theorem run_sizeOfUint64Required {p : List Step} {v : Val} (f : Field) (hp : getPath p m = .ok v) :
    invoke library X d (k + 3) none t!"sizeOfUint64Required" [.ptr p .uptr, .field (some f)] m = sizeOut m (sizeRequired .uint64 v f.tag) := by
  go_call find_sizeOfUint64Required required_sizeOfUint64Required
  cases h : read64 v with
  | error e => go_run [hp, h, sizeNormal, sizeRequired, sizeOut, BitVec.ofNat_add, run_sizeOfVarint, run_sizeOfVarlen, run_encodeZigZag64, sext, zext]
  | ok x => go_run [hp, h, sizeNormal, sizeRequired, sizeOut, BitVec.ofNat_add, run_sizeOfVarint, run_sizeOfVarlen, run_encodeZigZag64, sext, zext]

theorem run_sizeOfFixed64Required {p : List Step} {v : Val} (f : Field) (_ : getPath p m = .ok v) :
    invoke library X d (k + 3) none t!"sizeOfFixed64Required" [.ptr p .uptr, .field (some f)] m = sizeOut m (sizeRequired .fixed64 v f.tag) := by
  go_call find_sizeOfFixed64Required required_sizeOfFixed64Required
  go_run [sizeNormal, sizeRequired, sizeOut, BitVec.ofNat_add, run_sizeOfVarint, run_sizeOfVarlen, run_encodeZigZag64, sext, zext]

theorem run_sizeOfZigzag32Required {p : List Step} {v : Val} (f : Field) (hp : getPath p m = .ok v) :
    invoke library X d (k + 3) none t!"sizeOfZigzag32Required" [.ptr p .uptr, .field (some f)] m = sizeOut m (sizeRequired .zigzag32 v f.tag) := by
  go_call find_sizeOfZigzag32Required required_sizeOfZigzag32Required
  cases h : read32 v with
  | error e => go_run [hp, h, sizeNormal, sizeRequired, sizeOut, BitVec.ofNat_add, run_sizeOfVarint, run_sizeOfVarlen, run_encodeZigZag64, sext, zext]
  | ok x => go_run [hp, h, sizeNormal, sizeRequired, sizeOut, BitVec.ofNat_add, run_sizeOfVarint, run_sizeOfVarlen, run_encodeZigZag64, sext, zext]

theorem run_sizeOfZigzag64Required {p : List Step} {v : Val} (f : Field) (hp : getPath p m = .ok v) :
    invoke library X d (k + 3) none t!"sizeOfZigzag64Required" [.ptr p .uptr, .field (some f)] m = sizeOut m (sizeRequired .zigzag64 v f.tag) := by
  go_call find_sizeOfZigzag64Required required_sizeOfZigzag64Required
  cases h : read64 v with
  | error e => go_run [hp, h, sizeNormal, sizeRequired, sizeOut, BitVec.ofNat_add, run_sizeOfVarint, run_sizeOfVarlen, run_encodeZigZag64, sext, zext]
  | ok x => go_run [hp, h, sizeNormal, sizeRequired, sizeOut, BitVec.ofNat_add, run_sizeOfVarint, run_sizeOfVarlen, run_encodeZigZag64, sext, zext]

end Pb.Go
