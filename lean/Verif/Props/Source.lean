import Verif.Proofs.SourceOpt
/-
C75. The source text of the wire functions (size.go, encode.go, decode.go) and of all scalar codecs (normal_codec.go, required_codec.go,
option_codec.go, and the two methods of option.go they use), read and run as Go programs, does what the model says: for all arguments and
all memories. `program` is what the parser of `Spec/GoSyntax` reads from the texts in `Model/Source`, and `invoke` runs it by the rules of
`Spec/GoExec`. Inputs of decode functions have fewer than 2^60 bytes.
-/
namespace Pb.Props
open Pb Go

set_option maxRecDepth 100000

variable {X : Calls} {d k : Nat} {m : Val}

/-! ### the text is read -/

/-- All files can be read, and have 125 functions, each found by its name. -/
theorem C75_read : (readAll sources).isSome ∧ program.length = 125 ∧
    ∀ f ∈ program, findFunc program (f.recv.map fun r => recvType r.2) f.name = some f := by
  rw [program_eq]
  refine ⟨?_, by decide +kernel, by decide +kernel⟩
  simp only [sources, readAll, parse_size, parse_encode, parse_decode, parse_normal, parse_required, parse_option, parse_isSome,
    parse_unsafePointer, parse_struct, parse_deref, parse_growSlice, parse_fieldError, Option.isSome]

/-! ### wire functions -/

theorem C75_zigzag (v : U64) :
    invoke program X d (k + 1) none t!"encodeZigZag64" [.i64 v] m = .ok ([.u64 (encodeZigZag64 v)], m) ∧
    invoke program X d (k + 1) none t!"decodeZigZag64" [.u64 v] m = .ok ([.i64 (decodeZigZag64 v)], m) := by
  rw [program_eq]
  exact ⟨run_encodeZigZag64 k v, run_decodeZigZag64 k v⟩

theorem C75_size (v : U64) (n : Nat) :
    invoke program X d (k + 1) none t!"sizeOfVarint" [.u64 v] m = .ok ([.int (BitVec.ofNat 64 (sizeOfVarint v))], m) ∧
    invoke program X d (k + 2) none t!"sizeOfVarlen" [.int (BitVec.ofNat 64 n)] m = .ok ([.int (BitVec.ofNat 64 (sizeOfVarlen n))], m) := by
  rw [program_eq]
  exact ⟨run_sizeOfVarint k v, run_sizeOfVarlen k n⟩

theorem C75_append (b : Bytes) (v f t : U64) (w : U32) :
    invoke program X d (k + 1) none t!"appendVarint" [.bytes (some b), .u64 v] m = .ok ([.bytes (some (appendVarint b v))], m) ∧
    invoke program X d (k + 2) none t!"appendVarintZigZag" [.bytes (some b), .i64 v] m
      = .ok ([.bytes (some (appendVarintZigZag b v))], m) ∧
    invoke program X d (k + 2) none t!"appendTag" [.bytes (some b), .uint f, .uint t] m = .ok ([.bytes (some (appendTag b f t))], m) ∧
    invoke program X d (k + 1) none t!"encodeLE32" [.bytes (some b), .u32 w] m = .ok ([.bytes (some (encodeLE32 b w))], m) ∧
    invoke program X d (k + 1) none t!"encodeLE64" [.bytes (some b), .u64 v] m = .ok ([.bytes (some (encodeLE64 b v))], m) := by
  rw [program_eq]
  exact ⟨run_appendVarint k b v, run_appendVarintZigZag k b v, run_appendTag k b f t, run_encodeLE32 k b w, run_encodeLE64 k b v⟩

theorem C75_decode (b : Bytes) (hb : b.length < 2 ^ 60) :
    invoke program X d (k + 1) none t!"decodeVarint" [.bytes (some b)] m = .ok (varintResult (decodeVarint b), m) ∧
    invoke program X d (k + 2) none t!"decodeVarintZigZag" [.bytes (some b)] m
      = .ok ([.i64 (decodeVarintZigZag b).1, .int (BitVec.ofNat 64 (decodeVarintZigZag b).2.1), .err (decodeVarintZigZag b).2.2], m) ∧
    invoke program X d (k + 2) none t!"decodeTag" [.bytes (some b)] m
      = .ok ([.uint (BitVec.ofNat 64 (decodeTag b).1), .uint (BitVec.ofNat 64 (decodeTag b).2.1),
          .int (BitVec.ofNat 64 (decodeTag b).2.2.1), .err (decodeTag b).2.2.2], m) ∧
    invoke program X d (k + 1) none t!"decodeLE32" [.bytes (some b)] m
      = .ok ([.u32 (decodeLE32 b).1, .int (BitVec.ofNat 64 (decodeLE32 b).2.1), .err (decodeLE32 b).2.2], m) ∧
    invoke program X d (k + 1) none t!"decodeLE64" [.bytes (some b)] m
      = .ok ([.u64 (decodeLE64 b).1, .int (BitVec.ofNat 64 (decodeLE64 b).2.1), .err (decodeLE64 b).2.2], m) ∧
    invoke program X d (k + 2) none t!"decodeVarlen" [.bytes (some b)] m = (decodeVarlen b).map fun r => (varlenResult r, m) := by
  rw [program_eq]
  exact ⟨run_decodeVarint k b hb, run_decodeVarintZigZag k b hb, run_decodeTag k b hb, run_decodeLE32 k b hb, run_decodeLE64 k b hb,
    run_decodeVarlen k b hb⟩

/-- So the program reads back what it wrote: `decodeVarint(appendVarint(nil, v) ++ r)`. -/
theorem C75_roundtrip (v : U64) (r : Bytes) (hr : r.length < 2 ^ 59) :
    ∃ b, invoke program X d (k + 1) none t!"appendVarint" [.bytes (some []), .u64 v] m = .ok ([.bytes (some b)], m) ∧
      invoke program X d (k + 1) none t!"sizeOfVarint" [.u64 v] m = .ok ([.int (BitVec.ofNat 64 b.length)], m) ∧
      invoke program X d (k + 1) none t!"decodeVarint" [.bytes (some (b ++ r))] m
        = .ok ([.u64 v, .int (BitVec.ofNat 64 b.length), .err none], m) := by
  have hs := sizeOfVarint_eq v
  have h10 := leb128_length_le_ten v
  refine ⟨Spec.leb128 v.toNat, ?_, ?_, ?_⟩
  · rw [(C75_append [] v 0 0 0).1, appendVarint_eq]; rfl
  · rw [(C75_size v 0).1, hs]
  · rw [(C75_decode _ (by simp; omega)).1, decodeVarint_leb128, hs]; rfl

/-! ### scalar codecs -/

/-- The size functions, for a scalar at `p`. -/
theorem C75_scalar_size {p : List Step} {v : Val} (s : Scalar) (f : Field) (hp : getPath p m = .ok v) :
    invoke program X d (k + 3) none (t!"sizeOf" ++ goName s) [.ptr p .uptr, .field (some f)] m = sizeOut m (sizeNormal s v f.tag) ∧
    invoke program X d (k + 3) none (t!"sizeOf" ++ goName s ++ t!"Required") [.ptr p .uptr, .field (some f)] m
      = sizeOut m (sizeRequired s v f.tag) ∧
    invoke program X d (k + 4) none (t!"sizeOf" ++ goName s ++ t!"Option") [.ptr p .uptr, .field (some f)] m
      = sizeOut m (sizeOption s v f.tag) := by
  rw [program_eq]
  cases s
  · exact ⟨run_sizeOfBool k f hp, run_sizeOfBoolRequired k f hp, run_sizeOfBoolOption k f hp⟩
  · exact ⟨run_sizeOfString k f hp, run_sizeOfStringRequired k f hp, run_sizeOfStringOption k f hp⟩
  · exact ⟨run_sizeOfFloat32 k f hp, run_sizeOfFloat32Required k f hp, run_sizeOfFloat32Option k f hp⟩
  · exact ⟨run_sizeOfFloat64 k f hp, run_sizeOfFloat64Required k f hp, run_sizeOfFloat64Option k f hp⟩
  · exact ⟨run_sizeOfInt32 k f hp, run_sizeOfInt32Required k f hp, run_sizeOfInt32Option k f hp⟩
  · exact ⟨run_sizeOfInt64 k f hp, run_sizeOfInt64Required k f hp, run_sizeOfInt64Option k f hp⟩
  · exact ⟨run_sizeOfUint32 k f hp, run_sizeOfUint32Required k f hp, run_sizeOfUint32Option k f hp⟩
  · exact ⟨run_sizeOfFixed32 k f hp, run_sizeOfFixed32Required k f hp, run_sizeOfFixed32Option k f hp⟩
  · exact ⟨run_sizeOfUint64 k f hp, run_sizeOfUint64Required k f hp, run_sizeOfUint64Option k f hp⟩
  · exact ⟨run_sizeOfFixed64 k f hp, run_sizeOfFixed64Required k f hp, run_sizeOfFixed64Option k f hp⟩
  · exact ⟨run_sizeOfZigzag32 k f hp, run_sizeOfZigzag32Required k f hp, run_sizeOfZigzag32Option k f hp⟩
  · exact ⟨run_sizeOfZigzag64 k f hp, run_sizeOfZigzag64Required k f hp, run_sizeOfZigzag64Option k f hp⟩

/-- The encode functions. -/
theorem C75_scalar_encode {p : List Step} {v : Val} (s : Scalar) (b : Bytes) (f : Field) (hp : getPath p m = .ok v) :
    invoke program X d (k + 3) none (t!"encode" ++ goName s) [.bytes (some b), .ptr p .uptr, .field (some f)] m
      = encodeOut m (encodeNormal s b v f.tag) ∧
    invoke program X d (k + 3) none (t!"encode" ++ goName s ++ t!"Required") [.bytes (some b), .ptr p .uptr, .field (some f)] m
      = encodeOut m (encodeRequired s b v f.tag) ∧
    invoke program X d (k + 4) none (t!"encode" ++ goName s ++ t!"Option") [.bytes (some b), .ptr p .uptr, .field (some f)] m
      = encodeOut m (encodeOption s b v f.tag) := by
  rw [program_eq]
  cases s
  · exact ⟨run_encodeBool k b f hp, run_encodeBoolRequired k b f hp, run_encodeBoolOption k b f hp⟩
  · exact ⟨run_encodeString k b f hp, run_encodeStringRequired k b f hp, run_encodeStringOption k b f hp⟩
  · exact ⟨run_encodeFloat32 k b f hp, run_encodeFloat32Required k b f hp, run_encodeFloat32Option k b f hp⟩
  · exact ⟨run_encodeFloat64 k b f hp, run_encodeFloat64Required k b f hp, run_encodeFloat64Option k b f hp⟩
  · exact ⟨run_encodeInt32 k b f hp, run_encodeInt32Required k b f hp, run_encodeInt32Option k b f hp⟩
  · exact ⟨run_encodeInt64 k b f hp, run_encodeInt64Required k b f hp, run_encodeInt64Option k b f hp⟩
  · exact ⟨run_encodeUint32 k b f hp, run_encodeUint32Required k b f hp, run_encodeUint32Option k b f hp⟩
  · exact ⟨run_encodeFixed32 k b f hp, run_encodeFixed32Required k b f hp, run_encodeFixed32Option k b f hp⟩
  · exact ⟨run_encodeUint64 k b f hp, run_encodeUint64Required k b f hp, run_encodeUint64Option k b f hp⟩
  · exact ⟨run_encodeFixed64 k b f hp, run_encodeFixed64Required k b f hp, run_encodeFixed64Option k b f hp⟩
  · exact ⟨run_encodeZigzag32 k b f hp, run_encodeZigzag32Required k b f hp, run_encodeZigzag32Option k b f hp⟩
  · exact ⟨run_encodeZigzag64 k b f hp, run_encodeZigzag64Required k b f hp, run_encodeZigzag64Option k b f hp⟩

/-- The decode functions. -/
theorem C75_scalar_decode {p : List Step} {v : Val} (s : Scalar) (b : Bytes) (hb : b.length < 2 ^ 60) (hw : Writable p)
    (hp : getPath p m = .ok v) :
    decodeOut p m (decodeScalar s b v) (invoke program X d (k + 3) none (t!"decode" ++ goName s) [.bytes (some b), .ptr p .uptr] m) ∧
    decodeOut p m (decodeOption s b v)
      (invoke program X d (k + 4) none (t!"decode" ++ goName s ++ t!"Option") [.bytes (some b), .ptr p .uptr] m) := by
  rw [program_eq]
  cases s
  · exact ⟨run_decodeBool k b hb hw hp, run_decodeBoolOption k b hb hw hp⟩
  · exact ⟨run_decodeString k b hb hw hp, run_decodeStringOption k b hb hw hp⟩
  · exact ⟨run_decodeFloat32 k b hb hw hp, run_decodeFloat32Option k b hb hw hp⟩
  · exact ⟨run_decodeFloat64 k b hb hw hp, run_decodeFloat64Option k b hb hw hp⟩
  · exact ⟨run_decodeInt32 k b hb hw hp, run_decodeInt32Option k b hb hw hp⟩
  · exact ⟨run_decodeInt64 k b hb hw hp, run_decodeInt64Option k b hb hw hp⟩
  · exact ⟨run_decodeUint32 k b hb hw hp, run_decodeUint32Option k b hb hw hp⟩
  · exact ⟨run_decodeFixed32 k b hb hw hp, run_decodeFixed32Option k b hb hw hp⟩
  · exact ⟨run_decodeUint64 k b hb hw hp, run_decodeUint64Option k b hb hw hp⟩
  · exact ⟨run_decodeFixed64 k b hb hw hp, run_decodeFixed64Option k b hb hw hp⟩
  · exact ⟨run_decodeZigzag32 k b hb hw hp, run_decodeZigzag32Option k b hb hw hp⟩
  · exact ⟨run_decodeZigzag64 k b hb hw hp, run_decodeZigzag64Option k b hb hw hp⟩

/-- The functions for `[]byte`. -/
theorem C75_bytes {p : List Step} {v : Val} (b : Bytes) (f : Field) (hb : b.length < 2 ^ 60) (hw : Writable p)
    (hp : getPath p m = .ok v) :
    invoke program X d (k + 3) none t!"sizeOfBytes" [.ptr p .uptr, .field (some f)] m = sizeOut m (sizeOfBytes v f.tag) ∧
    invoke program X d (k + 3) none t!"encodeBytes" [.bytes (some b), .ptr p .uptr, .field (some f)] m
      = encodeOut m (encodeBytes b v f.tag) ∧
    decodeOut p m (decodeBytes b v) (invoke program X d (k + 3) none t!"decodeBytes" [.bytes (some b), .ptr p .uptr] m) := by
  rw [program_eq]
  exact ⟨run_sizeOfBytes k f hp, run_encodeBytes k b f hp, run_decodeBytes k b hb hw hp⟩

/-- The codecs are declared with these functions; a `Required` codec decodes like the plain one. -/
theorem C75_codecs (s : Scalar) :
    (readAll sources).bind (varNamed (codecName s ++ t!"Codec"))
      = some (codecLit (t!"sizeOf" ++ goName s) (t!"encode" ++ goName s) (t!"decode" ++ goName s)) ∧
    (readAll sources).bind (varNamed (codecName s ++ t!"RequiredCodec"))
      = some (codecLit (t!"sizeOf" ++ goName s ++ t!"Required") (t!"encode" ++ goName s ++ t!"Required") (t!"decode" ++ goName s)) ∧
    (readAll sources).bind (varNamed (codecName s ++ t!"OptionCodec"))
      = some (codecLit (t!"sizeOf" ++ goName s ++ t!"Option") (t!"encode" ++ goName s ++ t!"Option")
          (t!"decode" ++ goName s ++ t!"Option")) ∧
    (readAll sources).bind (varNamed t!"bytesCodec") = some (codecLit t!"sizeOfBytes" t!"encodeBytes" t!"decodeBytes") := by
  simp only [sources, readAll, parse_size, parse_encode, parse_decode, parse_normal, parse_required, parse_option, parse_isSome,
    parse_unsafePointer, parse_struct, parse_deref, parse_growSlice, parse_fieldError, Option.bind]
  cases s <;> decide +kernel

/-! ### cases -/

/-- `int32` 300 with tag 8: the program says size 3, writes 08 ac 02 and reads it back into a field that had another value. -/
example : invoke program X 0 3 none t!"sizeOfInt32"
      [.ptr [.slot 1] .uptr, .field (some ⟨1, ⟨8#64, 1⟩, .normal .int32⟩)] (.struct [.b8 true, .w32 300#32])
    = .ok ([.int 3#64], .struct [.b8 true, .w32 300#32]) :=
  (C75_scalar_size (k := 0) .int32 _ rfl).1.trans rfl

example : invoke program X 0 3 none t!"encodeInt32"
      [.bytes (some []), .ptr [.slot 1] .uptr, .field (some ⟨1, ⟨8#64, 1⟩, .normal .int32⟩)] (.struct [.b8 true, .w32 300#32])
    = .ok ([.bytes (some [0x08#8, 0xac#8, 0x02#8])], .struct [.b8 true, .w32 300#32]) :=
  (C75_scalar_encode (k := 0) .int32 _ _ rfl).1.trans rfl

example : invoke program X 0 4 none t!"decodeInt32Option"
      [.bytes (some [0xac#8, 0x02#8, 0x55#8]), .ptr [.slot 1] .uptr] (.struct [.b8 true, .opt false (.w32 0#32)])
    = .ok ([.int 2#64, .err none], .struct [.b8 true, .opt true (.w32 300#32)]) :=
  (C75_scalar_decode (k := 0) (p := [.slot 1]) (m := .struct [.b8 true, .opt false (.w32 0#32)]) .int32 [0xac#8, 0x02#8, 0x55#8] (by decide) (by decide) rfl).2

/-- The last byte is missing: the option is set nevertheless, and the error is returned. -/
example : ∃ n, invoke program X 0 4 none t!"decodeInt32Option"
      [.bytes (some [0xac#8]), .ptr [.slot 1] .uptr] (.struct [.b8 true, .opt false (.w32 0#32)])
    = .ok ([.int n, .err (some .unexpectedEOF)], .struct [.b8 true, .opt true (.w32 44#32)]) :=
  (C75_scalar_decode (k := 0) (p := [.slot 1]) (m := .struct [.b8 true, .opt false (.w32 0#32)]) .int32 [0xac#8] (by decide) (by decide) rfl).2

example : getPath [.slot 1, .value] (.struct [.b8 true, .opt false (.w32 7#32)]) = .ok (.w32 7#32) := rfl

end Pb.Props
