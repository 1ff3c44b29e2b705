import Verif.Proofs.GoTree
/-
Where the functions of the source files are found.
-/
namespace Pb.Go
open Tree

theorem find_sizeOfVarint : findFunc library none t!"sizeOfVarint" = some size_sizeOfVarint := by decide +kernel
theorem find_sizeOfVarlen : findFunc library none t!"sizeOfVarlen" = some size_sizeOfVarlen := by decide +kernel
theorem find_encodeZigZag64 : findFunc library none t!"encodeZigZag64" = some encode_encodeZigZag64 := by decide +kernel
theorem find_appendVarint : findFunc library none t!"appendVarint" = some encode_appendVarint := by decide +kernel
theorem find_appendVarintZigZag : findFunc library none t!"appendVarintZigZag" = some encode_appendVarintZigZag := by decide +kernel
theorem find_encodeLE32 : findFunc library none t!"encodeLE32" = some encode_encodeLE32 := by decide +kernel
theorem find_encodeLE64 : findFunc library none t!"encodeLE64" = some encode_encodeLE64 := by decide +kernel
theorem find_appendTag : findFunc library none t!"appendTag" = some encode_appendTag := by decide +kernel
theorem find_decodeZigZag64 : findFunc library none t!"decodeZigZag64" = some decode_decodeZigZag64 := by decide +kernel
theorem find_decodeVarint : findFunc library none t!"decodeVarint" = some decode_decodeVarint := by decide +kernel
theorem find_decodeVarintZigZag : findFunc library none t!"decodeVarintZigZag" = some decode_decodeVarintZigZag := by decide +kernel
theorem find_decodeLE32 : findFunc library none t!"decodeLE32" = some decode_decodeLE32 := by decide +kernel
theorem find_decodeLE64 : findFunc library none t!"decodeLE64" = some decode_decodeLE64 := by decide +kernel
theorem find_decodeTag : findFunc library none t!"decodeTag" = some decode_decodeTag := by decide +kernel
theorem find_decodeVarlen : findFunc library none t!"decodeVarlen" = some decode_decodeVarlen := by decide +kernel
theorem find_sizeOfBool : findFunc library none t!"sizeOfBool" = some normal_sizeOfBool := by decide +kernel
theorem find_encodeBool : findFunc library none t!"encodeBool" = some normal_encodeBool := by decide +kernel
theorem find_decodeBool : findFunc library none t!"decodeBool" = some normal_decodeBool := by decide +kernel
theorem find_sizeOfBytes : findFunc library none t!"sizeOfBytes" = some normal_sizeOfBytes := by decide +kernel
theorem find_encodeBytes : findFunc library none t!"encodeBytes" = some normal_encodeBytes := by decide +kernel
theorem find_decodeBytes : findFunc library none t!"decodeBytes" = some normal_decodeBytes := by decide +kernel
theorem find_sizeOfString : findFunc library none t!"sizeOfString" = some normal_sizeOfString := by decide +kernel
theorem find_encodeString : findFunc library none t!"encodeString" = some normal_encodeString := by decide +kernel
theorem find_decodeString : findFunc library none t!"decodeString" = some normal_decodeString := by decide +kernel
theorem find_sizeOfFloat32 : findFunc library none t!"sizeOfFloat32" = some normal_sizeOfFloat32 := by decide +kernel
theorem find_encodeFloat32 : findFunc library none t!"encodeFloat32" = some normal_encodeFloat32 := by decide +kernel
theorem find_decodeFloat32 : findFunc library none t!"decodeFloat32" = some normal_decodeFloat32 := by decide +kernel
theorem find_sizeOfFloat64 : findFunc library none t!"sizeOfFloat64" = some normal_sizeOfFloat64 := by decide +kernel
theorem find_encodeFloat64 : findFunc library none t!"encodeFloat64" = some normal_encodeFloat64 := by decide +kernel
theorem find_decodeFloat64 : findFunc library none t!"decodeFloat64" = some normal_decodeFloat64 := by decide +kernel
theorem find_sizeOfInt32 : findFunc library none t!"sizeOfInt32" = some normal_sizeOfInt32 := by decide +kernel
theorem find_encodeInt32 : findFunc library none t!"encodeInt32" = some normal_encodeInt32 := by decide +kernel
theorem find_decodeInt32 : findFunc library none t!"decodeInt32" = some normal_decodeInt32 := by decide +kernel
theorem find_sizeOfInt64 : findFunc library none t!"sizeOfInt64" = some normal_sizeOfInt64 := by decide +kernel
theorem find_encodeInt64 : findFunc library none t!"encodeInt64" = some normal_encodeInt64 := by decide +kernel
theorem find_decodeInt64 : findFunc library none t!"decodeInt64" = some normal_decodeInt64 := by decide +kernel
theorem find_sizeOfUint32 : findFunc library none t!"sizeOfUint32" = some normal_sizeOfUint32 := by decide +kernel
theorem find_encodeUint32 : findFunc library none t!"encodeUint32" = some normal_encodeUint32 := by decide +kernel
theorem find_decodeUint32 : findFunc library none t!"decodeUint32" = some normal_decodeUint32 := by decide +kernel
theorem find_sizeOfFixed32 : findFunc library none t!"sizeOfFixed32" = some normal_sizeOfFixed32 := by decide +kernel
theorem find_encodeFixed32 : findFunc library none t!"encodeFixed32" = some normal_encodeFixed32 := by decide +kernel
theorem find_decodeFixed32 : findFunc library none t!"decodeFixed32" = some normal_decodeFixed32 := by decide +kernel
theorem find_sizeOfUint64 : findFunc library none t!"sizeOfUint64" = some normal_sizeOfUint64 := by decide +kernel
theorem find_encodeUint64 : findFunc library none t!"encodeUint64" = some normal_encodeUint64 := by decide +kernel
theorem find_decodeUint64 : findFunc library none t!"decodeUint64" = some normal_decodeUint64 := by decide +kernel
theorem find_sizeOfFixed64 : findFunc library none t!"sizeOfFixed64" = some normal_sizeOfFixed64 := by decide +kernel
theorem find_encodeFixed64 : findFunc library none t!"encodeFixed64" = some normal_encodeFixed64 := by decide +kernel
theorem find_decodeFixed64 : findFunc library none t!"decodeFixed64" = some normal_decodeFixed64 := by decide +kernel
theorem find_sizeOfZigzag32 : findFunc library none t!"sizeOfZigzag32" = some normal_sizeOfZigzag32 := by decide +kernel
theorem find_encodeZigzag32 : findFunc library none t!"encodeZigzag32" = some normal_encodeZigzag32 := by decide +kernel
theorem find_decodeZigzag32 : findFunc library none t!"decodeZigzag32" = some normal_decodeZigzag32 := by decide +kernel
theorem find_sizeOfZigzag64 : findFunc library none t!"sizeOfZigzag64" = some normal_sizeOfZigzag64 := by decide +kernel
theorem find_encodeZigzag64 : findFunc library none t!"encodeZigzag64" = some normal_encodeZigzag64 := by decide +kernel
theorem find_decodeZigzag64 : findFunc library none t!"decodeZigzag64" = some normal_decodeZigzag64 := by decide +kernel
theorem find_sizeOfBoolRequired : findFunc library none t!"sizeOfBoolRequired" = some required_sizeOfBoolRequired := by decide +kernel
theorem find_encodeBoolRequired : findFunc library none t!"encodeBoolRequired" = some required_encodeBoolRequired := by decide +kernel
theorem find_sizeOfStringRequired : findFunc library none t!"sizeOfStringRequired" = some required_sizeOfStringRequired := by decide +kernel
theorem find_encodeStringRequired : findFunc library none t!"encodeStringRequired" = some required_encodeStringRequired := by decide +kernel
theorem find_sizeOfFloat32Required : findFunc library none t!"sizeOfFloat32Required" = some required_sizeOfFloat32Required := by decide +kernel
theorem find_encodeFloat32Required : findFunc library none t!"encodeFloat32Required" = some required_encodeFloat32Required := by decide +kernel
theorem find_sizeOfFloat64Required : findFunc library none t!"sizeOfFloat64Required" = some required_sizeOfFloat64Required := by decide +kernel
theorem find_encodeFloat64Required : findFunc library none t!"encodeFloat64Required" = some required_encodeFloat64Required := by decide +kernel
theorem find_sizeOfInt32Required : findFunc library none t!"sizeOfInt32Required" = some required_sizeOfInt32Required := by decide +kernel
theorem find_encodeInt32Required : findFunc library none t!"encodeInt32Required" = some required_encodeInt32Required := by decide +kernel
theorem find_sizeOfInt64Required : findFunc library none t!"sizeOfInt64Required" = some required_sizeOfInt64Required := by decide +kernel
theorem find_encodeInt64Required : findFunc library none t!"encodeInt64Required" = some required_encodeInt64Required := by decide +kernel
theorem find_sizeOfUint32Required : findFunc library none t!"sizeOfUint32Required" = some required_sizeOfUint32Required := by decide +kernel
theorem find_encodeUint32Required : findFunc library none t!"encodeUint32Required" = some required_encodeUint32Required := by decide +kernel
theorem find_sizeOfFixed32Required : findFunc library none t!"sizeOfFixed32Required" = some required_sizeOfFixed32Required := by decide +kernel
theorem find_encodeFixed32Required : findFunc library none t!"encodeFixed32Required" = some required_encodeFixed32Required := by decide +kernel
theorem find_sizeOfUint64Required : findFunc library none t!"sizeOfUint64Required" = some required_sizeOfUint64Required := by decide +kernel
theorem find_encodeUint64Required : findFunc library none t!"encodeUint64Required" = some required_encodeUint64Required := by decide +kernel
theorem find_sizeOfFixed64Required : findFunc library none t!"sizeOfFixed64Required" = some required_sizeOfFixed64Required := by decide +kernel
theorem find_encodeFixed64Required : findFunc library none t!"encodeFixed64Required" = some required_encodeFixed64Required := by decide +kernel
theorem find_sizeOfZigzag32Required : findFunc library none t!"sizeOfZigzag32Required" = some required_sizeOfZigzag32Required := by decide +kernel
theorem find_encodeZigzag32Required : findFunc library none t!"encodeZigzag32Required" = some required_encodeZigzag32Required := by decide +kernel
theorem find_sizeOfZigzag64Required : findFunc library none t!"sizeOfZigzag64Required" = some required_sizeOfZigzag64Required := by decide +kernel
theorem find_encodeZigzag64Required : findFunc library none t!"encodeZigzag64Required" = some required_encodeZigzag64Required := by decide +kernel
theorem find_sizeOfBoolOption : findFunc library none t!"sizeOfBoolOption" = some option_sizeOfBoolOption := by decide +kernel
theorem find_encodeBoolOption : findFunc library none t!"encodeBoolOption" = some option_encodeBoolOption := by decide +kernel
theorem find_decodeBoolOption : findFunc library none t!"decodeBoolOption" = some option_decodeBoolOption := by decide +kernel
theorem find_sizeOfStringOption : findFunc library none t!"sizeOfStringOption" = some option_sizeOfStringOption := by decide +kernel
theorem find_encodeStringOption : findFunc library none t!"encodeStringOption" = some option_encodeStringOption := by decide +kernel
theorem find_decodeStringOption : findFunc library none t!"decodeStringOption" = some option_decodeStringOption := by decide +kernel
theorem find_sizeOfInt32Option : findFunc library none t!"sizeOfInt32Option" = some option_sizeOfInt32Option := by decide +kernel
theorem find_encodeInt32Option : findFunc library none t!"encodeInt32Option" = some option_encodeInt32Option := by decide +kernel
theorem find_decodeInt32Option : findFunc library none t!"decodeInt32Option" = some option_decodeInt32Option := by decide +kernel
theorem find_sizeOfUint32Option : findFunc library none t!"sizeOfUint32Option" = some option_sizeOfUint32Option := by decide +kernel
theorem find_encodeUint32Option : findFunc library none t!"encodeUint32Option" = some option_encodeUint32Option := by decide +kernel
theorem find_decodeUint32Option : findFunc library none t!"decodeUint32Option" = some option_decodeUint32Option := by decide +kernel
theorem find_sizeOfInt64Option : findFunc library none t!"sizeOfInt64Option" = some option_sizeOfInt64Option := by decide +kernel
theorem find_encodeInt64Option : findFunc library none t!"encodeInt64Option" = some option_encodeInt64Option := by decide +kernel
theorem find_decodeInt64Option : findFunc library none t!"decodeInt64Option" = some option_decodeInt64Option := by decide +kernel
theorem find_sizeOfUint64Option : findFunc library none t!"sizeOfUint64Option" = some option_sizeOfUint64Option := by decide +kernel
theorem find_encodeUint64Option : findFunc library none t!"encodeUint64Option" = some option_encodeUint64Option := by decide +kernel
theorem find_decodeUint64Option : findFunc library none t!"decodeUint64Option" = some option_decodeUint64Option := by decide +kernel
theorem find_sizeOfZigzag32Option : findFunc library none t!"sizeOfZigzag32Option" = some option_sizeOfZigzag32Option := by decide +kernel
theorem find_encodeZigzag32Option : findFunc library none t!"encodeZigzag32Option" = some option_encodeZigzag32Option := by decide +kernel
theorem find_decodeZigzag32Option : findFunc library none t!"decodeZigzag32Option" = some option_decodeZigzag32Option := by decide +kernel
theorem find_sizeOfZigzag64Option : findFunc library none t!"sizeOfZigzag64Option" = some option_sizeOfZigzag64Option := by decide +kernel
theorem find_encodeZigzag64Option : findFunc library none t!"encodeZigzag64Option" = some option_encodeZigzag64Option := by decide +kernel
theorem find_decodeZigzag64Option : findFunc library none t!"decodeZigzag64Option" = some option_decodeZigzag64Option := by decide +kernel
theorem find_sizeOfFixed32Option : findFunc library none t!"sizeOfFixed32Option" = some option_sizeOfFixed32Option := by decide +kernel
theorem find_encodeFixed32Option : findFunc library none t!"encodeFixed32Option" = some option_encodeFixed32Option := by decide +kernel
theorem find_decodeFixed32Option : findFunc library none t!"decodeFixed32Option" = some option_decodeFixed32Option := by decide +kernel
theorem find_sizeOfFixed64Option : findFunc library none t!"sizeOfFixed64Option" = some option_sizeOfFixed64Option := by decide +kernel
theorem find_encodeFixed64Option : findFunc library none t!"encodeFixed64Option" = some option_encodeFixed64Option := by decide +kernel
theorem find_decodeFixed64Option : findFunc library none t!"decodeFixed64Option" = some option_decodeFixed64Option := by decide +kernel
theorem find_sizeOfFloat32Option : findFunc library none t!"sizeOfFloat32Option" = some option_sizeOfFloat32Option := by decide +kernel
theorem find_encodeFloat32Option : findFunc library none t!"encodeFloat32Option" = some option_encodeFloat32Option := by decide +kernel
theorem find_decodeFloat32Option : findFunc library none t!"decodeFloat32Option" = some option_decodeFloat32Option := by decide +kernel
theorem find_sizeOfFloat64Option : findFunc library none t!"sizeOfFloat64Option" = some option_sizeOfFloat64Option := by decide +kernel
theorem find_encodeFloat64Option : findFunc library none t!"encodeFloat64Option" = some option_encodeFloat64Option := by decide +kernel
theorem find_decodeFloat64Option : findFunc library none t!"decodeFloat64Option" = some option_decodeFloat64Option := by decide +kernel
theorem find_IsSome : findFunc library (some (some t!"Option")) t!"IsSome" = some isSome_IsSome := by decide +kernel
theorem find_unsafePointer : findFunc library (some (some t!"Option")) t!"unsafePointer" = some unsafePointer_unsafePointer := by decide +kernel
theorem find_fieldNumber : findFunc library (some (some t!"structField")) t!"fieldNumber" = some struct_fieldNumber := by decide +kernel
theorem find_wireType : findFunc library (some (some t!"structField")) t!"wireType" = some struct_wireType := by decide +kernel
theorem find_pointer : findFunc library (some (some t!"structField")) t!"pointer" = some struct_pointer := by decide +kernel
theorem find_size : findFunc library (some (some t!"structInfo")) t!"size" = some struct_size := by decide +kernel
theorem find_encode : findFunc library (some (some t!"structInfo")) t!"encode" = some struct_encode := by decide +kernel
theorem find_decode : findFunc library (some (some t!"structInfo")) t!"decode" = some struct_decode := by decide +kernel
theorem find_deref : findFunc library none t!"deref" = some deref_deref := by decide +kernel
theorem find_growSlice : findFunc library none t!"growSlice" = some growSlice_growSlice := by decide +kernel
theorem find_fieldError : findFunc library none t!"fieldError" = some fieldError_fieldError := by decide +kernel
/-- Functions of the runtime. -/
theorem find_MakeMap : findFunc library none t!"MakeMap" = none := by decide +kernel
theorem find_MapAssign : findFunc library none t!"MapAssign" = none := by decide +kernel
theorem find_Assign : findFunc library none t!"Assign" = none := by decide +kernel
/-- Codecs have no methods. -/
theorem find_codec (n : Text) : findFunc library (some none) n = none := by
  rw [findFunc, List.find?_eq_none]
  intro f hf h
  have : ∀ f ∈ library, decide (f.recv.map (fun r => recvType r.2) = some none) = false := by decide +kernel
  have := this f hf
  simp only [Bool.and_eq_true] at h
  rw [h.2] at this
  cases this

end Pb.Go
