import Verif.Spec.Source
import Verif.Model.SourceTree
/-
The syntax trees of the source files are the ones in `Model/SourceTree`.
-/
namespace Pb.Go
open Tree

set_option maxRecDepth 100000

theorem parse_size : parse sizeGo = some size_decls := by decide +kernel
theorem parse_encode : parse encodeGo = some encode_decls := by decide +kernel
theorem parse_decode : parse decodeGo = some decode_decls := by decide +kernel
theorem parse_normal : parse normalCodecGo = some normal_decls := by decide +kernel
theorem parse_required : parse requiredCodecGo = some required_decls := by decide +kernel
theorem parse_option : parse optionCodecGo = some option_decls := by decide +kernel
theorem parse_isSome : parse isSomeGo = some isSome_decls := by decide +kernel
theorem parse_unsafePointer : parse unsafePointerGo = some unsafePointer_decls := by decide +kernel
theorem parse_struct : parse structGo = some struct_decls := by decide +kernel
theorem parse_deref : parse derefGo = some deref_decls := by decide +kernel
theorem parse_growSlice : parse growSliceGo = some growSlice_decls := by decide +kernel
theorem parse_fieldError : parse fieldErrorGo = some fieldError_decls := by decide +kernel

theorem parse_messageSize : parseClosure messageSizeGo = some closure_messageSize := by decide +kernel
theorem parse_messageEncode : parseClosure messageEncodeGo = some closure_messageEncode := by decide +kernel
theorem parse_messageDecode : parseClosure messageDecodeGo = some closure_messageDecode := by decide +kernel
theorem parse_pointerSize : parseClosure pointerSizeGo = some closure_pointerSize := by decide +kernel
theorem parse_pointerEncode : parseClosure pointerEncodeGo = some closure_pointerEncode := by decide +kernel
theorem parse_pointerDecode : parseClosure pointerDecodeGo = some closure_pointerDecode := by decide +kernel
theorem parse_sliceSize : parseClosure sliceSizeGo = some closure_sliceSize := by decide +kernel
theorem parse_sliceEncode : parseClosure sliceEncodeGo = some closure_sliceEncode := by decide +kernel
theorem parse_sliceDecode : parseClosure sliceDecodeGo = some closure_sliceDecode := by decide +kernel
theorem parse_mapSize : parseClosure mapSizeGo = some closure_mapSize := by decide +kernel
theorem parse_mapEncode : parseClosure mapEncodeGo = some closure_mapEncode := by decide +kernel
theorem parse_mapDecode : parseClosure mapDecodeGo = some closure_mapDecode := by decide +kernel

/-- All functions. -/
def library : List FuncDecl :=
  funcsOf (size_decls ++ (encode_decls ++ (decode_decls ++ (normal_decls ++ (required_decls ++ (option_decls ++ (isSome_decls ++
    (unsafePointer_decls ++ (struct_decls ++ (deref_decls ++ (growSlice_decls ++ (fieldError_decls ++ []))))))))))))

theorem program_eq : program = library := by
  simp only [program, sources, readAll, parse_size, parse_encode, parse_decode, parse_normal, parse_required, parse_option, parse_isSome,
    parse_unsafePointer, parse_struct, parse_deref, parse_growSlice, parse_fieldError, Option.getD, library]

end Pb.Go
